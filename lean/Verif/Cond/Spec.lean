import Verif.Cond.Model
import Verif.World
/-! # What the condition variable adapter promises -/
namespace Verif.Cond

/-- Calls received by the operating system, with their results. -/
inductive Ev where
  | init (cond : Nat) (clock r : Int)
  | destroy (cond : Nat) (r : Int)
  | broadcast (cond : Nat) (r : Int)
  | wait (cond mutex : Nat) (r : Int)
  | timedwait (cond mutex : Nat) (t : Timespec) (r : Int)
  | gettime (clock : Int) (t : Timespec)
  deriving DecidableEq, Repr

/-- a valid time specification -/
def Timespec.valid (t : Timespec) : Prop := 0 ≤ t.nsec ∧ t.nsec < 1000000000
/-- the time it denotes, in nanoseconds -/
def Timespec.ns (t : Timespec) : Int := t.sec * 1000000000 + t.nsec

/-- Contract of the operating system (POSIX).  `Net tr`: its memory after exactly the calls `tr`; `C p`: an initialised
condition variable at `p` (any predicate).  The clock returns valid times less than `2^62` seconds from its origin
(146 billion years); it does not fail (POSIX: `clock_gettime` fails only for an unknown clock). -/
structure Honours (rel : Prop) (os : Os) (Net : List Ev → HProp) (C : Nat → HProp) : Prop where
  init : ∀ p c tr b, b.length = 6 → Triple rel (Net tr ∗ p ↦ b) (os.cond_init p c)
    (fun r => Net (tr ++ [.init p c r]) ∗ if r = 0 then C p else ∃∃ b', (b'.length = 6) ⋏ p ↦ b')
  destroy : ∀ p tr, Triple rel (Net tr ∗ C p) (os.cond_destroy p)
    (fun r => Net (tr ++ [.destroy p r]) ∗ ∃∃ b, (b.length = 6) ⋏ p ↦ b)
  broadcast : ∀ p tr, Triple rel (Net tr ∗ C p) (os.cond_broadcast p) (fun r => Net (tr ++ [.broadcast p r]) ∗ C p)
  wait : ∀ p m tr, Triple rel (Net tr ∗ C p) (os.cond_wait p m) (fun r => Net (tr ++ [.wait p m r]) ∗ C p)
  /-- only valid deadlines are accepted -/
  timedwait : ∀ p m t tr, t.valid → Triple rel (Net tr ∗ C p) (os.cond_timedwait p m t)
    (fun r => Net (tr ++ [.timedwait p m t r]) ∗ C p)
  gettime : ∀ c tr, Triple rel (Net tr) (os.clock_gettime c)
    (fun t => (t.valid ∧ -(2 ^ 62) ≤ t.sec ∧ t.sec < 2 ^ 62) ⋏ Net (tr ++ [.gettime c t]))

/-- `Condition_Init`: `NULL` only if memory was refused, with no call made; otherwise one condition variable is
initialised with the monotonic clock (`a' = some true`), unless the operating system refused (`some false`). -/
def InitE (oom : Prop) (tr : List Ev) (h : Nat) (a' : Option Bool) (tr' : List Ev) : Prop :=
  (h = 0 ∧ oom ∧ a' = none ∧ tr' = tr) ∨
    ∃ r, h ≠ 0 ∧ tr' = tr ++ [.init h 1 r] ∧ a' = some (decide (r = 0))

/-- `Condition_Post`: one broadcast; success is reported exactly if it succeeded. -/
def PostE (h : Nat) (tr : List Ev) (o : COND_RESULT) (tr' : List Ev) : Prop :=
  if h = 0 then o = .invalid_arg ∧ tr' = tr
  else ∃ r, tr' = tr ++ [.broadcast h r] ∧ o = if r = 0 then .ok else .error

/-- `Condition_Wait`: with a positive timeout the clock is read once and the wait has a valid deadline exactly that
many milliseconds later; otherwise the wait has no deadline. -/
def WaitE (h lock : Nat) (ms : Int) (tr : List Ev) (o : COND_RESULT) (tr' : List Ev) : Prop :=
  if h = 0 ∨ lock = 0 then o = .invalid_arg ∧ tr' = tr
  else if 0 < ms then
    ∃ now t r, tr' = tr ++ [.gettime 1 now, .timedwait h lock t r] ∧ t.valid ∧ t.ns = now.ns + ms * 1000000 ∧
      o = if r = 0 then .ok else if r = 110 then .timeout else .error
  else ∃ r, tr' = tr ++ [.wait h lock r] ∧ o = if r = 0 then .ok else .error

end Verif.Cond
