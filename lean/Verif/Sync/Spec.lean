import Verif.Sync.Model
/-!
# Locks and condition variables: what is read off the record of calls and returns
-/
namespace Verif.Sync

/-- the function in which the thread `t` is -/
def inCallStep (t : Tid) (b : Option Op) : Ev → Option Op
  | .enter u op => if u = t then some op else b
  | .ret u _ _ => if u = t then none else b
def inCall (log : Log) (t : Tid) : Option Op := log.foldl (inCallStep t) none

/-- `h` is a lock: it was returned by `Lock_Init`, and `Lock_Deinit` was not called (or it failed) -/
def liveStep (h : Nat) (b : Bool) : Ev → Bool
  | .ret _ .lockInit (.handle p) => if p = h ∧ p ≠ 0 then true else b
  | .enter _ (.lockDeinit p) => if p = h then false else b
  | .ret _ (.lockDeinit p) (.lock .error) => if p = h ∧ p ≠ 0 then true else b
  | _ => b
def live (log : Log) (h : Nat) : Bool := log.foldl (liveStep h) false

/-- `c` is a condition variable -/
def liveCStep (c : Nat) (b : Bool) : Ev → Bool
  | .ret _ .condInit (.handle p) => if p = c ∧ p ≠ 0 then true else b
  | .enter _ (.condDeinit p) => if p = c then false else b
  | _ => b
def liveC (log : Log) (c : Nat) : Bool := log.foldl (liveCStep c) false

/-- The thread `t` holds the lock `h`: from the return of a successful `Lock` to the call of `Unlock` (if that fails: again after it),
but not during a `Condition_Wait`. -/
def heldStep (t : Tid) (h : Nat) (b : Bool) : Ev → Bool
  | .ret u (.lock p) (.lock .ok) => if u = t ∧ p = h then true else b
  | .enter u (.unlock p) => if u = t ∧ p = h then false else b
  | .ret u (.unlock p) (.lock .error) => if u = t ∧ p = h ∧ p ≠ 0 then true else b
  | .enter u (.wait c p _) => if u = t ∧ p = h ∧ c ≠ 0 then false else b
  | .ret u (.wait c p _) _ => if u = t ∧ p = h ∧ c ≠ 0 ∧ p ≠ 0 then true else b
  | _ => b
def held (log : Log) (t : Tid) (h : Nat) : Bool := log.foldl (heldStep t h) false

def Op.usesLock (h : Nat) : Op → Bool
  | .lock p | .unlock p | .lockDeinit p => p = h
  | .wait _ p _ => p = h
  | _ => false
def Op.usesCond (c : Nat) : Op → Bool
  | .post p | .condDeinit p => p = c
  | .wait p _ _ => p = c
  | _ => false

/-- What callers have to observe: handles are `NULL` or alive; a thread does not lock what it holds, and unlocks and waits with what it
holds; a lock is given up when nobody holds or uses it, a condition variable when nobody uses it; all threads that wait on a condition
variable at the same time do so with the same lock (POSIX). -/
def Allowed (log : Log) (t : Tid) : Op → Prop
  | .lockInit | .condInit => True
  | .lock h => h = 0 ∨ (live log h = true ∧ held log t h = false)
  | .unlock h => h = 0 ∨ (held log t h = true)
  | .lockDeinit h => h = 0 ∨ (live log h = true ∧ (∀ u, held log u h = false) ∧ ∀ u op, inCall log u = some op → op.usesLock h = false)
  | .post c => c = 0 ∨ liveC log c = true
  | .wait c h _ => c = 0 ∨ h = 0 ∨ (liveC log c = true ∧ held log t h = true ∧ ∀ u h' ms, inCall log u = some (.wait c h' ms) → h' = h)
  | .condDeinit c => c = 0 ∨ (liveC log c = true ∧ ∀ u op, inCall log u = some op → op.usesCond c = false)

/-- what a function may answer: `NULL` is refused, and only a wait with a positive limit ends with `COND_TIMEOUT` -/
def Truthful : Op → Ret → Prop
  | .lockInit, r | .condInit, r => ∃ p, r = .handle p
  | .lock h, r | .unlock h, r | .lockDeinit h, r => r = .lock .error ∨ (h ≠ 0 ∧ r = .lock .ok)
  | .post c, r => if c = 0 then r = .cond .invalid_arg else r = .cond .ok ∨ r = .cond .error
  | .wait c h ms, r => if c = 0 ∨ h = 0 then r = .cond .invalid_arg else r = .cond .ok ∨ r = .cond .error ∨ (ms > 0 ∧ r = .cond .timeout)
  | .condDeinit _, r => r = .none

/-- several steps -/
inductive Steps (allowed : Log → Tid → Op → Prop) : State → State → Prop
  | refl {s} : Steps allowed s s
  | step {s s' s''} : Step allowed s s' → Steps allowed s' s'' → Steps allowed s s''

/-- another thread holds the lock or is inside a function that uses it -/
def Contended (log : Log) (t : Tid) (h : Nat) : Prop := ∃ u, u ≠ t ∧ (held log u h = true ∨ ∃ op, inCall log u = some op ∧ op.usesLock h = true)

/-- `t` has not returned from a function -/
def NoRet (t : Tid) (l : Log) : Prop := ∀ op r, Ev.ret t op r ∉ l

/-- `t` has called `Condition_Wait` with `c` and the lock `h`, and has not returned; since then another thread `u` has held the lock. -/
def GaveUp (log : Log) (t : Tid) (c h : Nat) (ms : Int) : Prop :=
  ∃ l1 l2 l3 u, log = l1 ++ [.enter t (.wait c h ms)] ++ l2 ++ l3 ∧ held (l1 ++ [.enter t (.wait c h ms)] ++ l2) u h = true ∧ NoRet t (l2 ++ l3)

/-- … and after that `v` has called `Condition_Post`, which has succeeded. -/
def Posted (log : Log) (t : Tid) (c h : Nat) (ms : Int) : Prop :=
  ∃ l4 l5 l6 v, log = l4 ++ [.enter v (.post c)] ++ l5 ++ [.ret v (.post c) (.cond .ok)] ++ l6 ∧ GaveUp l4 t c h ms ∧ NoRet v l5 ∧ NoRet t (l5 ++ l6)

end Verif.Sync
