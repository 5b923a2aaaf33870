import Verif.Tick.Model
import Verif.World
/-! # What the tick counter promises -/
namespace Verif.Tick

/-- A reading of the clock that may follow the readings `tr`: -1 (failure), or seconds since 1970, not before an
earlier reading, less than 285 000 years. -/
def NextReading (tr : List Int) (t : Int) : Prop :=
  t = -1 ∨ (0 ≤ t ∧ t < 9007199254740 ∧ ∀ u ∈ tr, u ≤ t)

/-- Contract of the clock: `Net tr` is its memory after the readings `tr`. -/
def Honours (rel : Prop) (clock : M Int) (Net : List Int → HProp) : Prop :=
  ∀ tr, Triple rel (Net tr) clock (fun t => (NextReading tr t ∧ -(2 ^ 63) ≤ t ∧ t < 2 ^ 63) ⋏ Net (tr ++ [t]))

/-- `tickcounter_create`: takes one reading, which the counter remembers (`a' = some t`); `NULL` if memory is refused
(no reading) or the reading failed. -/
def CreateE (oom : Prop) (tr : List Int) (ok : Bool) (a' : Option Int) (tr' : List Int) : Prop :=
  (ok = false ∧ a' = none ∧ ((oom ∧ tr' = tr) ∨ tr' = tr ++ [-1])) ∨
    ∃ t, ok = true ∧ t ≠ -1 ∧ a' = some t ∧ tr' = tr ++ [t]

/-- `tickcounter_get_current_ms` with the variable `old` as destination: result and its new content. -/
def GetE (a : Option Int) (tr : List Int) (old : Nat) (r : Int) (new : Nat) (tr' : List Int) : Prop :=
  match a with
  | none => r ≠ 0 ∧ new = old ∧ tr' = tr
  | some t0 => ∃ t, tr' = tr ++ [t] ∧
      if t = -1 then r ≠ 0 ∧ new = old else r = 0 ∧ (new : Int) = 1000 * (t - t0)

inductive Op | create | get (i : Nat) | destroy (i : Nat)
  deriving DecidableEq, Repr

/-- Client state: the counters, the readings of the clock, and the content of the variable receiving results. -/
structure Abs where
  as : List (Option Int)
  tr : List Int
  out : Nat

/-- One client call.  `o`: result (for `create` 1 or 0), `none` if there is no such position. -/
def step (oom : Prop) (x : Abs) (op : Op) (o : Option Int) (x' : Abs) : Prop :=
  match op with
  | .create => ∃ ok a', CreateE oom x.tr ok a' x'.tr ∧ o = some (if ok then 1 else 0) ∧ x'.as = x.as ++ [a'] ∧ x'.out = x.out
  | .get i => (x.as[i]? = none ∧ o = none ∧ x' = x) ∨
      ∃ a r, x.as[i]? = some a ∧ o = some r ∧ GetE a x.tr x.out r x'.out x'.tr ∧ x'.as = x.as
  | .destroy i => (x.as[i]? = none ∧ o = none ∧ x' = x) ∨
      ∃ a, x.as[i]? = some a ∧ o = some 0 ∧ x' = { x with as := x.as.set i none }

end Verif.Tick
