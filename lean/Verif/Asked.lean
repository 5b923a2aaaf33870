import Verif.World
import Verif.Hist
/-!
# What the client asked for and what the record says

A history is run on the client's operations; the record lists the calls that were made.  `Asks op out e`: the entry `e` is the call the operation `op`
asks for, made with its arguments, and it returned `out`.
-/
namespace Verif

/-- the operations for which a call was made, in order, each with what it returned -/
def called {Op O : Type} (ops : List Op) (outs : List (Option O)) : List (Op × O) := (ops.zip outs).filterMap fun p => p.2.map fun o => (p.1, o)

/-- two lists, element by element -/
def Matched {A B : Type} (R : A → B → Prop) (as : List A) (bs : List B) : Prop :=
  as.length = bs.length ∧ ∀ (k : Nat) a b, as[k]? = some a → bs[k]? = some b → R a b

theorem Matched.nil {A B : Type} {R : A → B → Prop} : Matched R [] [] := ⟨rfl, fun k a b h => by simp at h⟩

theorem Matched.cons {A B : Type} {R : A → B → Prop} {a : A} {b : B} {as : List A} {bs : List B} (h : R a b) (ht : Matched R as bs) : Matched R (a :: as) (b :: bs) :=
  ⟨by simp [ht.1], fun k x y hx hy => by
    cases k with
    | zero => cases hx; cases hy; exact h
    | succ k => exact ht.2 k x y (by simpa using hx) (by simpa using hy)⟩

/-- every entry of the second list has its partner -/
theorem Matched.of_split {A B : Type} {R : A → B → Prop} {as : List A} {l1 l2 : List B} {b : B} (h : Matched R as (l1 ++ b :: l2)) :
    ∃ a, as[l1.length]? = some a ∧ R a b := by
  have hl : l1.length < as.length := by have := h.1; simp at this; omega
  exact ⟨as[l1.length], by rw [List.getElem?_eq_getElem hl], h.2 l1.length _ b (List.getElem?_eq_getElem hl) (by simp)⟩

/-- the calls of a history are those its operations ask for, in the same order -/
theorem Runs.matched {S Op O E : Type} {step : S × List E → Op → Option O → S × List E → Prop} {R : Op × O → E → Prop}
    (one : ∀ {x op o x'}, step x op o x' → (o = none ∧ x'.2 = x.2) ∨ ∃ r e, o = some r ∧ x'.2 = x.2 ++ [e] ∧ R (op, r) e)
    {x x' : S × List E} {ops : List Op} {outs : List (Option O)} (h : Runs step x ops outs x') : ∃ l, x'.2 = x.2 ++ l ∧ Matched R (called ops outs) l := by
  induction h with
  | nil x => exact ⟨[], by simp, Matched.nil⟩
  | @cons x op o x1 ops os x2 h1 _ ih =>
    obtain ⟨l, hl, hm⟩ := ih
    rcases one h1 with ⟨rfl, h⟩ | ⟨r, e, rfl, h, hr⟩
    · exact ⟨l, by rw [hl, h], hm⟩
    · refine ⟨e :: l, by rw [hl, h]; simp, ?_⟩
      have : called (op :: ops) (some r :: os) = (op, r) :: called ops os := rfl
      rw [this]
      exact Matched.cons hr hm

/-- the operations that create something: the entry of the `j`-th one has the position `j` -/
theorem Runs.created {A Op O E : Type} {step : List A × List E → Op → Option O → List A × List E → Prop} (creates : Op → Bool) (C : Op → E → Prop) (pos : E → Option Nat)
    (one : ∀ {x op o x'}, step x op o x' → (creates op = true ∧ x'.1.length = x.1.length + 1 ∧ ∃ e, x'.2 = x.2 ++ [e] ∧ pos e = some x.1.length ∧ C op e) ∨
      (creates op = false ∧ x'.1.length = x.1.length ∧ ∃ l, x'.2 = x.2 ++ l ∧ ∀ e ∈ l, ∀ op', creates op' = true → ¬ C op' e))
    {x x' : List A × List E} {ops : List Op} {outs : List (Option O)} (h : Runs step x ops outs x') :
    ∃ l, x'.2 = x.2 ++ l ∧ ∀ e ∈ l, ∀ op', creates op' = true → C op' e → ∃ j op, pos e = some (x.1.length + j) ∧ (ops.filter creates)[j]? = some op ∧ C op e := by
  induction h with
  | nil x => exact ⟨[], by simp, fun e he => by simp at he⟩
  | @cons x op o x1 ops os x2 h1 _ ih =>
    obtain ⟨l, hl, hm⟩ := ih
    rcases one h1 with ⟨hc, hn, e, he, hp, hC⟩ | ⟨hc, hn, l0, he, hC⟩
    · refine ⟨e :: l, by rw [hl, he]; simp, fun e' he' op' h1 h2 => ?_⟩
      rw [List.filter_cons_of_pos hc]
      rcases List.mem_cons.1 he' with rfl | he'
      · exact ⟨0, op, hp, rfl, hC⟩
      · obtain ⟨j, op2, h3, h4, h5⟩ := hm e' he' op' h1 h2
        exact ⟨j + 1, op2, by rw [h3, hn]; congr 1; omega, by simpa using h4, h5⟩
    · refine ⟨l0 ++ l, by rw [hl, he]; simp, fun e' he' op' h1 h2 => ?_⟩
      rw [List.filter_cons_of_neg (by simp [hc])]
      rcases List.mem_append.1 he' with he' | he'
      · exact absurd h2 (hC e' he' op' h1)
      · obtain ⟨j, op2, h3, h4, h5⟩ := hm e' he' op' h1 h2
        exact ⟨j, op2, by rw [h3, hn], h4, h5⟩

end Verif
