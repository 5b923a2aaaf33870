import Verif.Hist
/-!
# Calls that act on handles and on an outside world

The functions of another component (operating system, transport, IO implementation) are parameters of the
models.  What is assumed of them is a contract over an abstract resource `Net w`: any predicate on memory,
indexed by what has happened so far (for instance the list of calls made, with their arguments and results).
Each call consumes `Net w` and gives back `Net w'` with the call recorded.  As `Net` is arbitrary and memory
cannot be duplicated, a history statement about `Net` says exactly which calls were made, in which order.
-/
namespace Verif
variable {rel : Prop} {A W O α : Type}

/-- all handles of a client, and the world -/
def OwnW (R : Ptr → A → HProp) (Net : W → HProp) (env : List Nat) (x : List A × W) : HProp :=
  Own R env x.1 ∗ Net x.2

/-- a call on the handle at position `i`, with its effect on the world -/
def On1W (x : List A × W) (i : Nat) (E : A → W → O → A → W → Prop) (o : Option O) (x' : List A × W) : Prop :=
  (x.1[i]? = none ∧ o = none ∧ x' = x) ∨
    ∃ a r a' w', x.1[i]? = some a ∧ o = some r ∧ E a x.2 r a' w' ∧ x' = (x.1.set i a', w')

/-- a constructor: the new handle goes to the end of the table -/
def NewW (x : List A × W) (E : W → O → A → W → Prop) (o : Option O) (x' : List A × W) : Prop :=
  ∃ b a' w', o = some b ∧ E x.2 b a' w' ∧ x' = (x.1 ++ [a'], w')

section
variable {R : Ptr → A → HProp} {Net : W → HProp} {env : List Nat} {x : List A × W}

theorem liftW_new {c : M Nat} {E : W → O → A → W → Prop} {f : Nat → O}
    (hc : ∀ w, Triple rel (Net w) c (fun r => ∃∃ a' w', (E w (f r) a' w') ⋏ R r a' ∗ Net w')) :
    Triple rel (OwnW R Net env x) (do let h ← c; pure (some (f h), env ++ [h]))
      (fun r => ∃∃ x', (NewW x E r.1 x') ⋏ OwnW R Net r.2 x') := by
  unfold OwnW
  step (hc x.2) into r
  intro a' w' hE
  refine Triple.pure (entails_ex_r (x.1 ++ [a'], w') (entails_pand_r ?_ ⟨_, a', w', rfl, hE, rfl⟩))
  refine entails_trans ?_ (sep_mono Own_snoc (entails_refl _))
  sep_cancel

theorem liftW_op1 {i : Nat} {c : Nat → M α} {E : A → W → O → A → W → Prop} {f : α → O}
    (hc : ∀ h a w, Triple rel (R h a ∗ Net w) (c h) (fun r => ∃∃ a' w', (E a w (f r) a' w') ⋏ R h a' ∗ Net w')) :
    Triple rel (OwnW R Net env x) (on1 env i fun h => do let r ← c h; pure (some (f r), env))
      (fun r => ∃∃ x', (On1W x i E r.1 x') ⋏ OwnW R Net r.2 x') := by
  refine Triple.know (φ := env.length = x.1.length) (by rintro _ ⟨a, b, _, _, h, _⟩; exact h.1) fun hl => ?_
  unfold on1
  cases hi : env[i]? with
  | none => exact Triple.pure (entails_ex_r x (entails_pand_r (entails_refl _) (Or.inl ⟨get_none hl hi, rfl, rfl⟩)))
  | some h =>
    obtain ⟨a, F, ha, h2, h3⟩ := Own_get (R := R) hi hl
    dsimp only
    unfold OwnW
    rw [h2, sep_assoc]
    step (hc h a x.2) into r
    intro a' w' hE
    refine Triple.pure (entails_ex_r (x.1.set i a', w') (entails_pand_r ?_ (Or.inr ⟨a, _, a', w', ha, rfl, hE, rfl⟩)))
    have := h3 h a'
    rw [set_self hi] at this
    rw [this]; sep_cancel

/-- destroying a handle: the position becomes NULL -/
theorem liftW_del {A : Type} {R : Ptr → A → HProp} {x : List (Option A) × W} {i : Nat} {c : Nat → M Unit} {o : O}
    {E : Option A → W → O → Option A → W → Prop}
    (hc : ∀ h a w, Triple rel (ORep R h a ∗ Net w) (c h) (fun _ => ∃∃ w', (E a w o none w') ⋏ Net w')) :
    Triple rel (OwnW (ORep R) Net env x) (on1 env i fun h => do c h; pure (some o, env.set i 0))
      (fun r => ∃∃ x', (On1W x i E r.1 x') ⋏ OwnW (ORep R) Net r.2 x') := by
  refine Triple.know (φ := env.length = x.1.length) (by rintro _ ⟨a, b, _, _, h, _⟩; exact h.1) fun hl => ?_
  unfold on1
  cases hi : env[i]? with
  | none => exact Triple.pure (entails_ex_r x (entails_pand_r (entails_refl _) (Or.inl ⟨get_none hl hi, rfl, rfl⟩)))
  | some h =>
    obtain ⟨a, F, ha, h2, h3⟩ := Own_get (R := ORep R) hi hl
    dsimp only
    unfold OwnW
    rw [h2, sep_assoc]
    step (hc h a x.2) into r
    intro w' hE
    refine Triple.pure (entails_ex_r (x.1.set i none, w') (entails_pand_r ?_ (Or.inr ⟨a, o, none, w', ha, rfl, hE, rfl⟩)))
    rw [h3, ORep_null, emp_sep]; sep_cancel

end
end Verif
