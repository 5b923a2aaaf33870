import Verif.Mem
/-!
# Separation logic over the memory model

`Triple rel P c Q` is total correctness: from every state whose heap satisfies `P ∗ F`, the computation `c`
ends without undefined behaviour in a state whose heap satisfies `Q r ∗ F`, for every frame `F`.
`rel` is the assumption that the allocator is reliable (never refuses a request up to `maxObj`).
The logic is linear: nothing can be dropped, so ownership in the postcondition is exact.
-/

namespace Verif

abbrev HProp := Heap → Prop

def Heap.empty : Heap := fun _ => none
def Heap.single (p : Ptr) (b : Block) : Heap := fun q => if q = p then some b else none
def Heap.disj (a b : Heap) : Prop := ∀ p, a p = none ∨ b p = none
def Heap.union (a b : Heap) : Heap := fun p => (a p).or (b p)
/-- Finitely many live blocks. -/
def Heap.fin (h : Heap) : Prop := ∃ n, ∀ p, n ≤ p → h p = none

/-- Empty heap. -/
def emp : HProp := fun h => h = Heap.empty
/-- Separating conjunction. -/
def sep (P Q : HProp) : HProp := fun h => ∃ a b, Heap.disj a b ∧ h = Heap.union a b ∧ P a ∧ Q b
/-- A pure fact beside an assertion. -/
def pand (φ : Prop) (P : HProp) : HProp := fun h => φ ∧ P h
def hex {α : Sort _} (P : α → HProp) : HProp := fun h => ∃ x, P x h
/-- `p` is a live block with exactly these slots. -/
def pts (p : Ptr) (b : Block) : HProp := fun h => p ≠ 0 ∧ b.length ≤ maxObj ∧ h = Heap.single p b

infixr:45 " ∗ " => sep
infixr:40 " ⋏ " => pand
infix:50 " ↦ " => pts
open Lean in
macro "∃∃" xs:explicitBinders ", " b:term : term => do
  return ⟨← expandExplicitBinders ``hex xs b⟩

def entails (P Q : HProp) : Prop := ∀ h, P h → Q h
infix:25 " ⊢ₕ " => entails

/-! ## Algebra -/

theorem Heap.union_comm {a b : Heap} (h : Heap.disj a b) : Heap.union a b = Heap.union b a := by
  funext p; unfold Heap.union
  rcases h p with h | h <;> simp [h]

theorem Heap.disj_comm {a b : Heap} (h : Heap.disj a b) : Heap.disj b a := fun p => (h p).symm

theorem sep_comm (P Q : HProp) : (P ∗ Q) = (Q ∗ P) := by
  have : ∀ P Q : HProp, ∀ h, sep P Q h → sep Q P h := by
    rintro P Q h ⟨a, b, hd, rfl, hp, hq⟩
    exact ⟨b, a, Heap.disj_comm hd, Heap.union_comm hd, hq, hp⟩
  funext h; exact propext ⟨this _ _ h, this _ _ h⟩

theorem sep_assoc (P Q R : HProp) : ((P ∗ Q) ∗ R) = (P ∗ Q ∗ R) := by
  funext h; apply propext; constructor
  · rintro ⟨ab, c, hd, rfl, ⟨a, b, hd', rfl, hp, hq⟩, hr⟩
    refine ⟨a, b.union c, ?_, ?_, hp, b, c, ?_, rfl, hq, hr⟩
    · intro p; rcases hd p with h | h <;> rcases hd' p with h' | h' <;> simp_all [Heap.union]
    · funext p; simp [Heap.union, Option.or_assoc]
    · intro p; rcases hd p with h | h <;> simp_all [Heap.union]
  · rintro ⟨a, bc, hd, rfl, hp, b, c, hd', rfl, hq, hr⟩
    refine ⟨a.union b, c, ?_, ?_, ⟨a, b, ?_, rfl, hp, hq⟩, hr⟩
    · intro p; rcases hd p with h | h <;> rcases hd' p with h' | h' <;> simp_all [Heap.union]
    · funext p; simp [Heap.union, Option.or_assoc]
    · intro p; rcases hd p with h | h <;> simp_all [Heap.union]

theorem sep_left_comm (P Q R : HProp) : (P ∗ Q ∗ R) = (Q ∗ P ∗ R) := by
  rw [← sep_assoc, sep_comm P Q, sep_assoc]

theorem emp_sep (P : HProp) : (emp ∗ P) = P := by
  funext h; apply propext; constructor
  · rintro ⟨a, b, hd, rfl, rfl, hp⟩
    have : Heap.union Heap.empty b = b := by funext p; simp [Heap.union, Heap.empty]
    rwa [this]
  · intro hp
    exact ⟨Heap.empty, h, fun p => Or.inl rfl, by funext p; simp [Heap.union, Heap.empty], rfl, hp⟩

theorem sep_emp (P : HProp) : (P ∗ emp) = P := by rw [sep_comm, emp_sep]

theorem pand_sep (φ : Prop) (P Q : HProp) : ((φ ⋏ P) ∗ Q) = (φ ⋏ P ∗ Q) := by
  funext h; apply propext; constructor
  · rintro ⟨a, b, hd, rfl, ⟨hφ, hp⟩, hq⟩; exact ⟨hφ, a, b, hd, rfl, hp, hq⟩
  · rintro ⟨hφ, a, b, hd, rfl, hp, hq⟩; exact ⟨a, b, hd, rfl, ⟨hφ, hp⟩, hq⟩

theorem sep_pand (φ : Prop) (P Q : HProp) : (Q ∗ (φ ⋏ P)) = (φ ⋏ Q ∗ P) := by
  rw [sep_comm, pand_sep, sep_comm]

theorem hex_sep {α : Sort _} (P : α → HProp) (Q : HProp) : ((hex P) ∗ Q) = hex fun x => (P x ∗ Q) := by
  funext h; apply propext; constructor
  · rintro ⟨a, b, hd, rfl, ⟨x, hp⟩, hq⟩; exact ⟨x, a, b, hd, rfl, hp, hq⟩
  · rintro ⟨x, a, b, hd, rfl, hp, hq⟩; exact ⟨a, b, hd, rfl, ⟨x, hp⟩, hq⟩

theorem sep_hex {α : Sort _} (P : α → HProp) (Q : HProp) : (Q ∗ (hex P)) = hex fun x => (Q ∗ P x) := by
  rw [sep_comm, hex_sep]; congr; funext x; rw [sep_comm]

theorem pand_hex {α : Sort _} (φ : Prop) (P : α → HProp) : (φ ⋏ hex P) = hex fun x => (φ ⋏ P x) := by
  funext h; apply propext; constructor
  · rintro ⟨a, x, hx⟩; exact ⟨x, a, hx⟩
  · rintro ⟨x, a, hx⟩; exact ⟨a, x, hx⟩

theorem true_pand (P : HProp) : (True ⋏ P) = P := by funext h; simp [pand]

/-! ## Entailment -/

theorem entails_refl (P : HProp) : P ⊢ₕ P := fun _ h => h
theorem entails_trans {P Q R : HProp} (a : P ⊢ₕ Q) (b : Q ⊢ₕ R) : P ⊢ₕ R := fun h hp => b h (a h hp)
theorem entails_of_eq {P Q : HProp} (h : P = Q) : P ⊢ₕ Q := h ▸ entails_refl P
theorem sep_mono {P P' Q Q' : HProp} (a : P ⊢ₕ P') (b : Q ⊢ₕ Q') : P ∗ Q ⊢ₕ P' ∗ Q' := by
  rintro h ⟨x, y, hd, rfl, hp, hq⟩; exact ⟨x, y, hd, rfl, a _ hp, b _ hq⟩
theorem entails_ex_r {α : Sort _} {P : HProp} {Q : α → HProp} (x : α) (h : P ⊢ₕ Q x) : P ⊢ₕ hex Q :=
  fun hh hp => ⟨x, h hh hp⟩
theorem entails_pand_r {P Q : HProp} {φ : Prop} (h : P ⊢ₕ Q) (hφ : φ) : P ⊢ₕ (φ ⋏ Q) :=
  fun hh hp => ⟨hφ, h hh hp⟩
theorem entails_ex_l {α : Sort _} {P : α → HProp} {Q : HProp} (h : ∀ x, P x ⊢ₕ Q) : hex P ⊢ₕ Q :=
  fun hh ⟨x, hp⟩ => h x hh hp
theorem entails_pand_l {P Q : HProp} {φ : Prop} (h : φ → (P ⊢ₕ Q)) : (φ ⋏ P) ⊢ₕ Q :=
  fun hh ⟨hφ, hp⟩ => h hφ hh hp

/-- `P` contains the atom `A` with remainder `R`. -/
def Pick (P A R : HProp) : Prop := P = (A ∗ R)
theorem Pick.last {A : HProp} : Pick A A emp := (sep_emp A).symm
theorem Pick.head {A R : HProp} : Pick (A ∗ R) A R := rfl
theorem Pick.tail {P A R B : HProp} (h : Pick P A R) : Pick (B ∗ P) A (B ∗ R) := by
  unfold Pick at *; rw [h, sep_left_comm]
theorem Pick.tailLast {A B : HProp} : Pick (B ∗ A) A B := sep_comm _ _
theorem Pick.left {P A R B : HProp} (h : Pick P A R) : Pick (P ∗ B) A (R ∗ B) := by
  unfold Pick at *; rw [h, sep_assoc]

/-- `P` splits into `P'` and the frame `F`. -/
def Frame (P P' F : HProp) : Prop := P = (P' ∗ F)
theorem Frame.emp {P : HProp} : Frame P emp P := (emp_sep P).symm
theorem Frame.one {P A R : HProp} (h : Pick P A R) : Frame P A R := h
theorem Frame.sep {P A B R F : HProp} (h : Pick P A R) (h' : Frame R B F) : Frame P (A ∗ B) F := by
  unfold Frame Pick at *; rw [h, h', sep_assoc]
theorem Frame.sepL {P A B R F : HProp} (h : Frame P A R) (h' : Frame R B F) : Frame P (A ∗ B) F := by
  unfold Frame at *; rw [h, h', sep_assoc]

theorem cancel {P A R Q : HProp} (h : Pick P A R) (h' : R ⊢ₕ Q) : P ⊢ₕ A ∗ Q := by
  unfold Pick at h; rw [h]; exact sep_mono (entails_refl _) h'
theorem cancel_one {P A R : HProp} (h : Pick P A R) (h' : R ⊢ₕ emp) : P ⊢ₕ A := by
  rw [← sep_emp A]; exact cancel h h'
theorem cancel_empL {P Q : HProp} (h' : P ⊢ₕ Q) : P ⊢ₕ emp ∗ Q := by rwa [emp_sep]
theorem cancel_assoc {P A B C : HProp} (h' : P ⊢ₕ A ∗ B ∗ C) : P ⊢ₕ (A ∗ B) ∗ C := by rwa [sep_assoc]
theorem empL_entails {P Q : HProp} (h' : P ⊢ₕ Q) : emp ∗ P ⊢ₕ Q := by rwa [emp_sep]

/-! ## Triples -/

/-- The allocator never refuses a request of at most `maxObj` bytes. -/
def Reliable (al : Nat → Heap → Nat → Ptr) : Prop :=
  ∀ t h n, Heap.fin h → n ≤ maxObj → al t h n ≠ 0 ∧ h (al t h n) = none

def Triple {α} (rel : Prop) (P : HProp) (c : M α) (Q : α → HProp) : Prop :=
  ∀ (s : St) (F : HProp), Heap.fin s.heap → (rel → Reliable s.alloc) → (P ∗ F) s.heap →
    ∃ a s', c s = some (.ok (a, s')) ∧ Heap.fin s'.heap ∧ s'.alloc = s.alloc ∧ (Q a ∗ F) s'.heap

variable {α β : Type} {rel : Prop}

theorem Triple.frame {P : HProp} {c : M α} {Q : α → HProp} (h : Triple rel P c Q) (R : HProp) :
    Triple rel (P ∗ R) c (fun a => (Q a ∗ R)) := by
  intro s F hf hr hp
  rw [sep_assoc] at hp
  obtain ⟨a, s', h1, h2, h3, h4⟩ := h s (R ∗ F) hf hr hp
  exact ⟨a, s', h1, h2, h3, by rwa [sep_assoc]⟩

theorem Triple.conseq {P P' : HProp} {c : M α} {Q Q' : α → HProp} (h : Triple rel P' c Q')
    (hp : P ⊢ₕ P') (hq : ∀ a, Q' a ⊢ₕ Q a) : Triple rel P c Q := by
  intro s F hf hr hP
  obtain ⟨a, s', h1, h2, h3, h4⟩ := h s F hf hr (sep_mono hp (entails_refl F) _ hP)
  exact ⟨a, s', h1, h2, h3, sep_mono (hq a) (entails_refl F) _ h4⟩

theorem Triple.pre {P P' : HProp} {c : M α} {Q : α → HProp} (h : Triple rel P' c Q)
    (hp : P ⊢ₕ P') : Triple rel P c Q := h.conseq hp fun _ => entails_refl _

theorem Triple.pre_eq {P P' : HProp} {c : M α} {Q : α → HProp} (hp : P = P') (h : Triple rel P' c Q)
     : Triple rel P c Q := hp ▸ h

theorem Triple.bind' {P : HProp} {c : M α} {R : α → HProp} {k : α → M β} {Q : β → HProp}
    (h : Triple rel P c R) (hk : ∀ a, Triple rel (R a) (k a) Q) : Triple rel P (c >>= k) Q := by
  intro s F hf hr hP
  obtain ⟨a, s', h1, h2, h3, h4⟩ := h s F hf hr hP
  obtain ⟨b, s'', g1, g2, g3, g4⟩ := hk a s' F h2 (h3 ▸ hr) h4
  refine ⟨b, s'', ?_, g2, g3.trans h3, g4⟩
  simp only [Bind.bind, StateT.bind, ExceptT.bind, ExceptT.mk, h1, ExceptT.bindCont, Option.bind_some]
  exact g1

/-- Sequencing with frame inference: the workhorse. -/
theorem Triple.step {P P' F : HProp} {c : M α} {R : α → HProp} {k : α → M β} {Q : β → HProp}
    (h : Triple rel P' c R) (fr : Frame P P' F) (hk : ∀ a, Triple rel (R a ∗ F) (k a) Q) :
    Triple rel P (c >>= k) Q := by
  unfold Frame at fr; rw [fr]; exact (h.frame F).bind' hk

theorem Triple.last {P P' F : HProp} {c : M α} {R : α → HProp} {Q : α → HProp}
    (h : Triple rel P' c R) (fr : Frame P P' F) (hk : ∀ a, R a ∗ F ⊢ₕ Q a) :
    Triple rel P c Q := by
  unfold Frame at fr; rw [fr]; exact (h.frame F).conseq (entails_refl _) hk

theorem Triple.pure {P : HProp} {a : α} {Q : α → HProp} (h : P ⊢ₕ Q a) :
    Triple rel P (pure a : M α) Q := by
  intro s F hf hr hP
  exact ⟨a, s, rfl, hf, rfl, sep_mono h (entails_refl F) _ hP⟩

theorem Triple.ret {a : α} : Triple rel emp (Pure.pure a : M α) (fun r => (r = a) ⋏ emp) :=
  Triple.pure (entails_pand_r (entails_refl _) rfl)

theorem Triple.ite {P : HProp} {φ : Prop} [Decidable φ] {c d : M α} {Q : α → HProp}
    (h1 : φ → Triple rel P c Q) (h2 : ¬ φ → Triple rel P d Q) :
    Triple rel P (if φ then c else d) Q := by
  by_cases h : φ
  · rw [if_pos h]; exact h1 h
  · rw [if_neg h]; exact h2 h

theorem triple_ex {γ : Sort _} {P : γ → HProp} {c : M α} {Q : α → HProp} :
    Triple rel (hex P) c Q ↔ ∀ x, Triple rel (P x) c Q := by
  constructor
  · intro h x; exact h.pre fun _ hp => ⟨x, hp⟩
  · intro h s F hf hr hP
    rw [hex_sep] at hP; obtain ⟨x, hx⟩ := hP
    exact h x s F hf hr hx

theorem triple_pand {φ : Prop} {P : HProp} {c : M α} {Q : α → HProp} :
    Triple rel (φ ⋏ P) c Q ↔ (φ → Triple rel P c Q) := by
  constructor
  · intro h hφ; exact h.pre fun _ hp => ⟨hφ, hp⟩
  · intro h s F hf hr hP
    rw [pand_sep] at hP; exact h hP.1 s F hf hr hP.2

theorem Triple.bind_pure {P : HProp} {a : α} {k : α → M β} {Q : β → HProp}
    (h : Triple rel P (k a) Q) : Triple rel P ((Pure.pure a : M α) >>= k) Q := by
  have : ((Pure.pure a : M α) >>= k) = k a := by simp
  rwa [this]

/-- A fact that follows from the shape of the heap alone. -/
theorem Triple.know {P : HProp} {φ : Prop} {c : M α} {Q : α → HProp} (hφ : ∀ h, P h → φ)
    (h : φ → Triple rel P c Q) : Triple rel P c Q := by
  intro s F hf hr hP
  obtain ⟨x, y, hd, he, hp, hq⟩ := hP
  exact h (hφ x hp) s F hf hr ⟨x, y, hd, he, hp, hq⟩

/-! ## Tactics -/

syntax "pick" : tactic
macro_rules | `(tactic| pick) => `(tactic| first
  | exact Pick.last | exact Pick.head | exact Pick.tailLast | (apply Pick.tail; (focus pick)))

syntax "fr" : tactic
macro_rules | `(tactic| fr) => `(tactic| first
  | exact Frame.emp
  | (apply Frame.sep; (focus pick); (focus fr))
  | (apply Frame.sepL; (focus fr); (focus fr))
  | (apply Frame.one; (focus pick)))

theorem rep1 {α} (v : α) : List.replicate 1 v = [v] := rfl
theorem rep2 {α} (v : α) : List.replicate 2 v = [v, v] := rfl
theorem rep3 {α} (v : α) : List.replicate 3 v = [v, v, v] := rfl
theorem rep4 {α} (v : α) : List.replicate 4 v = [v, v, v, v] := rfl

/-- Rework the precondition of a triple only. -/
theorem Triple.shape {P : HProp} {c : M α} {Q : α → HProp} {G : M α → (α → HProp) → Prop}
    (h : ∀ c Q, Triple rel P c Q ↔ G c Q) (g : G c Q) : Triple rel P c Q := (h c Q).2 g

/-- Move existentials and pure facts of the precondition to the front. -/
macro "hoist" : tactic => `(tactic|
  (refine Triple.shape (by intro c Q; simp (config := {failIfUnchanged := false}) only [hex_sep, sep_hex, pand_sep, sep_pand, emp_sep, sep_emp, sep_assoc, true_pand, if_true, if_false, ite_true, ite_false, List.set_cons_zero, List.set_cons_succ, rep1, rep2, rep3, rep4, triple_ex, triple_pand, and_imp, forall_exists_index]; exact Iff.rfl) ?_))

/-- Easy side conditions of primitive specifications. -/
macro "side" : tactic => `(tactic| first
  | rfl
  | exact Nat.le_of_ble_eq_true rfl
  | (show (_ : Prop); assumption)
  | (show (_ : Nat) < _; omega)
  | (show (_ : Nat) ≤ _; omega)
  | (show (_ : Nat) < _; simp only [bytesV, List.length_append, List.length_map, List.length_cons, List.length_nil, List.length_replicate, List.length_take, List.length_drop, List.length_set]; omega)
  | (show (_ : Nat) ≤ _; simp only [bytesV, List.length_append, List.length_map, List.length_cons, List.length_nil, List.length_replicate, List.length_take, List.length_drop, List.length_set]; omega))

/-- One step of symbolic execution with the given specification. -/
macro "step" t:term : tactic => `(tactic|
  (focus
     apply Triple.step $t
     (focus fr)
     (all_goals try side)
     (focus ((try (intro r)); hoist; try (intro heq; subst r)))))

/-- Same, keeping the result under the given name. -/
macro "step" t:term " into " r:ident : tactic => `(tactic|
  (focus
     apply Triple.step $t
     (focus fr)
     (all_goals try side)
     (focus (intro $r:ident; hoist))))

/-- The last command of a function body, with the given specification. -/
macro "last" t:term : tactic => `(tactic|
  (focus
     apply Triple.last $t
     (focus fr)
     (all_goals try side)
     (focus (try (intro r)))))

syntax "sep_cancel" : tactic
macro_rules | `(tactic| sep_cancel) => `(tactic| first
  | exact entails_refl _
  | (apply cancel_empL; (focus sep_cancel))
  | (apply empL_entails; (focus sep_cancel))
  | (apply cancel_assoc; (focus sep_cancel))
  | (apply cancel; (focus pick); (focus sep_cancel))
  | (apply cancel_one; (focus pick); (focus sep_cancel)))

end Verif
