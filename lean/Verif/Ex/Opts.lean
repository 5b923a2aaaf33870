import Verif.Ex.Spec
import Verif.Vec.Props
import Verif.Sock.Props
/-! # The saved options in memory -/
set_option linter.unusedSimpArgs false
set_option linter.unusedVariables false
namespace Verif.Ex
open Verif.Vec Verif.Crt
open Verif.Map (CS)
variable {rel : Prop}

/-- the storage of the vector: for each option the addresses of its name and its value -/
def slots : List (Nat × Nat) → Block
  | [] => []
  | p :: ps => .ptr p.1 :: .ptr p.2 :: slots ps

theorem slots_len (ps : List (Nat × Nat)) : (slots ps).length = 2 * ps.length := by
  induction ps with
  | nil => rfl
  | cons p ps ih => simp [slots, ih]; omega

theorem slots_append (ps qs : List (Nat × Nat)) : slots (ps ++ qs) = slots ps ++ slots qs := by
  induction ps with
  | nil => rfl
  | cons p ps ih => simp [slots, ih]

theorem slots_name {ps : List (Nat × Nat)} {i : Nat} {p : Nat × Nat} (h : ps[i]? = some p) : (slots ps)[2 * i + 0]? = some (.ptr p.1) := by
  induction ps generalizing i with
  | nil => simp at h
  | cons x ps ih =>
    cases i with
    | zero => simp at h; simp [slots, h]
    | succ i => rw [show 2 * (i + 1) + 0 = (2 * i + 0) + 1 + 1 by omega]; simp only [slots, List.getElem?_cons_succ]; exact ih (by simpa using h)

theorem slots_value {ps : List (Nat × Nat)} {i : Nat} {p : Nat × Nat} (h : ps[i]? = some p) : (slots ps)[2 * i + 1]? = some (.ptr p.2) := by
  induction ps generalizing i with
  | nil => simp at h
  | cons x ps ih =>
    cases i with
    | zero => simp at h; simp [slots, h]
    | succ i => rw [show 2 * (i + 1) + 1 = (2 * i + 1) + 1 + 1 by omega]; simp only [slots, List.getElem?_cons_succ]; exact ih (by simpa using h)

theorem slots_set {ps : List (Nat × Nat)} {i q : Nat} {p : Nat × Nat} (h : ps[i]? = some p) :
    (slots ps).set (2 * i + 1) (.ptr q) = slots (ps.set i (p.1, q)) := by
  induction ps generalizing i with
  | nil => simp at h
  | cons x ps ih =>
    cases i with
    | zero => simp at h; simp [slots, h]
    | succ i => rw [show 2 * (i + 1) + 1 = (2 * i + 1) + 1 + 1 by omega]; simp only [slots, List.set_cons_succ]; rw [ih (by simpa using h)]

/-- the vector -/
def VecO (vec st : Ptr) (ps : List (Nat × Nat)) : HProp :=
  (16 * ps.length ≤ maxObj) ⋏ vec ↦ [.ptr st, .int ps.length, .int 16] ∗ (if ps = [] then ((st = 0) ⋏ emp) else st ↦ slots ps)

theorem VecO_eq {vec st : Ptr} {ps : List (Nat × Nat)} : VecO vec st ps =
  ((16 * ps.length ≤ maxObj) ⋏ vec ↦ [.ptr st, .int ps.length, .int 16] ∗ (if ps = [] then ((st = 0) ⋏ emp) else st ↦ slots ps)) := rfl

theorem VecO_ne {vec st : Ptr} {ps : List (Nat × Nat)} (h : ps ≠ []) : VecO vec st ps =
  ((16 * ps.length ≤ maxObj) ⋏ vec ↦ [.ptr st, .int ps.length, .int 16] ∗ st ↦ slots ps) := by rw [VecO_eq, if_neg h]

/-- the names and the values -/
def OwnO : List (Nat × Nat) → List (Text × Block) → HProp
  | [], [] => emp
  | p :: ps, x :: xs => CS p.1 x.1 ∗ p.2 ↦ x.2 ∗ OwnO ps xs
  | _, _ => False ⋏ emp

theorem OwnO_cons {p : Nat × Nat} {ps : List (Nat × Nat)} {x : Text × Block} {xs : List (Text × Block)} :
    OwnO (p :: ps) (x :: xs) = (CS p.1 x.1 ∗ p.2 ↦ x.2 ∗ OwnO ps xs) := rfl
theorem OwnO_nil : OwnO [] [] = emp := rfl

theorem know_OwnO {ps : List (Nat × Nat)} {xs : List (Text × Block)} {P F : HProp} (pk : Pick P (OwnO ps xs) F) :
    ∀ h, P h → ps.length = xs.length := by
  intro h hp; unfold Pick at pk; rw [pk] at hp
  obtain ⟨a, b, _, _, h1, _⟩ := hp
  have key : ∀ (ps : List (Nat × Nat)) (xs : List (Text × Block)) a, OwnO ps xs a → ps.length = xs.length := by
    intro ps
    induction ps with
    | nil => intro xs a h1; cases xs with
      | nil => rfl
      | cons x xs => exact h1.1.elim
    | cons p ps ih => intro xs a h1; cases xs with
      | nil => exact h1.1.elim
      | cons x xs =>
        rw [OwnO_cons] at h1
        obtain ⟨_, _, _, _, _, _, _, _, _, _, h2⟩ := h1
        simp [ih _ _ h2]
  exact key _ _ _ h1

theorem OwnO_append {ps qs : List (Nat × Nat)} {xs ys : List (Text × Block)} (h : ps.length = xs.length) :
    OwnO (ps ++ qs) (xs ++ ys) = (OwnO ps xs ∗ OwnO qs ys) := by
  induction ps generalizing xs with
  | nil =>
    obtain rfl : xs = [] := by cases xs with | nil => rfl | cons x xs => simp at h
    rw [OwnO_nil, emp_sep]; rfl
  | cons p ps ih => cases xs with
    | nil => simp at h
    | cons x xs => simp only [List.cons_append, OwnO_cons, ih (by simpa using h), sep_assoc]

/-- the saved options -/
def OptsR (vec : Ptr) (xs : List (Text × Block)) : HProp :=
  ∃∃ (st : Nat) (ps : List (Nat × Nat)), ((xs.map Prod.fst).Nodup) ⋏ VecO vec st ps ∗ OwnO ps xs

theorem OptsR_eq {vec : Ptr} {xs : List (Text × Block)} : OptsR vec xs =
  ∃∃ (st : Nat) (ps : List (Nat × Nat)), ((xs.map Prod.fst).Nodup) ⋏ VecO vec st ps ∗ OwnO ps xs := rfl

theorem OptsR_intro {vec st : Ptr} {ps : List (Nat × Nat)} {xs : List (Text × Block)} (h : (xs.map Prod.fst).Nodup) :
    VecO vec st ps ∗ OwnO ps xs ⊢ₕ OptsR vec xs := entails_ex_r st (entails_ex_r ps (entails_pand_r (entails_refl _) h))

/-! ## the vector -/

theorem VECTOR_create_opts : Triple rel emp (VECTOR_create optSize) (fun r => if r = 0 then ((¬ rel) ⋏ emp) else OptsR r []) := by
  unfold VECTOR_create
  refine Triple.mallocS (by omega) (fun hr => ?_) (fun r h => ?_)
  · rw [if_pos rfl]; refine Triple.pure ?_; rw [if_pos rfl]; exact entails_pand_r (entails_refl _) hr
  rw [if_neg h]
  step (store_spec ?_)
  step (store_spec ?_)
  step (store_spec ?_)
  refine Triple.pure ?_
  rw [if_neg h]
  refine entails_trans ?_ (OptsR_intro (st := 0) (ps := []) (by simp))
  rw [VecO_eq, if_pos rfl, OwnO_nil, sep_emp]
  refine entails_pand_r ?_ (by simp)
  rw [eq_self, true_pand, sep_emp]; exact entails_refl _

theorem know_VecO {vec st : Ptr} {ps : List (Nat × Nat)} {P F : HProp} (pk : Pick P (VecO vec st ps) F) :
    ∀ h, P h → vec ≠ 0 ∧ 16 * ps.length ≤ maxObj ∧ (ps ≠ [] → st ≠ 0) := by
  intro h hp; unfold Pick at pk; rw [pk] at hp
  obtain ⟨a, b, _, _, h1, _⟩ := hp
  obtain ⟨h1, c, d, _, _, h2, h3⟩ := h1
  refine ⟨h2.1, h1, fun hne => ?_⟩
  rw [if_neg hne] at h3; exact h3.1

theorem VecO_field {vec st : Ptr} {ps : List (Nat × Nat)} {α} {c : M α} {v : α}
    (h : Triple rel (vec ↦ [.ptr st, .int ps.length, .int 16]) c (fun r => (r = v) ⋏ vec ↦ [.ptr st, .int ps.length, .int 16])) :
    Triple rel (VecO vec st ps) c (fun r => (r = v) ⋏ VecO vec st ps) := by
  rw [VecO_eq]; hoist; intro hl
  last h
  rename_i r
  rw [pand_sep]
  exact entails_pand_l fun hr => entails_pand_r (entails_pand_r (entails_refl _) hl) hr

theorem VECTOR_size_opts {vec st : Ptr} {ps : List (Nat × Nat)} :
    Triple rel (VecO vec st ps) (VECTOR_size vec) (fun r => (r = ps.length) ⋏ VecO vec st ps) := by
  unfold VECTOR_size
  refine Triple.know (know_VecO (by pick)) fun hk => ?_
  rw [if_pos hk.1]
  exact VecO_field (loadInt_spec (by simp))

theorem VECTOR_element_opts {vec st : Ptr} {ps : List (Nat × Nat)} {i : Nat} (hi : i < ps.length) :
    Triple rel (VecO vec st ps) (VECTOR_element vec i) (fun r => (r = .at st (16 * i)) ⋏ VecO vec st ps) := by
  unfold VECTOR_element
  refine Triple.know (know_VecO (by pick)) fun hk => ?_
  rw [if_pos hk.1]
  step (VecO_field (vec := vec) (st := st) (ps := ps) (c := loadInt vec Vec.fCount) (v := ps.length) (loadInt_spec (by simp)))
  rw [if_pos (by omega)]
  step (VecO_field (vec := vec) (st := st) (ps := ps) (c := loadPtr vec fStorage) (v := st) (loadPtr_spec (by simp)))
  step (VecO_field (c := loadInt vec Vec.fSize) (v := 16) (loadInt_spec (by simp)))
  refine Triple.pure (entails_pand_r (entails_refl _) ?_)
  have hs : st ≠ 0 := hk.2.2 (by rintro rfl; simp at hi)
  rw [padd, if_neg hs, mul_mod (by have := hk.2.1; omega)]

theorem loadOpt_name {vec st : Ptr} {ps : List (Nat × Nat)} {i : Nat} {p : Nat × Nat} (hp : ps[i]? = some p) :
    Triple rel (VecO vec st ps) (loadOpt (.at st (16 * i)) gName) (fun r => (r = p.1) ⋏ VecO vec st ps) := by
  have hne : ps ≠ [] := by rintro rfl; simp at hp
  rw [VecO_ne hne]; hoist; intro hl
  unfold loadOpt; dsimp only
  rw [show 16 * i / 8 = 2 * i by omega]
  last (loadPtr_spec (p := st) (slots_name hp))
  rename_i r; rw [pand_sep]
  exact entails_pand_l fun hr => entails_pand_r (entails_pand_r (by sep_cancel) hl) hr

theorem loadOpt_value {vec st : Ptr} {ps : List (Nat × Nat)} {i : Nat} {p : Nat × Nat} (hp : ps[i]? = some p) :
    Triple rel (VecO vec st ps) (loadOpt (.at st (16 * i)) gValue) (fun r => (r = p.2) ⋏ VecO vec st ps) := by
  have hne : ps ≠ [] := by rintro rfl; simp at hp
  rw [VecO_ne hne]; hoist; intro hl
  unfold loadOpt; dsimp only
  rw [show 16 * i / 8 = 2 * i by omega]
  last (loadPtr_spec (p := st) (slots_value hp))
  rename_i r; rw [pand_sep]
  exact entails_pand_l fun hr => entails_pand_r (entails_pand_r (by sep_cancel) hl) hr

theorem storeOpt_value {vec st : Ptr} {ps : List (Nat × Nat)} {i q : Nat} {p : Nat × Nat} (hp : ps[i]? = some p) :
    Triple rel (VecO vec st ps) (storeOpt (.at st (16 * i)) gValue q) (fun _ => VecO vec st (ps.set i (p.1, q))) := by
  have hne : ps ≠ [] := by rintro rfl; simp at hp
  have hi : i < ps.length := (List.getElem?_eq_some_iff.1 hp).1
  rw [VecO_ne hne]; hoist; intro hl
  unfold storeOpt; dsimp only
  rw [show 16 * i / 8 = 2 * i by omega]
  last (store_spec (p := st) (b := slots ps) (by rw [slots_len]; show 2 * i + 1 < _; omega))
  rw [slots_set hp, VecO_ne (by intro h; have := congrArg List.length h; rw [List.length_set] at this; simp at this; exact hne this), List.length_set]
  exact entails_pand_r (by sep_cancel) hl

theorem VECTOR_destroy_opts {vec st : Ptr} {ps : List (Nat × Nat)} : Triple rel (VecO vec st ps) (VECTOR_destroy vec) (fun _ => emp) := by
  unfold VECTOR_destroy internal_VECTOR_clear
  refine Triple.know (know_VecO (by pick)) fun hk => ?_
  rw [if_pos hk.1, VecO_eq]; hoist; intro hl
  simp only [bind_assoc]
  step (loadPtr_spec (p := vec) ?_)
  by_cases hne : ps = []
  · subst hne
    rw [if_pos rfl]; hoist; rintro rfl
    rw [if_neg (by simp)]
    step (store_spec (p := vec) ?_)
    exact free_spec
  · rw [if_neg hne, if_pos (hk.2.2 hne)]
    simp only [bind_assoc]
    step (free_spec (p := st))
    step (store_spec (p := vec) ?_)
    step (store_spec (p := vec) ?_)
    exact free_spec

theorem patch_slots {ps : List (Nat × Nat)} {n v : Nat} :
    patch (slots ps ++ [.undef, .undef]) (2 * ps.length) [.ptr n, .ptr v] = slots (ps ++ [(n, v)]) := by
  unfold patch
  rw [slots_append, List.take_append_of_le_length (by rw [slots_len]; omega), List.take_of_length_le (by rw [slots_len]; omega),
    List.drop_of_length_le (by simp [slots_len])]
  simp [slots]

theorem pushOption_spec {vec st name value : Ptr} {ps : List (Nat × Nat)} :
    Triple rel (VecO vec st ps) (pushOption vec name value)
      (fun r => ∃∃ st' : Nat, if r = 0 then VecO vec st' (ps ++ [(name, value)])
        else (¬ rel ∨ maxObj < 16 * (ps.length + 1)) ⋏ VecO vec st' ps) := by
  unfold pushOption
  refine Triple.know (know_VecO (by pick)) fun hk => ?_
  rw [if_neg hk.1]
  step (VecO_field (c := loadInt vec Vec.fSize) (v := 16) (loadInt_spec (by simp)))
  step (VecO_field (vec := vec) (st := st) (ps := ps) (c := loadInt vec Vec.fCount) (v := ps.length) (loadInt_spec (by simp)))
  step (VecO_field (vec := vec) (st := st) (ps := ps) (c := loadPtr vec fStorage) (v := st) (loadPtr_spec (by simp)))
  have hb := hk.2.1
  have e1 : (16 * ps.length) % szMod = 16 * ps.length := mul_mod hb
  have e2 : (16 * ps.length + 16 * 1 % szMod) % szMod / 8 = 2 * ps.length + 2 := by simp only [szMod, maxObj] at *; omega
  have e3 : (ps.length + 1) % szMod = ps.length + 1 := by simp only [szMod, maxObj] at *; omega
  have e4 : 16 * ps.length / 8 = 2 * ps.length := by omega
  have e5 : ([Val.ptr name, Val.ptr value].take (16 * 1 % szMod / 8)) = [.ptr name, .ptr value] := rfl
  rw [e1, e2, e3, e4, e5]
  have hfail : ∀ (h : ¬ rel ∨ maxObj < 8 * (2 * ps.length + 2)), VecO vec st ps ⊢ₕ ∃∃ st' : Nat, if (77 : Nat) = 0 then VecO vec st' (ps ++ [(name, value)])
        else (¬ rel ∨ maxObj < 16 * (ps.length + 1)) ⋏ VecO vec st' ps := by
    intro h
    refine entails_ex_r st ?_
    rw [if_neg (by simp)]
    exact entails_pand_r (entails_refl _) (by rw [show 16 * (ps.length + 1) = 8 * (2 * ps.length + 2) by omega]; exact h)
  have hcl : ∀ q, 8 * (2 * ps.length + 2) ≤ maxObj → vec ↦ [.ptr q, .int (ps.length + 1), .int 16] ∗ q ↦ slots (ps ++ [(name, value)]) ⊢ₕ
      ∃∃ st' : Nat, if (0 : Nat) = 0 then VecO vec st' (ps ++ [(name, value)]) else (¬ rel ∨ maxObj < 16 * (ps.length + 1)) ⋏ VecO vec st' ps := by
    intro q hq
    refine entails_ex_r q ?_
    rw [if_pos rfl, VecO_ne (by simp), List.length_append, List.length_singleton]
    exact entails_pand_r (entails_refl _) (by omega)
  by_cases hne : ps = []
  · subst hne
    rw [VecO_eq, if_pos rfl] at hfail
    rw [VecO_eq, if_pos rfl]; hoist; rintro hl rfl
    refine Triple.reallocS_null (fun hr => ?_) (fun q hq hm => ?_)
    · rw [if_pos rfl]; refine Triple.pure (entails_trans ?_ (hfail hr))
      rw [eq_self, true_pand, sep_emp]; exact entails_pand_r (entails_refl _) hl
    · rw [if_neg hq]
      step (storeN_spec' (p := q) (off := 2 * ([] : List (Nat × Nat)).length) (b := List.replicate (2 * ([] : List (Nat × Nat)).length + 2) .undef) (by simp))
      step (store_spec (p := vec) ?_)
      step (store_spec (p := vec) ?_)
      refine Triple.pure (entails_trans ?_ (hcl q hm))
      have := patch_slots (ps := []) (n := name) (v := value)
      simp only [slots, List.nil_append, List.length_nil] at this ⊢
      simp only [Nat.mul_zero, Nat.zero_add, List.replicate_succ, List.replicate_zero, List.set] at this ⊢
      rw [this]; sep_cancel
  · rw [VecO_ne hne] at hfail
    rw [VecO_ne hne]; hoist; intro hl
    refine Triple.reallocS (p := st) (by omega) (by pick) (fun hr => ?_) (fun q hq hm => ?_)
    · rw [if_pos rfl]; refine Triple.pure (entails_trans ?_ (hfail hr))
      exact entails_pand_r (by sep_cancel) hl
    · rw [if_neg hq]
      have e : (slots ps).take (2 * ps.length + 2) ++ List.replicate (2 * ps.length + 2 - (slots ps).length) Val.undef = slots ps ++ List.replicate 2 .undef := by
        rw [List.take_of_length_le (by rw [slots_len]; omega), slots_len]; congr 2; omega
      rw [e]
      step (storeN_spec' (p := q) (off := 2 * ps.length) (b := slots ps ++ List.replicate 2 .undef) (by simp [slots_len]))
      step (store_spec (p := vec) ?_)
      step (store_spec (p := vec) ?_)
      refine Triple.pure (entails_trans ?_ (hcl q hm))
      rw [patch_slots]; sep_cancel

end Verif.Ex
