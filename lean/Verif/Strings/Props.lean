import Verif.Pool
import Verif.Strings.Model
/-!
# Properties C04, C05, C07: STRING

Specification vocabulary: `Str h t` – the handle `h` owns a string whose text is `t`;
`OStr h a` – the same for a handle that may be NULL (`a = none`).
-/
set_option linter.unusedSimpArgs false
set_option linter.unusedVariables false
namespace Verif.Strings
open Verif
variable {rel : Prop}

abbrev Text := List UInt8

def Str (h : Ptr) (t : Text) : HProp := ∃∃ p : Nat, h ↦ [.ptr p] ∗ CStr (.heap p 0) t

abbrev OStr (h : Ptr) (a : Option Text) : HProp := ORep Str h a

theorem know_Str {h : Ptr} {t : Text} {P R : HProp} (pk : Pick P (Str h t) R) :
    ∀ hp, P hp → h ≠ 0 ∧ NoNul t ∧ t.length < maxObj := by
  intro hp hP; unfold Pick at pk; rw [pk, Str, hex_sep] at hP
  obtain ⟨p, hP⟩ := hP
  rw [sep_assoc] at hP
  refine ⟨?_, (know_CStr (s := .heap p 0) (by pick) _ hP).2⟩
  obtain ⟨x, y, _, _, h1, _⟩ := hP
  exact h1.1

theorem sz_eq {n : Nat} (h : n < szMod) : sz n = n := Nat.mod_eq_of_lt h

theorem Str_mk {h p : Ptr} {t : Text} {vs : List Val} (hvs : cstrV vs = some t) : h ↦ [.ptr p] ∗ p ↦ vs ⊢ₕ Str h t := by
  refine entails_ex_r p (sep_mono (entails_refl _) ?_)
  rw [CStr_heap0]; exact entails_ex_r vs (entails_pand_r (entails_refl _) hvs)

theorem Str_intro {h p : Ptr} {t : Text} (ht : NoNul t) (rest : List Val) :
    h ↦ [.ptr p] ∗ p ↦ (bytesV t ++ .byte 0 :: rest) ⊢ₕ Str h t :=
  entails_ex_r p (sep_mono (entails_refl _) (CStr_intro ht rest))

theorem Str_intro' {h p : Ptr} {t : Text} (ht : NoNul t) :
    h ↦ [.ptr p] ∗ p ↦ bytesV (t ++ [0]) ⊢ₕ Str h t := by
  rw [bytesV_append]; exact Str_intro ht []

/-! ## Constructors -/

/-- C04/C05 -/
theorem STRING_new_spec : Triple rel emp STRING_new (Made Str (¬ rel) (fun t => t = [])) := by
  unfold STRING_new
  refine Triple.mallocS (by omega) (fun hr => ?_) (fun r h => ?_)
  · rw [if_neg (by simp)]
    exact Triple.pure (Made_fail hr)
  rw [if_pos h]
  refine Triple.malloc (fun hr => ?_) (fun s hs _ => ?_)
  · hoist
    step (store_spec ?_)
    rw [if_neg (by simp)]
    step free_spec
    exact Triple.pure (Made_fail (hr.resolve_right (by simp only [maxObj]; omega)))
  · hoist
    step (store_spec ?_)
    rw [if_pos hs]
    step (store_spec ?_)
    refine Triple.pure (Made_ok [] h rfl ?_)
    refine entails_trans ?_ (Str_intro (p := s) (by simp [NoNul]) [])
    sep_cancel

/-- the common tail of the copying constructors -/
theorem fresh_copy {str s : Ptr} {src : CharPtr} {t : Text} {n : Nat} (hn : n = t.length + 1) :
    Triple rel (str ↦ [.ptr s] ∗ s ↦ List.replicate n .undef ∗ CStr src t) (memcpy s 0 src n)
      (fun _ => Str str t ∗ CStr src t) := by
  subst hn
  refine Triple.know (know_CStr (s := src) (by pick)) fun hk => ?_
  last (memcpy_cstr (dst := s) (src := src) (t := t) (b := List.replicate (t.length + 1) .undef) (Nat.le_refl _) (by simp))
  rw [patch_full (by simp [bytesV]), List.take_of_length_le (by simp)]
  refine entails_trans ?_ (sep_mono (Str_intro' (p := s) hk.2.1) (entails_refl _))
  sep_cancel

/-- C04/C05: `STRING_construct` copies its argument. -/
theorem STRING_construct_spec {psz : CharPtr} {o : Option Text} :
    Triple rel (Arg psz o) (STRING_construct psz)
      (fun r => Made Str (o = none ∨ ¬ rel) (fun t => o = some t) r ∗ Arg psz o) := by
  unfold STRING_construct
  cases o with
  | none =>
    simp only [Arg_none]; hoist; rintro rfl
    rw [if_pos rfl]
    refine Triple.pure (Made_fail_sep (Or.inl (by simp)) (entails_pand_r (entails_refl _) (by simp)))
  | some t =>
    simp only [Arg_some]
    refine Triple.know (know_CStr (s := psz) (by pick)) fun hk => ?_
    rw [if_neg hk.1]
    have hz : sz (t.length + 1) = t.length + 1 := sz_eq (by have := hk.2.2; simp only [maxObj, szMod] at *; omega)
    refine Triple.mallocS (by omega) (fun hr => ?_) (fun r h => ?_)
    · rw [if_neg (by simp)]
      exact Triple.pure (Made_fail_sep (Or.inr hr) (entails_refl _))
    rw [if_pos h]; hoist
    step strlen_spec
    simp only [hz]
    refine Triple.malloc (fun hr => ?_) (fun s hs _ => ?_)
    · step (store_spec ?_)
      rw [if_neg (by simp)]
      step free_spec
      exact Triple.pure (Made_fail_sep (Or.inr (hr.resolve_right (by omega))) (entails_refl _))
    · step (store_spec ?_)
      rw [if_pos hs]
      step (fresh_copy (str := r) (src := psz) (t := t) rfl)
      exact Triple.pure (Made_ok_sep t h rfl (entails_refl _))

/-- C04/C05: `STRING_clone` makes an equal string with its own memory. -/
theorem STRING_clone_spec {h : Ptr} {a : Option Text} :
    Triple rel (OStr h a) (STRING_clone h)
      (fun r => Made Str (a = none ∨ ¬ rel) (fun t => a = some t) r ∗ OStr h a) := by
  unfold STRING_clone
  cases a with
  | none =>
    simp only [OStr, ORep_none]; hoist; rintro rfl
    rw [if_pos rfl]
    refine Triple.pure (Made_fail_sep (Or.inl (by simp)) (entails_pand_r (entails_refl _) (by simp)))
  | some t =>
    simp only [OStr, ORep_some]
    refine Triple.know (know_Str (h := h) (by pick)) fun hk => ?_
    rw [if_neg hk.1]
    have hz : sz (t.length + 1) = t.length + 1 := sz_eq (by have := hk.2.2; simp only [maxObj, szMod] at *; omega)
    refine Triple.mallocS (by omega) (fun hr => ?_) (fun r hne => ?_)
    · rw [if_neg (by simp)]
      exact Triple.pure (Made_fail_sep (Or.inr hr) (entails_refl _))
    rw [if_pos hne]
    simp only [Str]; hoist; intro p
    refine Triple.know (know_heap0 (p := p) (by pick)) fun hp => ?_
    step (loadPtr_spec (p := h) ?_)
    rw [ofPtr_ne hp]
    step strlen_spec
    simp only [hz]
    refine Triple.malloc (fun hr => ?_) (fun s hs _ => ?_)
    · step (store_spec (p := r) ?_)
      rw [if_pos rfl]
      step (free_spec (p := r))
      exact Triple.pure (Made_fail_sep (Or.inr (hr.resolve_right (by omega))) (entails_ex_r p (by sep_cancel)))
    · step (store_spec (p := r) ?_)
      rw [if_neg hs]
      step (loadPtr_spec (p := h) ?_)
      rw [ofPtr_ne hp]
      step (fresh_copy (str := r) (s := s) (src := .heap p 0) (t := t) rfl)
      refine Triple.pure (Made_ok_sep t hne rfl ?_)
      refine entails_trans ?_ (sep_mono (entails_refl _) (entails_ex_r p (entails_refl _)))
      sep_cancel

/-- C04/C05: `STRING_construct_n` takes the first `n` characters; too large an `n` is an error. -/
theorem STRING_construct_n_spec {psz : CharPtr} {o : Option Text} {n : Nat} :
    Triple rel (Arg psz o) (STRING_construct_n psz n)
      (fun r => Made Str ((∀ t, o = some t → t.length < n) ∨ ¬ rel) (fun u => ∃ t, o = some t ∧ n ≤ t.length ∧ u = t.take n) r
        ∗ Arg psz o) := by
  unfold STRING_construct_n
  cases o with
  | none =>
    simp only [Arg_none]; hoist; rintro rfl
    rw [if_pos rfl]
    refine Triple.pure (Made_fail_sep (Or.inl (by simp)) (entails_pand_r (entails_refl _) rfl))
  | some t =>
    simp only [Arg_some]
    refine Triple.know (know_CStr (s := psz) (by pick)) fun hk => ?_
    rw [if_neg hk.1]
    have hz : sz (t.length + 1) = t.length + 1 := sz_eq (by have := hk.2.2; simp only [maxObj, szMod] at *; omega)
    step strlen_spec
    refine Triple.ite (fun hn => ?_) (fun hn => ?_)
    · exact Triple.pure (Made_fail_sep (Or.inl (by intro t' h; cases h; exact hn)) (entails_refl _))
    refine Triple.mallocS (by omega) (fun hr => ?_) (fun r h => ?_)
    · rw [if_neg (by simp)]
      exact Triple.pure (Made_fail_sep (Or.inr hr) (entails_refl _))
    rw [if_pos h]; hoist
    simp only [hz]
    refine Triple.malloc (fun hr => ?_) (fun s hs _ => ?_)
    · step (store_spec ?_)
      rw [if_neg (by simp)]
      step free_spec
      exact Triple.pure (Made_fail_sep (Or.inr (hr.resolve_right (by omega))) (entails_refl _))
    · step (store_spec ?_)
      rw [if_pos hs]
      step (memcpy_cstr (dst := s) (t := t) (n := n) (b := List.replicate (t.length + 1) .undef) (by omega) (by simp; omega))
      have e : patch (List.replicate (t.length + 1) .undef) 0 (bytesV ((t ++ [0]).take n)) =
          bytesV (t.take n) ++ List.replicate (t.length + 1 - n) .undef := by
        rw [patch_zero, List.take_append_of_le_length (by omega)]
        simp only [bytesV_length, List.length_take, List.drop_replicate]
        congr 2; omega
      rw [e]
      step (store_spec (p := s) ?_)
      refine Triple.pure (Made_ok_sep (t.take n) h ⟨t, rfl, by omega, rfl⟩ ?_)
      have hnn : NoNul (t.take n) := fun hh => hk.2.1 (List.mem_of_mem_take hh)
      refine entails_trans ?_ (sep_mono (Str_intro (p := s) hnn (List.replicate (t.length - n) Val.undef)) (entails_refl _))
      have e2 : (bytesV (t.take n) ++ List.replicate (t.length + 1 - n) Val.undef).set n (.byte 0) =
          bytesV (t.take n) ++ Val.byte 0 :: List.replicate (t.length - n) Val.undef := by
        have : t.length + 1 - n = (t.length - n) + 1 := by omega
        rw [this, List.replicate_succ, List.set_append_right _ _ (by simp [bytesV]; omega)]
        simp [bytesV, Nat.min_eq_left (Nat.not_lt.1 hn)]
      rw [e2]; sep_cancel

/-- C04/C05: `STRING_new_with_memory` takes over the memory (only on success). -/
theorem STRING_new_with_memory_spec {p : Ptr} {t : Text} :
    Triple rel (CStr (.heap p 0) t) (STRING_new_with_memory p)
      (fun r => if r = 0 then ((¬ rel) ⋏ CStr (.heap p 0) t) else Str r t) := by
  unfold STRING_new_with_memory
  refine Triple.know (know_heap0 (p := p) (by pick)) fun hp => ?_
  rw [if_neg hp]
  refine Triple.mallocS (by omega) (fun hr => ?_) (fun r h => ?_)
  · rw [if_neg (by simp)]
    refine Triple.pure ?_
    rw [if_pos rfl]; exact entails_pand_r (entails_refl _) hr
  rw [if_pos h]; hoist
  step (store_spec ?_)
  refine Triple.pure ?_
  rw [if_neg h]; exact entails_ex_r p (by sep_cancel)

theorem STRING_new_with_memory_null : Triple rel emp (STRING_new_with_memory 0) (fun r => (r = 0) ⋏ emp) := by
  unfold STRING_new_with_memory
  rw [if_pos rfl]; exact Triple.pure (entails_pand_r (entails_refl _) rfl)

/-- writing one character into a block known by its parts -/
theorem set_mid {pre : List UInt8} {x : Val} {rest : List Val} {off : Nat} {v : Val} (h : off = pre.length) :
    (bytesV pre ++ x :: rest).set off v = bytesV pre ++ v :: rest := by
  subst h
  rw [List.set_append_right _ _ (by simp [bytesV])]
  simp [bytesV]

/-- C04/C05: `STRING_new_quoted` surrounds with double quotes. -/
theorem STRING_new_quoted_spec {psz : CharPtr} {o : Option Text} :
    Triple rel (Arg psz o) (STRING_new_quoted psz)
      (fun r => Made Str (o = none ∨ ¬ rel ∨ ∃ t, o = some t ∧ maxObj < t.length + 3)
          (fun u => ∃ t, o = some t ∧ u = [34] ++ t ++ [34]) r ∗ Arg psz o) := by
  unfold STRING_new_quoted
  cases o with
  | none =>
    simp only [Arg_none]; hoist; rintro rfl
    rw [if_pos rfl]
    refine Triple.pure (Made_fail_sep (Or.inl (by simp)) (entails_pand_r (entails_refl _) (by simp)))
  | some t =>
    simp only [Arg_some]
    refine Triple.know (know_CStr (s := psz) (by pick)) fun hk => ?_
    rw [if_neg hk.1]
    have hz : sz (t.length + 3) = t.length + 3 := sz_eq (by have := hk.2.2; simp only [maxObj, szMod] at *; omega)
    refine Triple.mallocS (by omega) (fun hr => ?_) (fun r h => ?_)
    · rw [if_neg (by simp)]
      exact Triple.pure (Made_fail_sep (Or.inr (Or.inl hr)) (entails_refl _))
    rw [if_pos h]; hoist
    step strlen_spec
    simp only [hz]
    refine Triple.malloc (fun hr => ?_) (fun s hs _ => ?_)
    · step (store_spec ?_)
      rw [if_neg (by simp)]
      step free_spec
      exact Triple.pure (Made_fail_sep (Or.inr (hr.imp id fun h => ⟨t, rfl, h⟩)) (entails_refl _))
    · step (store_spec ?_)
      rw [if_pos hs]
      rw [Fill_start]
      step (fill_spec (p := s) (pre := []) (n := t.length + 3) rfl (by omega))
      unfold Fill
      step (memcpy_cstr (dst := s) (off := 1) (t := t) (n := t.length)
        (b := bytesV ([] ++ [34]) ++ List.replicate (t.length + 3 - 1) .undef) (by omega) (by simp [bytesV]; omega))
      have e : patch (bytesV ([] ++ [34]) ++ List.replicate (t.length + 3 - 1) .undef) 1 (bytesV ((t ++ [0]).take t.length)) =
          bytesV ([34] ++ t) ++ .undef :: .undef :: [] := by
        have e1 : t.length + 3 - 1 = t.length + 2 := by omega
        have e2 : 1 + (bytesV t).length = t.length + 1 := by rw [bytesV_length]; omega
        rw [List.take_left, e1]
        unfold patch
        rw [e2, show t.length + 1 = (bytesV ([] ++ [34]) : List Val).length + t.length by simp [bytesV]; omega, List.drop_length_add_append, List.drop_replicate]
        simp [bytesV, List.replicate_succ]
      rw [e]
      step (store_spec (p := s) ?_)
      rw [set_mid (by simp), ← List.singleton_append (x := Val.byte 34),
        ← List.append_assoc, show bytesV ([34] ++ t) ++ [.byte 34] = bytesV ([34] ++ t ++ [34]) by simp [bytesV]]
      step (store_spec (p := s) ?_)
      rw [set_mid (by simp)]
      refine Triple.pure (Made_ok_sep _ h ⟨t, rfl, rfl⟩ ?_)
      refine entails_trans ?_ (sep_mono (Str_intro (p := s) (t := [34] ++ t ++ [34]) (by have := hk.2.1; simp [NoNul] at *; exact this) []) (entails_refl _))
      sep_cancel

/-! ## Observers and destructor -/

/-- C05: `STRING_delete` gives back exactly the memory of the string. -/
theorem STRING_delete_spec {h : Ptr} {a : Option Text} :
    Triple rel (OStr h a) (STRING_delete h) (fun _ => emp) := by
  unfold STRING_delete
  cases a with
  | none =>
    simp only [OStr, ORep_none]; hoist; rintro rfl
    rw [if_neg (by simp)]; exact Triple.pure (entails_refl _)
  | some t =>
    simp only [OStr, ORep_some]
    refine Triple.know (know_Str (h := h) (by pick)) fun hk => ?_
    rw [if_pos hk.1]
    simp only [Str, CStr_heap0]; hoist; intro p vs hvs
    step (loadPtr_spec (p := h) ?_)
    step (free_spec (p := p))
    step (store_spec (p := h) ?_)
    last free_spec
    exact entails_of_eq (sep_emp _)

/-- A string opened at its text pointer (what `STRING_c_str` lets the caller see). -/
def StrAt (h p : Ptr) : Option Text → HProp
  | none => (h = 0 ∧ p = 0) ⋏ emp
  | some t => h ↦ [.ptr p] ∗ CStr (.heap p 0) t

theorem StrAt_OStr {h p : Ptr} {a : Option Text} : StrAt h p a ⊢ₕ OStr h a := by
  cases a with
  | none => exact entails_pand_l fun h => entails_pand_r (entails_refl _) h.1
  | some t => exact entails_ex_r p (entails_refl _)

/-- C04: `STRING_c_str` returns a pointer to the text (NULL for NULL). -/
theorem STRING_c_str_spec {h : Ptr} {a : Option Text} :
    Triple rel (OStr h a) (STRING_c_str h) (fun r => StrAt h r a) := by
  unfold STRING_c_str
  cases a with
  | none =>
    simp only [OStr, ORep_none]; hoist; rintro rfl
    rw [if_neg (by simp)]; exact Triple.pure (entails_pand_r (entails_refl _) ⟨rfl, rfl⟩)
  | some t =>
    simp only [OStr, ORep_some]
    refine Triple.know (know_Str (h := h) (by pick)) fun hk => ?_
    rw [if_pos hk.1]
    simp only [Str]; hoist; intro p
    last (loadPtr_spec (p := h) ?_)
    rw [pand_sep]
    exact entails_pand_l fun e => by subst e; exact entails_refl _

/-- C04: `STRING_length` is the length of the text, 0 for NULL. -/
theorem STRING_length_spec {h : Ptr} {a : Option Text} :
    Triple rel (OStr h a) (STRING_length h) (fun r => (r = (a.map List.length).getD 0) ⋏ OStr h a) := by
  unfold STRING_length
  cases a with
  | none =>
    simp only [OStr, ORep_none]; hoist; rintro rfl
    rw [if_neg (by simp)]; exact Triple.pure (entails_pand_r (entails_pand_r (entails_refl _) rfl) rfl)
  | some t =>
    simp only [OStr, ORep_some]
    refine Triple.know (know_Str (h := h) (by pick)) fun hk => ?_
    rw [if_pos hk.1]
    simp only [Str]; hoist; intro p
    refine Triple.know (know_heap0 (p := p) (by pick)) fun hp => ?_
    step (loadPtr_spec (p := h) ?_)
    rw [ofPtr_ne hp]
    last strlen_spec
    rw [pand_sep]
    exact entails_pand_l fun e => entails_pand_r (entails_ex_r p (by sep_cancel)) (by simpa using e)

/-- C07 (function level): what `STRING_compare` returns for two different handles. -/
def compareSpec : Option Text → Option Text → Int
  | none, none => 0
  | none, some _ => 1
  | some _, none => -1
  | some x, some y => strcmpL x y

theorem STRING_compare_spec {h g : Ptr} {a b : Option Text} :
    Triple rel (OStr h a ∗ OStr g b) (STRING_compare h g)
      (fun r => (r = compareSpec a b) ⋏ OStr h a ∗ OStr g b) := by
  unfold STRING_compare
  cases a with
  | none =>
    simp only [OStr, ORep_none]; hoist; rintro rfl
    cases b with
    | none =>
      simp only [ORep_none]; hoist; rintro rfl
      rw [if_pos (by simp)]
      refine Triple.pure ?_
      simp only [pand_sep, emp_sep]
      exact entails_pand_r (entails_pand_r (entails_pand_r (entails_refl _) trivial) trivial) rfl
    | some y =>
      simp only [ORep_some]
      refine Triple.know (know_Str (h := g) (by pick)) fun hk => ?_
      rw [if_neg (by simp [hk.1]), if_pos (by simp)]
      refine Triple.pure ?_
      rw [pand_sep, emp_sep]
      exact entails_pand_r (entails_pand_r (entails_refl _) trivial) rfl
  | some x =>
    simp only [OStr, ORep_some]
    refine Triple.know (know_Str (h := h) (by pick)) fun hk => ?_
    rw [if_neg (by simp [hk.1]), if_neg hk.1]
    cases b with
    | none =>
      simp only [ORep_none]; hoist; rintro rfl
      rw [if_pos rfl]
      refine Triple.pure ?_
      rw [sep_pand, sep_emp]
      exact entails_pand_r (entails_pand_r (entails_refl _) rfl) rfl
    | some y =>
      simp only [ORep_some]
      refine Triple.know (know_Str (h := g) (by pick)) fun hk' => ?_
      rw [if_neg hk'.1]
      simp only [Str]; hoist; intro q p
      refine Triple.know (know_heap0 (p := p) (by pick)) fun hp => ?_
      refine Triple.know (know_heap0 (p := q) (by pick)) fun hq => ?_
      step (loadPtr_spec (p := h) ?_)
      step (loadPtr_spec (p := g) ?_)
      rw [ofPtr_ne hp, ofPtr_ne hq]
      last (strcmp_spec (a := .heap p 0) (b := .heap q 0))
      rw [pand_sep, sep_hex]
      refine entails_pand_l fun e => entails_pand_r (entails_ex_r q ?_) e
      rw [hex_sep]
      refine entails_ex_r p ?_
      rw [sep_assoc]; sep_cancel

theorem STRING_compare_self {h : Ptr} {a : Option Text} :
    Triple rel (OStr h a) (STRING_compare h h) (fun r => (r = 0) ⋏ OStr h a) := by
  unfold STRING_compare
  cases a with
  | none =>
    simp only [OStr, ORep_none]; hoist; rintro rfl
    rw [if_pos (by simp)]
    exact Triple.pure (entails_pand_r (entails_pand_r (entails_refl _) rfl) rfl)
  | some x =>
    simp only [OStr, ORep_some]
    refine Triple.know (know_Str (h := h) (by pick)) fun hk => ?_
    rw [if_neg (by simp [hk.1]), if_neg hk.1, if_neg hk.1]
    simp only [Str]; hoist; intro p
    refine Triple.know (know_heap0 (p := p) (by pick)) fun hp => ?_
    step (loadPtr_spec (p := h) ?_)
    step (loadPtr_spec (p := h) ?_)
    rw [ofPtr_ne hp]
    unfold strcmp
    step cstr_spec
    step cstr_spec
    refine Triple.pure (entails_pand_r (entails_ex_r p (by sep_cancel)) (strcmpL_eq_zero.2 rfl))

/-! ## Mutators -/

/-- a null handle or a null pointer argument -/
theorem null_arg {h : Ptr} {s2 : CharPtr} {a o : Option Text} {c : M Nat} {n : Nat} {oom : Prop} {ok : Text → Text → Prop}
    (hn : n ≠ 0)
    (hc : a ≠ none → o ≠ none → h ≠ 0 → s2 ≠ .null → Triple rel (OStr h a ∗ Arg s2 o) c
      (fun r => ∃∃ a', (Effect (a = none ∨ o = none) oom ok a r a') ⋏ OStr h a' ∗ Arg s2 o)) :
    Triple rel (OStr h a ∗ Arg s2 o) (if h = 0 ∨ s2 = .null then pure n else c)
      (fun r => ∃∃ a', (Effect (a = none ∨ o = none) oom ok a r a') ⋏ OStr h a' ∗ Arg s2 o) := by
  have bad : (a = none ∨ o = none) → Triple rel (OStr h a ∗ Arg s2 o) (pure n)
      (fun r => ∃∃ a', (Effect (a = none ∨ o = none) oom ok a r a') ⋏ OStr h a' ∗ Arg s2 o) := fun hb =>
    Triple.pure (entails_ex_r a (entails_pand_r (entails_refl _) (Or.inr ⟨hn, rfl, Or.inl hb⟩)))
  cases a with
  | none =>
    refine Triple.know (φ := h = 0) (fun hp hP => ?_) fun h0 => ?_
    · obtain ⟨x, y, _, _, hh, _⟩ := hP; exact hh.1
    rw [if_pos (Or.inl h0)]; exact bad (Or.inl rfl)
  | some t =>
    refine Triple.know (know_Str (h := h) (t := t) (by simp only [OStr, ORep_some]; pick)) fun hk => ?_
    cases o with
    | none =>
      refine Triple.know (φ := s2 = .null) (fun hp hP => ?_) fun h0 => ?_
      · obtain ⟨x, y, _, _, _, hh⟩ := hP; exact hh.1
      rw [if_pos (Or.inr h0)]; exact bad (Or.inr rfl)
    | some u =>
      refine Triple.know (know_CStr (s := s2) (t := u) (by simp only [Arg_some]; pick)) fun hk' => ?_
      rw [if_neg (by simp [hk.1, hk'.1])]
      exact hc (by simp) (by simp) hk.1 hk'.1

theorem noNul_append {a b : Text} (ha : NoNul a) (hb : NoNul b) : NoNul (a ++ b) := by
  simp only [NoNul, List.mem_append, not_or] at *; exact ⟨ha, hb⟩

/-- growing a string in place by a copied suffix (shared by the two concatenations) -/
theorem grow {vs : List Val} {t u : Text} (h : cstrV vs = some t) :
    patch (vs.take (t.length + u.length + 1) ++ List.replicate (t.length + u.length + 1 - vs.length) .undef)
      t.length (bytesV ((u ++ [0]).take (u.length + 1))) = bytesV (t ++ u) ++ [.byte 0] := by
  obtain ⟨w, rfl⟩ := (cstrV_prefix h).1
  rw [List.take_of_length_le (l := u ++ [0]) (by simp)]
  have hl : (bytesV (u ++ [0])).length = u.length + 1 := by simp [bytesV]
  unfold patch
  rw [hl]
  have e1 : (List.take (t.length + u.length + 1) (bytesV (t ++ [0]) ++ w) ++
      List.replicate (t.length + u.length + 1 - (bytesV (t ++ [0]) ++ w).length) Val.undef).take t.length = bytesV t := by
    rw [List.take_append_of_le_length (by simp [bytesV]; omega), List.take_take, Nat.min_eq_left (by omega)]
    rw [List.take_append_of_le_length (by simp [bytesV])]
    simp [bytesV]
  have e2 : (List.take (t.length + u.length + 1) (bytesV (t ++ [0]) ++ w) ++
      List.replicate (t.length + u.length + 1 - (bytesV (t ++ [0]) ++ w).length) Val.undef).drop (t.length + (u.length + 1)) = [] := by
    apply List.drop_eq_nil_of_le
    simp [bytesV]; omega
  rw [e1, e2]
  simp [bytesV]

/-- C04/C05: `STRING_concat` appends, or changes nothing. -/
theorem STRING_concat_spec {h : Ptr} {s2 : CharPtr} {a o : Option Text} :
    Triple rel (OStr h a ∗ Arg s2 o) (STRING_concat h s2)
      (fun r => ∃∃ a', (Effect (a = none ∨ o = none) (¬ rel ∨ ∃ t u, a = some t ∧ o = some u ∧ maxObj < t.length + u.length + 1)
          (fun c c' => ∃ u, o = some u ∧ c' = c ++ u) a r a') ⋏ OStr h a' ∗ Arg s2 o) := by
  unfold STRING_concat
  refine null_arg (by omega) fun ha ho h0 hs => ?_
  obtain ⟨t, rfl⟩ := Option.ne_none_iff_exists'.1 ha
  obtain ⟨u, rfl⟩ := Option.ne_none_iff_exists'.1 ho
  simp only [OStr, ORep_some, Arg_some]
  refine Triple.know (know_Str (h := h) (by pick)) fun hk => ?_
  refine Triple.know (know_CStr (s := s2) (by pick)) fun hk' => ?_
  have hz : sz (t.length + u.length + 1) = t.length + u.length + 1 :=
    sz_eq (by have := hk.2.2; have := hk'.2.2; simp only [maxObj, szMod] at *; omega)
  have hz' : sz (u.length + 1) = u.length + 1 := sz_eq (by have := hk'.2.2; simp only [maxObj, szMod] at *; omega)
  simp only [Str, CStr_heap0]; hoist; intro p vs hvs
  refine Triple.know (know_pts (p := p) (by pick) fun h _ => h) fun hp => ?_
  step (loadPtr_spec (p := h) ?_)
  rw [ofPtr_ne hp]
  unfold strlen
  simp only [bind_assoc, pure_bind]
  step (cstr_pts (p := p) (vs := vs) (t := t) (by omega) (by simpa using hvs))
  step (cstr_spec (s := s2))
  rw [hz, hz']
  refine Triple.realloc (p := p) (by omega) (by pick) (fun hr => ?_) (fun q hq hm => ?_)
  · rw [if_pos rfl]
    refine Triple.pure (entails_ex_r (some t) (entails_pand_r ?_ (Or.inr ⟨by omega, rfl, Or.inr (hr.imp id fun h => ⟨t, u, rfl, rfl, h⟩)⟩)))
    rw [ORep_some, Str, hex_sep]
    refine entails_ex_r p ?_
    rw [CStr_heap0, sep_hex, hex_sep]
    refine entails_ex_r vs ?_
    rw [sep_pand, pand_sep]
    exact entails_pand_r (by sep_cancel) hvs
  · rw [if_neg hq]
    step (store_spec (p := h) ?_)
    have hlen : t.length + 1 ≤ vs.length := by
      have := (cstrV_prefix hvs).1.length_le; simpa [bytesV] using this
    step (memcpy_cstr (dst := q) (off := t.length) (src := s2) (t := u) (n := u.length + 1)
      (b := vs.take (t.length + u.length + 1) ++ List.replicate (t.length + u.length + 1 - vs.length) .undef) (by omega)
      (by simp; omega))
    rw [grow hvs]
    refine Triple.pure (entails_ex_r (some (t ++ u)) (entails_pand_r ?_ (Or.inl ⟨rfl, by simp, t, t ++ u, rfl, rfl, u, rfl, rfl⟩)))
    rw [ORep_some]
    refine entails_trans ?_ (sep_mono (Str_intro (p := q) (noNul_append hk.2.1 hk'.2.1) []) (entails_refl _))
    sep_cancel

/-- C04/C05: `STRING_concat_with_STRING` on two different strings. -/
theorem STRING_concat_with_STRING_spec_partial {h g : Ptr} {a b : Option Text} :
    Triple rel (OStr h a ∗ OStr g b) (STRING_concat_with_STRING h g)
      (fun r => ∃∃ a', (Effect (a = none ∨ b = none) (¬ rel ∨ ∃ t u, a = some t ∧ b = some u ∧ maxObj < t.length + u.length + 1)
          (fun c c' => ∃ u, b = some u ∧ c' = c ++ u) a r a') ⋏ OStr h a' ∗ OStr g b) := by
  unfold STRING_concat_with_STRING
  cases a with
  | none =>
    refine Triple.know (φ := h = 0) (fun hp hP => ?_) fun h0 => ?_
    · obtain ⟨x, y, _, _, hh, _⟩ := hP; exact hh.1
    rw [if_pos (Or.inl h0)]
    exact Triple.pure (entails_ex_r none (entails_pand_r (entails_refl _) (Or.inr ⟨by simp, rfl, Or.inl (Or.inl rfl)⟩)))
  | some t =>
  refine Triple.know (know_Str (h := h) (t := t) (by simp only [OStr, ORep_some]; pick)) fun hk => ?_
  cases b with
  | none =>
    refine Triple.know (φ := g = 0) (fun hp hP => ?_) fun h0 => ?_
    · obtain ⟨x, y, _, _, _, hh⟩ := hP; exact hh.1
    rw [if_pos (Or.inr h0)]
    exact Triple.pure (entails_ex_r (some t) (entails_pand_r (entails_refl _) (Or.inr ⟨by simp, rfl, Or.inl (Or.inr rfl)⟩)))
  | some u =>
  refine Triple.know (know_Str (h := g) (t := u) (by simp only [OStr, ORep_some]; pick)) fun hk' => ?_
  rw [if_neg (by simp [hk.1, hk'.1])]
  simp only [OStr, ORep_some]
  have hz : sz (t.length + u.length + 1) = t.length + u.length + 1 :=
    sz_eq (by have := hk.2.2; have := hk'.2.2; simp only [maxObj, szMod] at *; omega)
  have hz' : sz (u.length + 1) = u.length + 1 := sz_eq (by have := hk'.2.2; simp only [maxObj, szMod] at *; omega)
  rw [Str, Str]; hoist; intro e p
  refine Triple.know (know_heap0 (p := e) (by pick)) fun he => ?_
  rw [CStr_heap0 (p := p)]; hoist; intro vs hvs
  refine Triple.know (know_pts (p := p) (by pick) fun h _ => h) fun hp => ?_
  step (loadPtr_spec (p := h) ?_)
  rw [ofPtr_ne hp]
  unfold strlen
  simp only [bind_assoc, pure_bind]
  step (cstr_pts (p := p) (vs := vs) (t := t) (by omega) (by simpa using hvs))
  step (loadPtr_spec (p := g) ?_)
  rw [ofPtr_ne he]
  step (cstr_spec (s := .heap e 0))
  rw [hz, hz']
  refine Triple.realloc (p := p) (by omega) (by pick) (fun hr => ?_) (fun q hq hm => ?_)
  · rw [if_pos rfl]
    refine Triple.pure (entails_ex_r (some t) (entails_pand_r ?_ (Or.inr ⟨by omega, rfl, Or.inr (hr.imp id fun h => ⟨t, u, rfl, rfl, h⟩)⟩)))
    rw [ORep_some]
    refine entails_trans ?_ (sep_mono (Str_mk (p := p) hvs) (entails_ex_r e (entails_refl _)))
    sep_cancel
  · rw [if_neg hq]
    step (store_spec (p := h) ?_)
    step (loadPtr_spec (p := g) ?_)
    rw [ofPtr_ne he]
    have hlen : t.length + 1 ≤ vs.length := by
      have := (cstrV_prefix hvs).1.length_le; simpa [bytesV] using this
    step (memcpy_cstr (dst := q) (off := t.length) (src := .heap e 0) (t := u) (n := u.length + 1)
      (b := vs.take (t.length + u.length + 1) ++ List.replicate (t.length + u.length + 1 - vs.length) .undef) (by omega)
      (by simp; omega))
    rw [grow hvs]
    refine Triple.pure (entails_ex_r (some (t ++ u)) (entails_pand_r ?_ (Or.inl ⟨rfl, by simp, t, t ++ u, rfl, rfl, u, rfl, rfl⟩)))
    rw [ORep_some]
    refine entails_trans ?_ (sep_mono (Str_intro (p := q) (noNul_append hk.2.1 hk'.2.1) []) (entails_ex_r e (entails_refl _)))
    sep_cancel

/-- C04/C05: `STRING_copy` from a pointer outside the string itself. -/
theorem STRING_copy_spec {h : Ptr} {s2 : CharPtr} {a o : Option Text} :
    Triple rel (OStr h a ∗ Arg s2 o) (STRING_copy h s2)
      (fun r => ∃∃ a', (Effect (a = none ∨ o = none) (¬ rel)
          (fun c c' => o = some c') a r a') ⋏ OStr h a' ∗ Arg s2 o) := by
  unfold STRING_copy
  refine null_arg (by omega) fun ha ho h0 hs => ?_
  obtain ⟨t, rfl⟩ := Option.ne_none_iff_exists'.1 ha
  obtain ⟨u, rfl⟩ := Option.ne_none_iff_exists'.1 ho
  simp only [OStr, ORep_some, Arg_some]
  refine Triple.know (know_Str (h := h) (by pick)) fun hk => ?_
  refine Triple.know (know_CStr (s := s2) (by pick)) fun hk' => ?_
  have hz' : sz (u.length + 1) = u.length + 1 := sz_eq (by have := hk'.2.2; simp only [maxObj, szMod] at *; omega)
  simp only [Str, CStr_heap0]; hoist; intro p vs hvs
  refine Triple.know (know_pts (p := p) (by pick) fun h _ => h) fun hp => ?_
  refine Triple.know (φ := CharPtr.heap p 0 ≠ s2) (fun hpp hP => ?_) fun hne => ?_
  · rintro rfl
    rw [CStr_heap0, sep_left_comm] at hP
    obtain ⟨x, y, hd, he, hx, x', y', hd', he', hx', w, hw, hy⟩ := hP
    have h1 := hx.2.2; have h2 := hy.2.2
    have := hd p
    rw [he', h2, h1] at this
    simp only [Heap.single, Heap.union, if_true] at this
    rcases this with h | h
    · cases h
    · cases hh : x' p <;> rw [hh] at h <;> simp at h
  step (loadPtr_spec (p := h) ?_)
  rw [ofPtr_ne hp, if_pos hne]
  step strlen_spec
  rw [hz']
  refine Triple.realloc (p := p) (by omega) (by pick) (fun hr => ?_) (fun q hq hm => ?_)
  · rw [if_pos rfl]
    refine Triple.pure (entails_ex_r (some t) (entails_pand_r ?_ (Or.inr ⟨by omega, rfl, Or.inr (hr.resolve_right (by omega))⟩)))
    rw [ORep_some, Str, hex_sep]
    refine entails_ex_r p ?_
    rw [CStr_heap0, sep_hex, hex_sep]
    refine entails_ex_r vs ?_
    rw [sep_pand, pand_sep]
    exact entails_pand_r (by sep_cancel) hvs
  · rw [if_neg hq]
    step (store_spec (p := h) ?_)
    step (memcpy_cstr (dst := q) (off := 0) (src := s2) (t := u) (n := u.length + 1)
      (b := vs.take (u.length + 1) ++ List.replicate (u.length + 1 - vs.length) .undef) (by omega)
      (by simp; omega))
    rw [patch_full (by simp [bytesV]; omega), List.take_of_length_le (by simp)]
    refine Triple.pure (entails_ex_r (some u) (entails_pand_r ?_ (Or.inl ⟨rfl, by simp, t, u, rfl, rfl, rfl⟩)))
    rw [ORep_some]
    refine entails_trans ?_ (sep_mono (Str_intro' (p := q) hk'.2.1) (entails_refl _))
    sep_cancel

/-- C04: copying a string onto itself through its own text pointer is a no-op. -/
theorem STRING_copy_self {h p : Ptr} {t : Text} :
    Triple rel (StrAt h p (some t)) (STRING_copy h (.ofPtr p)) (fun r => (r = 0) ⋏ StrAt h p (some t)) := by
  unfold StrAt STRING_copy
  refine Triple.know (know_heap0 (p := p) (by pick)) fun hp => ?_
  refine Triple.know (know_pts (p := h) (by pick) fun h _ => h) fun hh => ?_
  rw [ofPtr_ne hp, if_neg (by simp [hh])]
  step (loadPtr_spec (p := h) ?_)
  rw [ofPtr_ne hp, if_neg (by simp)]
  exact Triple.pure (entails_pand_r (entails_refl _) rfl)

/-- C04/C05: `STRING_copy_n` copies at most `n` characters. -/
theorem STRING_copy_n_spec {h : Ptr} {s2 : CharPtr} {a o : Option Text} {n : Nat} :
    Triple rel (OStr h a ∗ Arg s2 o) (STRING_copy_n h s2 n)
      (fun r => ∃∃ a', (Effect (a = none ∨ o = none) (¬ rel)
          (fun c c' => ∃ u, o = some u ∧ c' = u.take n) a r a') ⋏ OStr h a' ∗ Arg s2 o) := by
  unfold STRING_copy_n
  refine null_arg (by omega) fun ha ho h0 hs => ?_
  obtain ⟨t, rfl⟩ := Option.ne_none_iff_exists'.1 ha
  obtain ⟨u, rfl⟩ := Option.ne_none_iff_exists'.1 ho
  simp only [OStr, ORep_some, Arg_some]
  refine Triple.know (know_Str (h := h) (by pick)) fun hk => ?_
  refine Triple.know (know_CStr (s := s2) (by pick)) fun hk' => ?_
  step strlen_spec
  generalize hm : (if u.length > n then n else u.length) = m
  have hmu : m ≤ u.length := by subst hm; split <;> omega
  have htake : u.take n = u.take m := by
    subst hm; split
    · rfl
    · rw [List.take_of_length_le (by omega), List.take_length]
  have hz' : sz (m + 1) = m + 1 := sz_eq (by have := hk'.2.2; simp only [maxObj, szMod] at *; omega)
  simp only [Str, CStr_heap0]; hoist; intro p vs hvs
  step (loadPtr_spec (p := h) ?_)
  rw [hz']
  refine Triple.realloc (p := p) (by omega) (by pick) (fun hr => ?_) (fun q hq hmm => ?_)
  · rw [if_pos rfl]
    refine Triple.pure (entails_ex_r (some t) (entails_pand_r ?_ (Or.inr ⟨by omega, rfl, Or.inr (hr.resolve_right (by omega))⟩)))
    rw [ORep_some, Str, hex_sep]
    refine entails_ex_r p ?_
    rw [CStr_heap0, sep_hex, hex_sep]
    refine entails_ex_r vs ?_
    rw [sep_pand, pand_sep]
    exact entails_pand_r (by sep_cancel) hvs
  · rw [if_neg hq]
    step (store_spec (p := h) ?_)
    step (memcpy_cstr (dst := q) (off := 0) (src := s2) (t := u) (n := m)
      (b := vs.take (m + 1) ++ List.replicate (m + 1 - vs.length) .undef) (by omega)
      (by simp; omega))
    have e : ∃ x, patch (vs.take (m + 1) ++ List.replicate (m + 1 - vs.length) .undef) 0 (bytesV ((u ++ [0]).take m)) =
        bytesV (u.take m) ++ [x] := by
      rw [patch_zero, List.take_append_of_le_length hmu]
      generalize hb : (vs.take (m + 1) ++ List.replicate (m + 1 - vs.length) Val.undef) = b
      have hbl : b.length = m + 1 := by subst hb; simp; omega
      have hl : (bytesV (u.take m)).length = m := by rw [bytesV_length, List.length_take]; omega
      rw [hl]
      have : (b.drop m).length = 1 := by simp [hbl]
      obtain ⟨x, hx⟩ := List.length_eq_one_iff.1 this
      exact ⟨x, by rw [hx]⟩
    obtain ⟨x, e⟩ := e
    rw [e]
    step (store_spec (p := q) ?_)
    rw [set_mid (by simp; omega)]
    refine Triple.pure (entails_ex_r (some (u.take m)) (entails_pand_r ?_ (Or.inl ⟨rfl, by simp, t, _, rfl, rfl, u, rfl, htake.symm⟩)))
    rw [ORep_some]
    have hnn : NoNul (u.take m) := fun hh => hk'.2.1 (List.mem_of_mem_take hh)
    refine entails_trans ?_ (sep_mono (Str_intro (p := q) hnn []) (entails_refl _))
    sep_cancel

/-- shape of the calls on one string -/
theorem null_handle {h : Ptr} {a : Option Text} {c : M Nat} {n : Nat} {oom : Prop} {ok : Text → Text → Prop}
    (hn : n ≠ 0)
    (hc : ∀ t, a = some t → h ≠ 0 → Triple rel (Str h t) c
      (fun r => ∃∃ a', (Effect (a = none) oom ok a r a') ⋏ OStr h a')) :
    Triple rel (OStr h a) (if h = 0 then pure n else c)
      (fun r => ∃∃ a', (Effect (a = none) oom ok a r a') ⋏ OStr h a') := by
  cases a with
  | none =>
    refine Triple.know (φ := h = 0) (fun hp hP => hP.1) fun h0 => ?_
    rw [if_pos h0]
    exact Triple.pure (entails_ex_r none (entails_pand_r (entails_refl _) (Or.inr ⟨hn, rfl, Or.inl rfl⟩)))
  | some t =>
    refine Triple.know (know_Str (h := h) (t := t) (by simp only [OStr, ORep_some]; pick)) fun hk => ?_
    rw [if_neg hk.1]
    exact hc t rfl hk.1

/-- C04/C05: `STRING_empty`. -/
theorem STRING_empty_spec {h : Ptr} {a : Option Text} :
    Triple rel (OStr h a) (STRING_empty h)
      (fun r => ∃∃ a', (Effect (a = none) (¬ rel) (fun c c' => c' = []) a r a') ⋏ OStr h a') := by
  unfold STRING_empty
  refine null_handle (by omega) ?_
  rintro t rfl h0
  simp only [Str, CStr_heap0]; hoist; intro p vs hvs
  step (loadPtr_spec (p := h) ?_)
  refine Triple.realloc (p := p) (by omega) (by pick) (fun hr => ?_) (fun q hq hmm => ?_)
  · rw [if_pos rfl]
    refine Triple.pure (entails_ex_r (some t) (entails_pand_r ?_ (Or.inr ⟨by omega, rfl, Or.inr (hr.resolve_right (by simp only [maxObj]; omega))⟩)))
    rw [OStr, ORep_some, Str]
    refine entails_ex_r p ?_
    rw [CStr_heap0, sep_hex]
    refine entails_ex_r vs ?_
    rw [sep_pand]
    exact entails_pand_r (by sep_cancel) hvs
  · rw [if_neg hq]
    step (store_spec (p := h) ?_)
    step (store_spec (p := q) ?_)
    refine Triple.pure (entails_ex_r (some []) (entails_pand_r ?_ (Or.inl ⟨rfl, by simp, t, _, rfl, rfl, rfl⟩)))
    rw [OStr, ORep_some]
    refine entails_trans ?_ (Str_intro (p := q) (t := []) (by simp [NoNul]) [])
    have e : (vs.take 1 ++ List.replicate (1 - vs.length) Val.undef).set 0 (.byte 0) = bytesV [] ++ [.byte 0] := by
      cases vs <;> simp [bytesV]
    rw [e]; sep_cancel

/-- C04/C05: `STRING_quote`. -/
theorem STRING_quote_spec {h : Ptr} {a : Option Text} :
    Triple rel (OStr h a) (STRING_quote h)
      (fun r => ∃∃ a', (Effect (a = none) (¬ rel ∨ ∃ t, a = some t ∧ maxObj < t.length + 3)
        (fun c c' => c' = [34] ++ c ++ [34]) a r a') ⋏ OStr h a') := by
  unfold STRING_quote
  refine null_handle (by omega) ?_
  rintro t rfl h0
  refine Triple.know (know_Str (h := h) (by pick)) fun hk => ?_
  simp only [Str, CStr_heap0]; hoist; intro p vs hvs
  refine Triple.know (know_pts (p := p) (by pick) fun h _ => h) fun hp => ?_
  step (loadPtr_spec (p := h) ?_)
  rw [ofPtr_ne hp]
  unfold strlen
  simp only [bind_assoc, pure_bind]
  step (cstr_pts (p := p) (vs := vs) (t := t) (by omega) (by simpa using hvs))
  have hz : sz (t.length + 2 + 1) = t.length + 3 := sz_eq (by have := hk.2.2; simp only [maxObj, szMod] at *; omega)
  rw [hz]
  refine Triple.realloc (p := p) (by omega) (by pick) (fun hr => ?_) (fun q hq hmm => ?_)
  · rw [if_pos rfl]
    refine Triple.pure (entails_ex_r (some t) (entails_pand_r ?_ (Or.inr ⟨by omega, rfl, Or.inr (hr.imp id fun h => ⟨t, rfl, h⟩)⟩)))
    rw [OStr, ORep_some, Str]
    refine entails_ex_r p ?_
    rw [CStr_heap0, sep_hex]
    refine entails_ex_r vs ?_
    rw [sep_pand]
    exact entails_pand_r (by sep_cancel) hvs
  · rw [if_neg hq]
    step (store_spec (p := h) ?_)
    unfold memmove
    simp only [bind_assoc]
    generalize hb : (vs.take (t.length + 3) ++ List.replicate (t.length + 3 - vs.length) Val.undef) = b
    have hbl : b.length = t.length + 3 := by subst hb; simp; omega
    have hbt : (b.drop 0).take t.length = bytesV t := by
      obtain ⟨w, rfl⟩ := (cstrV_prefix hvs).1
      subst hb
      rw [List.drop_zero, List.take_append_of_le_length (by simp [bytesV]), List.take_take, Nat.min_eq_left (by omega)]
      rw [List.take_append_of_le_length (by simp [bytesV])]
      simp [bytesV]
    step (loadN_spec (p := q) (b := b) (by omega))
    rw [hbt]
    step (storeN_spec' (p := q) (b := b) (by simp [bytesV]; omega))
    have e : ∃ x y z, patch b 1 (bytesV t) = x :: (bytesV t ++ [y, z]) := by
      cases b with
      | nil => simp at hbl
      | cons x b =>
        have hd : (b.drop (bytesV t).length).length = 2 := by rw [bytesV_length]; simp at hbl ⊢; omega
        obtain ⟨y, z, hyz⟩ : ∃ y z, b.drop (bytesV t).length = [y, z] := by
          match hx : b.drop (bytesV t).length, hd with
          | [y, z], _ => exact ⟨y, z, rfl⟩
        refine ⟨x, y, z, ?_⟩
        unfold patch
        rw [show 1 + (bytesV t).length = (bytesV t).length + 1 by omega, List.drop_succ_cons, hyz]
        simp
    obtain ⟨x, y, z, e⟩ := e
    rw [e]
    step (store_spec (p := q) ?_)
    rw [show Val.byte 34 :: (bytesV t ++ [y, z]) = bytesV ([34] ++ t) ++ y :: [z] by simp [bytesV]]
    step (store_spec (p := q) ?_)
    rw [set_mid (by simp), show bytesV ([34] ++ t) ++ .byte 34 :: [z] = bytesV ([34] ++ t ++ [34]) ++ z :: [] by simp [bytesV]]
    step (store_spec (p := q) ?_)
    rw [set_mid (by simp)]
    refine Triple.pure (entails_ex_r (some ([34] ++ t ++ [34])) (entails_pand_r ?_ (Or.inl ⟨rfl, by simp, t, _, rfl, rfl, rfl⟩)))
    rw [OStr, ORep_some]
    refine entails_trans ?_ (Str_intro (p := q) (t := [34] ++ t ++ [34]) (by have := hk.2.1; simp [NoNul] at *; exact this) [])
    sep_cancel

end Verif.Strings
