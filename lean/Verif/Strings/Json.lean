import Verif.Strings.Props
import Verif.Strings.JsonSpec
/-! # Property C06: `STRING_new_JSON` produces a JSON literal that decodes to its input -/
set_option linter.unusedSimpArgs false
set_option linter.unusedVariables false
namespace Verif.Strings
open Verif Verif.Json
variable {rel : Prop}

/-- What the writing loop emits for one character (proof device; the claims are stated with `JString`). -/
def esc (c : UInt8) : List UInt8 :=
  if c ≤ 0x1F then [92, 117, 48, 48, hexToASCII.getD ((c &&& 0xF0) >>> 4).toNat 0, hexToASCII.getD (c &&& 0x0F).toNat 0]
  else if c = 34 then [92, 34]
  else if c = 92 then [92, 92]
  else if c = 47 then [92, 47]
  else [c]

def isCtl (c : UInt8) : Bool := c ≤ 0x1F
def isEsc (c : UInt8) : Bool := !(c ≤ 0x1F) && (c = 34 || c = 92 || c = 47)

theorem esc_length (c : UInt8) : (esc c).length = 1 + 5 * (if isCtl c then 1 else 0) + (if isEsc c then 1 else 0) := by
  unfold esc isCtl isEsc
  by_cases h1 : c ≤ 0x1F
  · simp [h1]
  · by_cases h2 : c = 34
    · subst h2; decide
    · by_cases h3 : c = 92
      · subst h3; decide
      · by_cases h4 : c = 47
        · subst h4; decide
        · simp [h1, h2, h3, h4]

theorem u8_ind (P : UInt8 → Prop) (h : ∀ n : Fin 256, P (UInt8.ofNat n.val)) (c : UInt8) : P c := by
  have := h ⟨c.toNat, c.toNat_lt⟩
  simpa using this

theorem esc_noNul (c : UInt8) (h : c ≠ 0) : NoNul (esc c) := by
  revert c
  exact u8_ind _ (by decide +kernel)

theorem jsonChar_esc (c : UInt8) (h : c < 128) (rest : List UInt8) : jsonChar (esc c ++ rest) = some (c.toNat, rest) := by
  have key : ∀ n : Fin 256, UInt8.ofNat n.val < 128 →
      (esc (UInt8.ofNat n.val) = [UInt8.ofNat n.val] ∧ UInt8.ofNat n.val ≠ 92 ∧ UInt8.ofNat n.val ≠ 34 ∧ 0x20 ≤ UInt8.ofNat n.val) ∨
      (∃ e, esc (UInt8.ofNat n.val) = [92, e] ∧ e ≠ 117 ∧ escVal e = some n.val) ∨
      (∃ a b x y, esc (UInt8.ofNat n.val) = [92, 117, 48, 48, a, b] ∧ hexVal a = some x ∧ hexVal b = some y ∧ x * 16 + y = n.val) := by
    intro n hn
    by_cases h1 : UInt8.ofNat n.val ≤ 0x1F
    · refine Or.inr (Or.inr ⟨hexToASCII.getD ((UInt8.ofNat n.val &&& 0xF0) >>> 4).toNat 0, hexToASCII.getD (UInt8.ofNat n.val &&& 0x0F).toNat 0, n.val / 16, n.val % 16, ?_, ?_, ?_, ?_⟩)
      · unfold esc; rw [if_pos h1]
      · revert n; decide +kernel
      · revert n; decide +kernel
      · omega
    · by_cases h2 : UInt8.ofNat n.val = 34
      · refine Or.inr (Or.inl ⟨34, ?_, by decide, ?_⟩)
        · unfold esc; rw [if_neg h1, if_pos h2]
        · revert n; decide +kernel
      · by_cases h3 : UInt8.ofNat n.val = 92
        · refine Or.inr (Or.inl ⟨92, ?_, by decide, ?_⟩)
          · unfold esc; rw [if_neg h1, if_neg h2, if_pos h3]
          · revert n; decide +kernel
        · by_cases h4 : UInt8.ofNat n.val = 47
          · refine Or.inr (Or.inl ⟨47, ?_, by decide, ?_⟩)
            · unfold esc; rw [if_neg h1, if_neg h2, if_neg h3, if_pos h4]
            · revert n; decide +kernel
          · refine Or.inl ⟨?_, h3, h2, ?_⟩
            · unfold esc; rw [if_neg h1, if_neg h2, if_neg h3, if_neg h4]
            · revert n; decide +kernel
  have hc : c = UInt8.ofNat c.toNat := by simp
  rcases key ⟨c.toNat, c.toNat_lt⟩ (by rwa [← hc]) with ⟨h1, h2, h3, h4⟩ | ⟨e, h1, h2, h3⟩ | ⟨a, b, x, y, h1, h2, h3, h4⟩
  · simp only [← hc] at h1 h2 h3 h4
    rw [h1]
    simp [jsonChar, h2, h3, h4, h]
  · simp only [← hc] at h1 h3
    rw [h1]
    simp [jsonChar, h2, h3]
  · simp only [← hc] at h1 h4
    rw [h1]
    have h0 : hexVal 48 = some 0 := by decide
    simp [jsonChar, h0, h2, h3, h4]

/-- the emitted text -/
def jsonText (t : Text) : Text := [34] ++ t.flatMap esc ++ [34]

theorem jsonText_reads (t : Text) (h : ∀ c ∈ t, c < 128) (rest : List UInt8) :
    JString (jsonText t ++ rest) (t.map UInt8.toNat) rest := by
  refine ⟨t.flatMap esc ++ [34] ++ rest, by simp [jsonText], ?_⟩
  induction t with
  | nil => exact JBody.close rest
  | cons c t ih =>
    have := jsonChar_esc c (h c (by simp)) (t.flatMap esc ++ [34] ++ rest)
    refine JBody.char (s' := t.flatMap esc ++ [34] ++ rest) ?_ (ih fun d hd => h d (by simp [hd]))
    simpa using this

/-- number of characters of each kind -/
def nCtl (t : Text) : Nat := (t.map fun c => if isCtl c then 1 else 0).sum
def nEsc (t : Text) : Nat := (t.map fun c => if isEsc c then 1 else 0).sum

theorem flat_length (t : Text) : (t.flatMap esc).length = t.length + 5 * nCtl t + nEsc t := by
  induction t with
  | nil => rfl
  | cons c t ih =>
    simp only [List.flatMap_cons, List.length_append, ih, esc_length, nCtl, nEsc, List.map_cons, List.sum_cons, List.length_cons]
    omega

theorem nCtl_le (t : Text) : nCtl t ≤ t.length := by
  induction t with
  | nil => simp [nCtl]
  | cons c t ih => simp only [nCtl, List.map_cons, List.sum_cons, List.length_cons] at *; split <;> omega
theorem nEsc_le (t : Text) : nEsc t ≤ t.length := by
  induction t with
  | nil => simp [nEsc]
  | cons c t ih => simp only [nEsc, List.map_cons, List.sum_cons, List.length_cons] at *; split <;> omega

theorem getElem_suffix {t u : Text} {i : Nat} {c : UInt8} (h : t.drop i = c :: u) : (t ++ [0])[i]? = some c := by
  have h1 : t[i]? = some c := by
    have := congrArg (fun l => l[0]?) h
    simpa using this
  have hi : i < t.length := (List.getElem?_eq_some_iff.1 h1).1
  rw [List.getElem?_append_left hi, h1]

/-- the counting loop -/
theorem countLoop_spec {s : CharPtr} {t : Text} : ∀ (u : Text) (i nC nE : Nat), t.drop i = u →
    Triple rel (CStr s t) (countLoop s u.length i nC nE)
      (fun r => ((∀ c ∈ u, c < 128) ∧ r.1 = i + u.length ∧ r.2.1 = nC + nCtl u ∧ r.2.2 = nE + nEsc u ∨
        (¬ ∀ c ∈ u, c < 128) ∧ r.1 < i + u.length) ⋏ CStr s t) := by
  intro u
  induction u with
  | nil =>
    intro i nC nE h
    exact Triple.pure (entails_pand_r (entails_refl _) (Or.inl ⟨by simp, by simp, by simp [nCtl], by simp [nEsc]⟩))
  | cons c u ih =>
    intro i nC nE h
    have hd : t.drop (i + 1) = u := by
      have := congrArg (List.drop 1) h
      simpa [List.drop_drop, Nat.add_comm] using this
    simp only [List.length_cons, countLoop]
    step (charAt_spec (getElem_suffix h))
    refine Triple.ite (fun h1 => ?_) (fun h1 => ?_)
    · refine Triple.pure (entails_pand_r (entails_refl _) (Or.inr ⟨?_, by simp⟩))
      intro hh; exact absurd (hh c (by simp)) (by simpa using h1)
    have h1' : c < 128 := by simpa using h1
    have comb : ∀ nC' nE', nC' = nC + (if isCtl c then 1 else 0) → nE' = nE + (if isEsc c then 1 else 0) →
        Triple rel (CStr s t) (countLoop s u.length (i + 1) nC' nE')
          (fun r => ((∀ d ∈ c :: u, d < 128) ∧ r.1 = i + (u.length + 1) ∧ r.2.1 = nC + nCtl (c :: u) ∧ r.2.2 = nE + nEsc (c :: u) ∨
            (¬ ∀ d ∈ c :: u, d < 128) ∧ r.1 < i + (u.length + 1)) ⋏ CStr s t) := by
      intro nC' nE' e1 e2
      refine (ih (i + 1) nC' nE' hd).conseq (entails_refl _) fun r => ?_
      refine entails_pand_l fun hr => entails_pand_r (entails_refl _) ?_
      rcases hr with ⟨a1, a2, a3, a4⟩ | ⟨a1, a2⟩
      · refine Or.inl ⟨?_, by omega, ?_, ?_⟩
        · intro d hd; rcases List.mem_cons.1 hd with rfl | hd
          · exact h1'
          · exact a1 d hd
        · rw [a3, e1]; simp only [nCtl, List.map_cons, List.sum_cons]; omega
        · rw [a4, e2]; simp only [nEsc, List.map_cons, List.sum_cons]; omega
      · exact Or.inr ⟨fun hh => a1 fun d hd => hh d (by simp [hd]), by omega⟩
    refine Triple.ite (fun h2 => ?_) (fun h2 => ?_)
    · exact comb _ _ (by simp [isCtl, h2]) (by simp [isEsc, h2])
    refine Triple.ite (fun h3 => ?_) (fun h3 => ?_)
    · have he : isEsc c = true := by
        simp only [isEsc]; rcases h3 with h | h | h <;> subst h <;> decide
      exact comb _ _ (by simp [isCtl, h2]) (by simp [he])
    · have he : isEsc c = false := by
        simp only [not_or] at h3; simp [isEsc, h2, h3]
      exact comb _ _ (by simp [isCtl, h2]) (by simp [he])

theorem hexAt_spec {i : UInt8} (h : i.toNat < 16) :
    Triple rel emp (hexAt i) (fun r => (r = hexToASCII.getD i.toNat 0) ⋏ emp) := by
  have h' : i.toNat < hexToASCII.length := h
  have : hexAt i = pure (hexToASCII.getD i.toNat 0) := by
    unfold hexAt
    rw [List.getD_eq_getElem?_getD, List.getElem?_eq_getElem h']
    rfl
  rw [this]; exact Triple.pure (entails_pand_r (entails_refl _) rfl)

/-- the writing loop -/
theorem writeLoop_spec {src : CharPtr} {s : Ptr} {t : Text} : ∀ (u : Text) (i : Nat) (pre : Text) (n : Nat), t.drop i = u →
    (u.flatMap esc).length ≤ n →
    Triple rel (CStr src t ∗ Fill s pre n) (writeLoop src s u.length i pre.length)
      (fun r => (r = (pre ++ u.flatMap esc).length) ⋏ CStr src t ∗ Fill s (pre ++ u.flatMap esc) (n - (u.flatMap esc).length)) := by
  intro u
  induction u with
  | nil =>
    intro i pre n h hn
    refine Triple.pure (entails_pand_r ?_ (by simp))
    simp only [List.flatMap_nil, List.append_nil, List.length_nil, Nat.sub_zero]; exact entails_refl _
  | cons c u ih =>
    intro i pre n h hn
    have hd : t.drop (i + 1) = u := by
      have := congrArg (List.drop 1) h
      simpa [List.drop_drop, Nat.add_comm] using this
    have hlen : (esc c).length + (u.flatMap esc).length ≤ n := by simpa using hn
    have fin : ∀ (m : Nat) (k : Nat), k = (pre ++ esc c).length → m = n - (esc c).length →
        Triple rel (CStr src t ∗ Fill s (pre ++ esc c) m) (writeLoop src s u.length (i + 1) k)
          (fun r => (r = (pre ++ (c :: u).flatMap esc).length) ⋏ CStr src t ∗ Fill s (pre ++ (c :: u).flatMap esc) (n - ((c :: u).flatMap esc).length)) := by
      rintro m k rfl rfl
      have := ih (i + 1) (pre ++ esc c) (n - (esc c).length) hd (by omega)
      refine this.conseq (entails_refl _) fun r => entails_of_eq ?_
      simp only [List.flatMap_cons, List.append_assoc, List.length_append, Nat.sub_sub]
    simp only [List.length_cons, writeLoop]
    step (charAt_spec (getElem_suffix h))
    refine Triple.ite (fun h1 => ?_) (fun h1 => ?_)
    · have he : esc c = [92, 117, 48, 48, hexToASCII.getD ((c &&& 0xF0) >>> 4).toNat 0, hexToASCII.getD (c &&& 0x0F).toNat 0] := if_pos h1
      have hl : (esc c).length = 6 := by rw [he]; rfl
      step (fill_spec (p := s) (pre := pre) (n := n) rfl (by omega))
      step (fill_spec (p := s) (pre := pre ++ [92]) (n := n - 1) (by simp) (by omega))
      step (fill_spec (p := s) (pre := pre ++ [92] ++ [117]) (n := n - 1 - 1) (by simp) (by omega))
      step (fill_spec (p := s) (pre := pre ++ [92] ++ [117] ++ [48]) (n := n - 1 - 1 - 1) (by simp) (by omega))
      have b1 : ((c &&& 0xF0) >>> 4).toNat < 16 := u8_ind (fun c => ((c &&& 0xF0) >>> 4).toNat < 16) (by decide +kernel) c
      have b2 : (c &&& 0x0F).toNat < 16 := u8_ind (fun c => (c &&& 0x0F).toNat < 16) (by decide +kernel) c
      step (hexAt_spec b1)
      step (fill_spec (p := s) (pre := pre ++ [92] ++ [117] ++ [48] ++ [48]) (n := n - 1 - 1 - 1 - 1) (by simp) (by omega))
      step (hexAt_spec b2)
      step (fill_spec (p := s) (n := n - 1 - 1 - 1 - 1 - 1) (pre := (pre : List UInt8) ++ [(92 : UInt8)] ++ [(117 : UInt8)] ++ [(48 : UInt8)] ++ [(48 : UInt8)] ++ [hexToASCII.getD ((c &&& 0xF0) >>> 4).toNat (0 : UInt8)]) (by simp) (by omega))
      refine (fin (n - 1 - 1 - 1 - 1 - 1 - 1) (pre.length + 6) (by simp [hl]) (by omega)).pre ?_
      rw [he]
      simp only [List.append_assoc, List.cons_append, List.nil_append]; sep_cancel
    have two : ∀ e : UInt8, esc c = [92, e] → Triple rel (CStr src t ∗ Fill s pre n)
        (do store s pre.length (.byte 92); store s (pre.length + 1) (.byte e); writeLoop src s u.length (i + 1) (pre.length + 2))
        (fun r => (r = (pre ++ (c :: u).flatMap esc).length) ⋏ CStr src t ∗ Fill s (pre ++ (c :: u).flatMap esc) (n - ((c :: u).flatMap esc).length)) := by
      intro e he
      have hl : (esc c).length = 2 := by rw [he]; rfl
      step (fill_spec (p := s) (pre := pre) (n := n) rfl (by omega))
      step (fill_spec (p := s) (pre := pre ++ [92]) (n := n - 1) (by simp) (by omega))
      refine (fin (n - 1 - 1) (pre.length + 2) (by simp [hl]) (by omega)).pre ?_
      rw [he]
      simp only [List.append_assoc, List.cons_append, List.nil_append]; sep_cancel
    refine Triple.ite (fun h2 => two 34 (by unfold esc; rw [if_neg h1, if_pos h2])) (fun h2 => ?_)
    refine Triple.ite (fun h3 => two 92 (by unfold esc; rw [if_neg h1, if_neg h2, if_pos h3])) (fun h3 => ?_)
    refine Triple.ite (fun h4 => two 47 (by unfold esc; rw [if_neg h1, if_neg h2, if_neg h3, if_pos h4])) (fun h4 => ?_)
    have he : esc c = [c] := by unfold esc; rw [if_neg h1, if_neg h2, if_neg h3, if_neg h4]
    have hl : (esc c).length = 1 := by rw [he]; rfl
    step (fill_spec (p := s) (pre := pre) (n := n) rfl (by omega))
    refine (fin (n - 1) (pre.length + 1) (by simp [hl]) (by omega)).pre ?_
    rw [he]; sep_cancel

/-- `STRING_new_JSON`, exact text. -/
theorem STRING_new_JSON_text {psz : CharPtr} {o : Option Text} :
    Triple rel (Arg psz o) (STRING_new_JSON psz)
      (fun r => Made Str (o = none ∨ (∃ t, o = some t ∧ (¬ ∀ c ∈ t, c < 128)) ∨ ¬ rel ∨ ∃ t, o = some t ∧ maxObj < (jsonText t).length + 1)
          (fun u => ∃ t, o = some t ∧ (∀ c ∈ t, c < 128) ∧ u = jsonText t) r ∗ Arg psz o) := by
  unfold STRING_new_JSON
  cases o with
  | none =>
    simp only [Arg_none]; hoist; rintro rfl
    rw [if_pos rfl]
    refine Triple.pure (Made_fail_sep (Or.inl (by simp)) (entails_pand_r (entails_refl _) (by simp)))
  | some t =>
    simp only [Arg_some]
    refine Triple.know (know_CStr (s := psz) (by pick)) fun hk => ?_
    rw [if_neg hk.1]
    step strlen_spec
    step (countLoop_spec (t := t) t 0 0 0 rfl) into r
    intro hr
    rcases hr with ⟨a1, a2, a3, a4⟩ | ⟨a1, a2⟩
    · rw [if_neg (by omega)]
      have hz : sz (t.length + 5 * r.2.1 + r.2.2 + 3) = (jsonText t).length + 1 := by
        have := nCtl_le t; have := nEsc_le t; have := flat_length t
        rw [sz_eq (by have := hk.2.2; simp only [maxObj, szMod] at *; omega)]
        simp only [jsonText, List.length_append, List.length_cons, List.length_nil]
        omega
      rw [hz]
      refine Triple.mallocS (by omega) (fun hr => ?_) (fun h hh => ?_)
      · rw [if_pos rfl]
        exact Triple.pure (Made_fail_sep (Or.inr (Or.inr (Or.inl hr))) (entails_refl _))
      rw [if_neg hh]; hoist
      refine Triple.malloc (fun hr => ?_) (fun s hs _ => ?_)
      · step (store_spec (p := h) ?_)
        rw [if_pos rfl]
        step (free_spec (p := h))
        exact Triple.pure (Made_fail_sep (Or.inr (Or.inr (hr.imp id fun h => ⟨t, rfl, h⟩))) (entails_refl _))
      step (store_spec (p := h) ?_)
      rw [if_neg hs, Fill_start]
      have hjl : (jsonText t).length + 1 = (t.flatMap esc).length + 3 := by simp [jsonText]
      rw [hjl]
      step (fill_spec (p := s) (pre := []) (n := (t.flatMap esc).length + 3) rfl (by omega))
      have wl := writeLoop_spec (rel := rel) (src := psz) (s := s) (t := t) t 0 ([] ++ [34]) ((t.flatMap esc).length + 3 - 1) rfl (by omega)
      rw [show List.length ([] ++ [(34 : UInt8)]) = 1 from rfl] at wl
      step wl
      step (fill_spec (p := s) (pre := [] ++ [34] ++ t.flatMap esc) (n := (t.flatMap esc).length + 3 - 1 - (t.flatMap esc).length) rfl (by omega))
      step (fill_spec (p := s) (pre := [] ++ [34] ++ t.flatMap esc ++ [34]) (n := (t.flatMap esc).length + 3 - 1 - (t.flatMap esc).length - 1) (by simp) (by omega))
      have e0 : (t.flatMap esc).length + 3 - 1 - (t.flatMap esc).length - 1 - 1 = 0 := by omega
      rw [e0, Fill_done]
      refine Triple.pure (Made_ok_sep (jsonText t) hh ⟨t, rfl, a1, rfl⟩ ?_)
      have hnn : NoNul (jsonText t) := by
        unfold jsonText NoNul
        simp only [List.mem_append, List.mem_singleton, List.mem_flatMap, not_or, not_exists, not_and]
        refine ⟨⟨by decide, fun c hc => ?_⟩, by decide⟩
        exact esc_noNul c (by rintro rfl; exact hk.2.1 hc)
      refine entails_trans ?_ (sep_mono (Str_intro' (p := s) hnn) (entails_refl _))
      simp only [jsonText, List.nil_append]
      sep_cancel
    · rw [if_pos (by omega)]
      exact Triple.pure (Made_fail_sep (Or.inr (Or.inl ⟨t, rfl, a1⟩)) (entails_refl _))

/-- C06: for every C string (or NULL) the result is NULL exactly for NULL, a byte ≥ 128 or a refused allocation;
otherwise the text is one JSON string literal (nothing after it) whose value is the input. -/
theorem STRING_new_JSON_spec {psz : CharPtr} {o : Option Text} :
    Triple rel (Arg psz o) (STRING_new_JSON psz)
      (fun r => Made Str (o = none ∨ (∃ t, o = some t ∧ ∃ c ∈ t, c ≥ 128) ∨ ¬ rel ∨ ∃ t, o = some t ∧ maxObj < 6 * t.length + 3)
          (fun u => ∃ t, o = some t ∧ (∀ c ∈ t, c < 128) ∧ JString u (t.map UInt8.toNat) []) r ∗ Arg psz o) := by
  refine STRING_new_JSON_text.conseq (entails_refl _) fun r => sep_mono ?_ (entails_refl _)
  by_cases hr : r = 0
  · subst hr
    rw [Made_zero, Made_zero]
    refine entails_pand_l fun h => entails_pand_r (entails_refl _) ?_
    rcases h with h | ⟨t, h1, h2⟩ | h | ⟨t, h1, h2⟩
    · exact Or.inl h
    · refine Or.inr (Or.inl ⟨t, h1, ?_⟩)
      simpa using h2
    · exact Or.inr (Or.inr (Or.inl h))
    · refine Or.inr (Or.inr (Or.inr ⟨t, h1, ?_⟩))
      have := flat_length t; have := nCtl_le t; have := nEsc_le t
      have e : ∀ t, nCtl t + nEsc t ≤ t.length := by
        intro t; induction t with
        | nil => simp [nCtl, nEsc]
        | cons c t ih =>
          simp only [nCtl, nEsc, List.map_cons, List.sum_cons, List.length_cons] at *
          have : (if isCtl c = true then 1 else 0) + (if isEsc c = true then 1 else 0) ≤ 1 := by
            unfold isCtl isEsc; by_cases h : c ≤ 31 <;> simp [h] <;> split <;> simp
          omega
      have := e t
      simp only [jsonText, List.length_append, List.length_cons, List.length_nil] at h2; omega
  · rw [Made_ne hr, Made_ne hr]
    refine entails_ex_l fun u => entails_pand_l fun ⟨t, h1, h2, h3⟩ => entails_ex_r u (entails_pand_r (entails_refl _) ⟨t, h1, h2, ?_⟩)
    have := jsonText_reads t h2 []
    rw [h3]; simpa using this

/-- Non-vacuity: a concrete call on `a"/\x01`. -/
example : outcome (do
    let h ← STRING_new_JSON (.str [97, 34, 47, 1])
    let p ← STRING_c_str h
    cstr (.ofPtr p)) (St.start bump) = some (.ok ([34, 97, 92, 34, 92, 47, 92, 117, 48, 48, 48, 49, 34])) := by decide +kernel

end Verif.Strings
