import Verif.Pool
import Verif.Reads
import Verif.Crt.Model
import Verif.Crt.Decimal
/-!
# Properties C26, C27: the safe string functions and the number conversions

`Buf dst b` – the caller's buffer: a block with the slots `b`, of which the first `size` are passed as the destination.
-/
set_option linter.unusedSimpArgs false
set_option linter.unusedVariables false
set_option synthInstance.maxSize 4000
namespace Verif.Crt
open Verif
variable {rel : Prop}

abbrev Text := List UInt8

theorem strncpy_spec {dst : Ptr} {off n : Nat} {src : CharPtr} {b : Block} {t : Text} (hb : off + n ≤ b.length) :
    Triple rel (dst ↦ b ∗ CStr src t) (strncpy dst off src n)
      (fun _ => dst ↦ patch b off (bytesV ((t ++ List.replicate n 0).take n)) ∗ CStr src t) := by
  unfold strncpy
  have el : (bytesV ((t ++ List.replicate n 0).take n)).length = n := by simp [bytesV]
  cases src with
  | null => rw [CStr_null]; hoist; exact False.elim
  | lit l =>
    step (cstr_spec (s := .lit l))
    rw [if_neg (by simp)]
    last (storeN_spec' (b := b) (by rw [el]; exact hb))
    exact entails_refl _
  | heap p o =>
    refine Triple.know (φ := dst ≠ p) ?_ fun hne => ?_
    · intro h hp
      unfold CStr at hp
      rw [sep_hex] at hp; obtain ⟨vs, hp⟩ := hp
      rw [sep_pand] at hp
      have := hp.2
      rw [← sep_emp (p ↦ vs)] at this
      exact sep_pts_ne this
    step (cstr_spec (s := .heap p o))
    rw [if_neg (by simpa using Ne.symm hne)]
    last (storeN_spec' (b := b) (by rw [el]; exact hb))
    exact entails_refl _

theorem cstrV_cons {v : Val} {vs : List Val} {d : Text} (h : cstrV (v :: vs) = some d) :
    (v = .byte 0 ∧ d = []) ∨ ∃ c d', c ≠ 0 ∧ v = .byte c ∧ d = c :: d' ∧ cstrV vs = some d' := by
  cases v with
  | byte b =>
    simp only [cstrV] at h
    by_cases hb : b = 0
    · simp [hb] at h; exact Or.inl ⟨by rw [hb], h⟩
    · simp [hb] at h
      obtain ⟨d', h1, rfl⟩ := h
      exact Or.inr ⟨b, d', hb, rfl, rfl, h1⟩
  | _ => simp [cstrV] at h

theorem scan_term {dst : Ptr} {b : Block} : ∀ (fuel i : Nat) (d : Text), cstrV ((b.drop i).take fuel) = some d →
    Triple rel (dst ↦ b) (scanLoop dst fuel i) (fun r => (r = i + d.length) ⋏ dst ↦ b) := by
  intro fuel
  induction fuel with
  | zero => intro i d h; simp [cstrV] at h
  | succ fuel ih =>
    intro i d h
    unfold scanLoop
    cases hd : b.drop i with
    | nil => rw [hd] at h; simp [cstrV] at h
    | cons v vs =>
      have hi : b[i]? = some v := by
        have := congrArg List.head? hd; rwa [List.head?_drop] at this
      have hvs : b.drop (i + 1) = vs := by
        have := congrArg List.tail hd; rwa [List.tail_drop] at this
      rw [hd, List.take_succ_cons] at h
      rcases cstrV_cons h with ⟨rfl, rfl⟩ | ⟨c, d', hc, rfl, rfl, h'⟩
      · step (loadByte_spec hi)
        rw [if_neg (by simp)]
        exact Triple.pure (entails_pand_r (entails_refl _) rfl)
      · step (loadByte_spec hi)
        rw [if_pos hc]
        refine (ih (i + 1) d' (by rw [hvs]; exact h')).conseq (entails_refl _) fun r => ?_
        exact entails_pand_l fun e => entails_pand_r (entails_refl _) (by rw [e]; simp; omega)

theorem scan_unterm {dst : Ptr} {b : Block} : ∀ (l : Text) (i : Nat), NoNul l → bytesV l <+: b.drop i →
    Triple rel (dst ↦ b) (scanLoop dst l.length i) (fun r => (r = i + l.length) ⋏ dst ↦ b) := by
  intro l
  induction l with
  | nil => intro i _ _; exact Triple.pure (entails_pand_r (entails_refl _) rfl)
  | cons c l ih =>
    intro i hn hp
    simp only [NoNul, List.mem_cons, not_or] at hn
    unfold scanLoop
    obtain ⟨w, hw⟩ := hp
    simp only [bytesV, List.map_cons, List.cons_append] at hw
    have hi : b[i]? = some (.byte c) := by
      have := congrArg List.head? hw; rw [List.head?_drop] at this; rw [← this]; rfl
    have hvs : bytesV l <+: b.drop (i + 1) := by
      have := congrArg List.tail hw; rw [List.tail_drop] at this; exact ⟨w, this⟩
    step (loadByte_spec hi)
    rw [if_pos (Ne.symm hn.1)]
    refine (ih (i + 1) hn.2 hvs).conseq (entails_refl _) fun r => ?_
    exact entails_pand_l fun e => entails_pand_r (entails_refl _) (by rw [e]; simp; omega)

/-- Effect on the destination: the block keeps its size, nothing at or beyond `size` is touched. -/
def Within (size : Nat) (b b' : Block) : Prop := b'.length = b.length ∧ b'.drop size = b.drop size

theorem Within.refl {size : Nat} {b : Block} : Within size b b := ⟨rfl, rfl⟩
theorem Within.set {size i : Nat} {b : Block} {v : Val} (h : i < size) : Within size b (b.set i v) := by
  refine ⟨by simp, ?_⟩
  rw [List.drop_set, if_pos h]
theorem Within.trans {size : Nat} {a b c : Block} (h : Within size a b) (h' : Within size b c) : Within size a c :=
  ⟨h'.1.trans h.1, h'.2.trans h.2⟩
theorem Within.patch {size off : Nat} {b : Block} {vs : List Val} (h : off + vs.length ≤ size) (hb : size ≤ b.length) :
    Within size b (patch b off vs) := by
  refine ⟨patch_length (by omega), ?_⟩
  apply List.ext_getElem?
  intro i
  simp only [Verif.patch, List.getElem?_drop]
  rw [List.getElem?_append_right (by simp; omega)]
  simp only [List.getElem?_drop, List.length_append, List.length_take]
  congr 1; omega

theorem cstrV_set0 {b : Block} (h : 0 < b.length) : cstrV (b.set 0 (.byte 0)) = some [] := by
  cases b with
  | nil => simp at h
  | cons v vs => simp [cstrV]

/-- C26: `strcpy_s`, for every destination size from 1 to the size of the buffer (size 0: see
`strcpy_s_size0_writes`).  The result is `EINVAL` iff the source is NULL, `ERANGE` iff it does not fit, and otherwise 0;
on an error the destination is the empty string, on success it is the source; nothing beyond `size` is touched. -/
theorem strcpy_s_spec_partial {dst : Ptr} {size : Nat} {src : CharPtr} {b : Block} {o : Option Text}
    (h0 : 0 < size) (hs : size ≤ b.length) :
    Triple rel (dst ↦ b ∗ Arg src o) (strcpy_s dst size src)
      (fun r => ∃∃ b' : Block, (Within size b b' ∧
        ((o = none ∧ r = EINVAL ∧ cstrV b' = some []) ∨
         (∃ t, o = some t ∧ size < t.length + 1 ∧ r = ERANGE ∧ cstrV b' = some []) ∨
         (∃ t, o = some t ∧ t.length + 1 ≤ size ∧ r = 0 ∧ cstrV b' = some t))) ⋏ dst ↦ b' ∗ Arg src o) := by
  unfold strcpy_s
  refine Triple.know (know_pts (p := dst) (φ := dst ≠ 0) (by pick) fun h _ => h) fun hd => ?_
  rw [if_neg hd]
  cases o with
  | none =>
    simp only [Arg_none]; hoist; rintro rfl
    rw [if_pos rfl]
    step (store_spec ?_)
    refine Triple.pure (entails_ex_r _ (entails_pand_r ?_ ⟨Within.set h0, Or.inl ⟨by simp, rfl, cstrV_set0 (by omega)⟩⟩))
    rw [sep_pand, sep_emp]; exact entails_pand_r (entails_refl _) (by simp)
  | some t =>
    simp only [Arg_some]
    refine Triple.know (know_CStr (s := src) (by pick)) fun hk => ?_
    rw [if_neg hk.1, if_neg (by omega)]
    step strlen_spec
    refine Triple.ite (fun hn => ?_) (fun hn => ?_)
    · step (store_spec (p := dst) ?_)
      refine Triple.pure (entails_ex_r _ (entails_pand_r (by sep_cancel) ⟨Within.set h0, Or.inr (Or.inl ⟨t, rfl, hn, rfl, cstrV_set0 (by omega)⟩)⟩))
    · step (memcpy_cstr (dst := dst) (off := 0) (t := t) (b := b) (n := t.length + 1) (by omega) (by omega))
      rw [List.take_of_length_le (by simp)]
      refine Triple.pure (entails_ex_r _ (entails_pand_r (by sep_cancel) ⟨Within.patch (by simp [bytesV]; omega) hs, Or.inr (Or.inr ⟨t, rfl, by omega, rfl, ?_⟩)⟩))
      rw [patch_zero, bytesV_append, List.append_assoc]
      exact cstrV_bytes hk.2.1 _

/-- C26: a NULL destination is `EINVAL` and nothing is touched. -/
theorem safe_null {src : CharPtr} {size n : Nat} {o : Option Text} :
    Triple rel (Arg src o) (strcpy_s 0 size src) (fun r => (r = EINVAL) ⋏ Arg src o) ∧
    Triple rel (Arg src o) (strcat_s 0 size src) (fun r => (r = EINVAL) ⋏ Arg src o) ∧
    Triple rel (Arg src o) (strncpy_s 0 size src n) (fun r => (r = EINVAL) ⋏ Arg src o) := by
  refine ⟨?_, ?_, ?_⟩
  · unfold strcpy_s; rw [if_pos rfl]; exact Triple.pure (entails_pand_r (entails_refl _) rfl)
  · unfold strcat_s; rw [if_pos rfl]; exact Triple.pure (entails_pand_r (entails_refl _) rfl)
  · unfold strncpy_s; rw [if_pos rfl]; exact Triple.pure (entails_pand_r (entails_refl _) rfl)

/-- C26: `strncpy_s`.  With `N = maxCount` (or, for `_TRUNCATE`, as much as fits) the destination receives the
first `N` characters of the source; results as documented; a size of 0 is rejected without touching the destination. -/
theorem strncpy_s_spec {dst : Ptr} {size maxCount : Nat} {src : CharPtr} {b : Block} {o : Option Text}
    (hs : size ≤ b.length) (h0 : o = none → 0 < size) :
    Triple rel (dst ↦ b ∗ Arg src o) (strncpy_s dst size src maxCount)
      (fun r => ∃∃ b' : Block, (Within size b b' ∧
        ((o = none ∧ r = EINVAL ∧ cstrV b' = some []) ∨
         (∃ t, o = some t ∧ size = 0 ∧ r = EINVAL ∧ b' = b) ∨
         (∃ t, o = some t ∧ 0 < size ∧ maxCount ≠ TRUNCATE ∧ size < min maxCount t.length + 1 ∧ r = ERANGE ∧ cstrV b' = some []) ∨
         (∃ t, o = some t ∧ maxCount ≠ TRUNCATE ∧ min maxCount t.length + 1 ≤ size ∧ r = 0 ∧ cstrV b' = some (t.take maxCount)) ∨
         (∃ t, o = some t ∧ 0 < size ∧ maxCount = TRUNCATE ∧ size < t.length + 1 ∧ r = STRUNCATE ∧ cstrV b' = some (t.take (size - 1))) ∨
         (∃ t, o = some t ∧ maxCount = TRUNCATE ∧ t.length + 1 ≤ size ∧ r = 0 ∧ cstrV b' = some t))) ⋏ dst ↦ b' ∗ Arg src o) := by
  unfold strncpy_s
  refine Triple.know (know_pts (p := dst) (φ := dst ≠ 0) (by pick) fun h _ => h) fun hd => ?_
  rw [if_neg hd]
  cases o with
  | none =>
    have h0 := h0 rfl
    simp only [Arg_none]; hoist; rintro rfl
    rw [if_pos rfl]
    step (store_spec ?_)
    refine Triple.pure (entails_ex_r _ (entails_pand_r ?_ ⟨Within.set h0, Or.inl ⟨by simp, rfl, cstrV_set0 (by omega)⟩⟩))
    rw [sep_pand, sep_emp]; exact entails_pand_r (entails_refl _) (by simp)
  | some t =>
    simp only [Arg_some]
    refine Triple.know (know_CStr (s := src) (by pick)) fun hk => ?_
    rw [if_neg hk.1]
    have key : ∀ n, n ≤ t.length → n + 1 ≤ size →
        Within size b ((patch b 0 (bytesV ((t ++ List.replicate n 0).take n))).set n (.byte 0)) ∧
        cstrV ((patch b 0 (bytesV ((t ++ List.replicate n 0).take n))).set n (.byte 0)) = some (t.take n) := by
      intro n hn hz
      rw [List.take_append_of_le_length hn]
      refine ⟨(Within.patch (by simp [bytesV]; omega) hs).trans (Within.set (by omega)), ?_⟩
      rw [patch_zero]
      have hl : (bytesV (t.take n)).length = n := by simp [bytesV]; omega
      rw [List.set_append_right _ _ (by omega), hl, Nat.sub_self]
      cases hdr : b.drop n with
      | nil => have := congrArg List.length hdr; simp at this; omega
      | cons v vs =>
        simp only [List.set_cons_zero]
        exact cstrV_bytes (fun hh => hk.2.1 (List.mem_of_mem_take hh)) vs
    refine Triple.ite (fun hz => ?_) (fun hz => ?_)
    · exact Triple.pure (entails_ex_r b (entails_pand_r (entails_refl _) ⟨Within.refl, Or.inr (Or.inl ⟨t, rfl, hz, rfl, rfl⟩)⟩))
    step strlen_spec
    refine Triple.ite (fun hT => ?_) (fun hT => ?_)
    · have hmin : (if t.length > maxCount then maxCount else t.length) = min maxCount t.length := by
        split <;> omega
      rw [hmin]
      refine Triple.ite (fun hn => ?_) (fun hn => ?_)
      · step (store_spec (p := dst) ?_)
        refine Triple.pure (entails_ex_r _ (entails_pand_r (by sep_cancel) ⟨Within.set (by omega), Or.inr (Or.inr (Or.inl ⟨t, rfl, by omega, hT, hn, rfl, cstrV_set0 (by omega)⟩))⟩))
      · step (strncpy_spec (dst := dst) (off := 0) (n := min maxCount t.length) (b := b) (t := t) (by omega))
        obtain ⟨k1, k2⟩ := key (min maxCount t.length) (by omega) (by omega)
        step (store_spec (p := dst) (b := patch b 0 (bytesV ((t ++ List.replicate (min maxCount t.length) 0).take (min maxCount t.length)))) (by have := k1.1; rw [List.length_set] at this; omega))
        refine Triple.pure (entails_ex_r _ (entails_pand_r (by sep_cancel) ⟨k1, Or.inr (Or.inr (Or.inr (Or.inl ⟨t, rfl, hT, by omega, rfl, ?_⟩)))⟩))
        rw [k2]; simp [List.take_eq_take_min]
    · have hT : maxCount = TRUNCATE := by omega
      refine Triple.ite (fun hn => ?_) (fun hn => ?_)
      · step (strncpy_spec (dst := dst) (off := 0) (n := size - 1) (b := b) (t := t) (by omega))
        obtain ⟨k1, k2⟩ := key (size - 1) (by omega) (by omega)
        step (store_spec (p := dst) (b := patch b 0 (bytesV ((t ++ List.replicate (size - 1) 0).take (size - 1)))) (by have := k1.1; rw [List.length_set] at this; omega))
        exact Triple.pure (entails_ex_r _ (entails_pand_r (by sep_cancel) ⟨k1, Or.inr (Or.inr (Or.inr (Or.inr (Or.inl ⟨t, rfl, by omega, hT, hn, rfl, k2⟩))))⟩))
      · step (strncpy_spec (dst := dst) (off := 0) (n := t.length) (b := b) (t := t) (by omega))
        obtain ⟨k1, k2⟩ := key t.length (by omega) (by omega)
        step (store_spec (p := dst) (b := patch b 0 (bytesV ((t ++ List.replicate t.length 0).take t.length))) (by have := k1.1; rw [List.length_set] at this; omega))
        refine Triple.pure (entails_ex_r _ (entails_pand_r (by sep_cancel) ⟨k1, Or.inr (Or.inr (Or.inr (Or.inr (Or.inr ⟨t, rfl, hT, by omega, rfl, ?_⟩))))⟩))
        rw [k2]; simp

/-- C26: `strcat_s`, for every size from 1 to the size of the buffer.  `d` is the destination's text; if its first
`size` characters are all nonzero (`none`) it is unterminated: `EINVAL`, unchanged. -/
theorem strcat_s_spec_partial {dst : Ptr} {size : Nat} {src : CharPtr} {b : Block} {o : Option Text} {d : Option Text}
    (h0 : 0 < size) (hs : size ≤ b.length)
    (hd : match d with
      | some d => cstrV (b.take size) = some d
      | none => ∃ l : Text, NoNul l ∧ b.take size = bytesV l) :
    Triple rel (dst ↦ b ∗ Arg src o) (strcat_s dst size src)
      (fun r => ∃∃ b' : Block, (Within size b b' ∧
        ((o = none ∧ r = EINVAL ∧ cstrV b' = some []) ∨
         (o ≠ none ∧ d = none ∧ r = EINVAL ∧ b' = b) ∨
         (∃ t u, o = some t ∧ d = some u ∧ size < u.length + t.length + 1 ∧ r = ERANGE ∧ cstrV b' = some []) ∨
         (∃ t u, o = some t ∧ d = some u ∧ u.length + t.length + 1 ≤ size ∧ r = 0 ∧ cstrV b' = some (u ++ t)))) ⋏ dst ↦ b' ∗ Arg src o) := by
  unfold strcat_s
  refine Triple.know (know_pts (p := dst) (φ := dst ≠ 0) (by pick) fun h _ => h) fun hdst => ?_
  rw [if_neg hdst]
  cases o with
  | none =>
    simp only [Arg_none]; hoist; rintro rfl
    rw [if_pos rfl]
    step (store_spec ?_)
    refine Triple.pure (entails_ex_r _ (entails_pand_r ?_ ⟨Within.set h0, Or.inl ⟨by simp, rfl, cstrV_set0 (by omega)⟩⟩))
    rw [sep_pand, sep_emp]; exact entails_pand_r (entails_refl _) (by simp)
  | some t =>
    simp only [Arg_some]
    refine Triple.know (know_CStr (s := src) (by pick)) fun hk => ?_
    rw [if_neg hk.1, if_neg (by omega)]
    cases d with
    | none =>
      obtain ⟨l, hl1, hl2⟩ := hd
      have hll : l.length = size := by have := congrArg List.length hl2; simp [bytesV] at this; omega
      have := scan_unterm (rel := rel) (dst := dst) (b := b) l 0 hl1 (by rw [List.drop_zero, ← hl2]; exact List.take_prefix _ _)
      rw [hll] at this
      step this
      rw [if_pos (by omega)]
      exact Triple.pure (entails_ex_r b (entails_pand_r (by sep_cancel) ⟨Within.refl, Or.inr (Or.inl ⟨by simp, rfl, rfl, rfl⟩)⟩))
    | some u =>
      simp only at hd
      obtain ⟨hp, hnu⟩ := cstrV_prefix hd
      have hul : u.length < size := by
        have := hp.length_le; simp [bytesV] at this; omega
      step (scan_term (b := b) size 0 u (by simpa using hd))
      rw [Nat.zero_add, if_neg (by omega)]
      step (strncpy_spec (dst := dst) (off := u.length) (n := size - u.length) (b := b) (t := t) (by omega))
      generalize hb1 : patch b u.length (bytesV ((t ++ List.replicate (size - u.length) 0).take (size - u.length))) = b1
      have hbu : b.take u.length = bytesV u := by
        obtain ⟨w, hw⟩ := hp
        have : (b.take size).take u.length = bytesV u := by
          rw [← hw, bytesV_append, List.append_assoc, List.take_left' (by simp [bytesV])]
        rwa [List.take_take, Nat.min_eq_left (by omega)] at this
      have e1 : b1 = bytesV (u ++ (t ++ List.replicate (size - u.length) 0).take (size - u.length)) ++ b.drop size := by
        rw [← hb1, Verif.patch, hbu, bytesV_append]
        congr 2; simp [bytesV]; omega
      have hw1 : Within size b b1 := by rw [← hb1]; exact Within.patch (by simp [bytesV]; omega) hs
      have hlast : b1[size - 1]? = some (.byte (if h : size < u.length + t.length + 1 then t[size - 1 - u.length]'(by omega) else 0)) := by
        rw [e1, List.getElem?_append_left (by simp [bytesV]; omega)]
        simp only [bytesV, List.getElem?_map]
        rw [List.getElem?_append_right (by omega)]
        rw [List.getElem?_take_of_lt (by omega)]
        split
        · rename_i h
          rw [List.getElem?_append_left (by omega), List.getElem?_eq_getElem (by omega)]; rfl
        · rename_i h
          rw [List.getElem?_append_right (by omega), List.getElem?_replicate, if_pos (by omega)]; rfl
      step (loadByte_spec (p := dst) hlast)
      by_cases hfit : size < u.length + t.length + 1
      · have hne : t[size - 1 - u.length]'(by omega) ≠ 0 := fun e => hk.2.1 (e ▸ List.getElem_mem _)
        simp only [dif_pos hfit]
        rw [if_pos hne]
        step (store_spec (p := dst) (b := b1) (by have := hw1.1; omega))
        exact Triple.pure (entails_ex_r _ (entails_pand_r (by sep_cancel) ⟨hw1.trans (Within.set h0), Or.inr (Or.inr (Or.inl ⟨t, u, rfl, rfl, hfit, rfl, cstrV_set0 (by have := hw1.1; omega)⟩))⟩))
      · simp only [dif_neg hfit]
        rw [if_neg (by simp)]
        refine Triple.pure (entails_ex_r _ (entails_pand_r (by sep_cancel) ⟨hw1, Or.inr (Or.inr (Or.inr ⟨t, u, rfl, rfl, by omega, rfl, ?_⟩))⟩))
        have e2 : (t ++ List.replicate (size - u.length) 0).take (size - u.length) = t ++ 0 :: List.replicate (size - u.length - t.length - 1) (0 : UInt8) := by
          rw [List.take_append, List.take_of_length_le (by omega)]
          congr 1
          rw [List.take_replicate, ← List.replicate_succ]; congr 1; omega
        rw [e1, e2, ← List.append_assoc, bytesV_append, List.append_assoc]
        exact cstrV_bytes (by simp [NoNul]; exact ⟨hnu, hk.2.1⟩) _

/-- C26 does not hold for a destination size of 0: `strcpy_s` and `strcat_s` then write `dst[0]`, which lies outside
the zero bytes they were given (here: a zero-sized block). -/
theorem strcpy_s_size0_writes :
    outcome (do let d ← malloc 0; strcpy_s d 0 (.str [])) (St.start bump) = some (.error (.ub "store out of bounds")) ∧
    outcome (do let d ← malloc 0; strcat_s d 0 (.str [])) (St.start bump) = some (.error (.ub "store out of bounds")) := by
  decide +kernel

/-- Non-vacuity of the C26 contracts: a destination "ab" in a 6-byte buffer. -/
example : outcome (do
    let d ← malloc 6
    let r1 ← strcpy_s d 6 (.str [97, 98])
    let r2 ← strcat_s d 6 (.str [99, 100, 101])
    let t ← cstr (.heap d 0)
    let r3 ← strcat_s d 6 (.str [102])
    let r4 ← strncpy_s d 3 (.str [1, 2, 3, 4]) TRUNCATE
    let u ← cstr (.heap d 0)
    let r5 ← strncpy_s d 3 (.str [1, 2, 3, 4]) 3
    pure ((r1, r2, t), (r3, r4, u, r5))) (St.start bump) =
      some (.ok ((0, 0, [97, 98, 99, 100, 101]), (ERANGE, STRUNCATE, [1, 2], ERANGE))) := by decide +kernel

/-- C26: `sprintf_s` never writes beyond `size`, returns the length of the text iff text and NUL fit, and
otherwise returns -1 leaving an empty string (`size ≥ 1`). -/
theorem sprintf_s_spec_partial {dst : Ptr} {size : Nat} {b : Block} {text : Option Text} (h0 : 0 < size) (hs : size ≤ b.length)
    (hn : ∀ t, text = some t → NoNul t) :
    Triple rel (dst ↦ b) (sprintf_s dst size false text)
      (fun r => ∃∃ b' : Block, (Within size b b' ∧
        ((text = none ∧ r = -1 ∧ b' = b) ∨
         (∃ t, text = some t ∧ size < t.length + 1 ∧ r = -1 ∧ cstrV b' = some []) ∨
         (∃ t, text = some t ∧ t.length + 1 ≤ size ∧ r = t.length ∧ cstrV b' = some t))) ⋏ dst ↦ b') := by
  unfold sprintf_s
  refine Triple.know (know_pts (p := dst) (φ := dst ≠ 0) (by pick) fun h _ => h) fun hd => ?_
  rw [if_neg (by simp [hd])]
  cases text with
  | none => exact Triple.pure (entails_ex_r b (entails_pand_r (entails_refl _) ⟨Within.refl, Or.inl ⟨rfl, rfl, rfl⟩⟩))
  | some t =>
    dsimp only
    rw [if_pos (by omega)]
    have hw : Within size b (patch b 0 (bytesV (t.take (size - 1) ++ [0]))) := Within.patch (by simp [bytesV]; omega) hs
    step (storeN_spec' (b := b) (by simp [bytesV]; omega))
    refine Triple.ite (fun hge => ?_) (fun hlt => ?_)
    · step (store_spec (b := patch b 0 (bytesV (t.take (size - 1) ++ [0]))) (by have := hw.1; omega))
      exact Triple.pure (entails_ex_r _ (entails_pand_r (entails_refl _) ⟨hw.trans (Within.set h0),
        Or.inr (Or.inl ⟨t, rfl, by omega, rfl, cstrV_set0 (by have := hw.1; omega)⟩)⟩))
    · refine Triple.pure (entails_ex_r _ (entails_pand_r (entails_refl _) ⟨hw, Or.inr (Or.inr ⟨t, rfl, by omega, rfl, ?_⟩)⟩))
      rw [List.take_of_length_le (by omega), patch_zero, bytesV_append, List.append_assoc]
      exact cstrV_bytes (hn t rfl) _

/-! ## mallocAndStrcpy_s -/

theorem mallocAndStrcpy_reads {src : CharPtr} {t : Text} {C : HProp} (R : Reads C src t) :
    Triple rel (C) (mallocAndStrcpy src)
      (fun r => if r.2 = 0 then ((r.1 = ENOMEM ∧ ¬ rel) ⋏ C) else ((r.1 = 0) ⋏ r.2 ↦ bytesV (t ++ [0]) ∗ C)) := by
  unfold mallocAndStrcpy
  refine Triple.know (R.know (by pick)) fun hk => ?_
  rw [if_neg hk.1]
  step R.strlen
  refine Triple.malloc (fun hr => ?_) (fun d hd hm => ?_)
  · rw [if_pos rfl]
    refine Triple.pure ?_
    rw [if_pos rfl]
    exact entails_pand_r (entails_refl _) ⟨rfl, hr.resolve_right (by omega)⟩
  · rw [if_neg hd]
    unfold strcpy_s
    rw [if_neg hd, if_neg hk.1, if_neg (by omega)]
    simp only [bind_assoc]
    step R.strlen
    rw [if_neg (by omega)]
    simp only [bind_assoc]
    step (R.memcpy (dst := d) (off := 0) (b := List.replicate (t.length + 1) .undef) (n := t.length + 1) (by omega) (by simp))
    refine Triple.bind_pure ?_
    rw [if_neg (by omega)]
    refine Triple.pure ?_
    rw [if_neg hd, List.take_of_length_le (by simp), patch_full (by simp [bytesV])]
    exact entails_pand_r (by sep_cancel) rfl

/-- `mallocAndStrcpy_s`, reading from any memory, into a slot: a fresh exact copy, or `ENOMEM` with NULL stored. -/
theorem mallocAndStrcpy_s_reads {p : Ptr} {off : Nat} {b : Block} {src : CharPtr} {t : Text} {C : HProp} (R : Reads C src t) (h : off < b.length) :
    Triple rel (p ↦ b ∗ C) (mallocAndStrcpy_s p off src)
      (fun r => ∃∃ q : Nat, (if q = 0 then ((r = ENOMEM ∧ ¬ rel) ⋏ emp) else ((r = 0) ⋏ q ↦ bytesV (t ++ [0]))) ∗ p ↦ b.set off (.ptr q) ∗ C) := by
  unfold mallocAndStrcpy_s
  refine Triple.know (R.know (by pick)) fun hk => ?_
  rw [if_neg hk.1]
  step (mallocAndStrcpy_reads R) into r
  by_cases hr : r.2 = 0
  · rw [if_pos hr, hr]; hoist; intro h1 h2
    step (store_spec (p := p) ?_)
    refine Triple.pure (entails_ex_r 0 ?_)
    rw [if_pos rfl, pand_sep, emp_sep]; exact entails_pand_r (entails_refl _) ⟨h1, h2⟩
  · rw [if_neg hr]; hoist; intro h1
    step (store_spec (p := p) ?_)
    refine Triple.pure (entails_ex_r r.2 ?_)
    rw [if_neg hr, pand_sep]; exact entails_pand_r (by sep_cancel) h1

theorem mallocAndStrcpy_spec {src : CharPtr} {t : Text} :
    Triple rel (CStr src t) (mallocAndStrcpy src)
      (fun r => if r.2 = 0 then ((r.1 = ENOMEM ∧ ¬ rel) ⋏ CStr src t) else ((r.1 = 0) ⋏ r.2 ↦ bytesV (t ++ [0]) ∗ CStr src t)) :=
  mallocAndStrcpy_reads CStr_reads

/-- `mallocAndStrcpy_s` into a slot: a fresh exact copy, or `ENOMEM` with NULL stored. -/
theorem mallocAndStrcpy_s_spec {p : Ptr} {off : Nat} {b : Block} {src : CharPtr} {t : Text} (h : off < b.length) :
    Triple rel (p ↦ b ∗ CStr src t) (mallocAndStrcpy_s p off src)
      (fun r => ∃∃ q : Nat, (if q = 0 then ((r = ENOMEM ∧ ¬ rel) ⋏ emp) else ((r = 0) ⋏ q ↦ bytesV (t ++ [0]))) ∗ p ↦ b.set off (.ptr q) ∗ CStr src t) :=
  mallocAndStrcpy_s_reads CStr_reads h

/-! ## Number conversion -/

theorem patch_cons {b : Block} {pos : Nat} {c : Val} {cs : List Val} (h : pos < b.length) :
    patch b pos (c :: cs) = patch (b.set pos c) (pos + 1) cs := by
  unfold patch
  have h1 : (b.set pos c).take (pos + 1) = b.take pos ++ [c] := by
    rw [List.set_eq_take_append_cons_drop, if_pos h, List.take_append]
    simp
    rw [show pos + 1 - min pos b.length = 1 by omega, List.take_take, Nat.min_eq_right (by omega)]; simp
  have h2 : (b.set pos c).drop (pos + 1 + cs.length) = b.drop (pos + (c :: cs).length) := by
    rw [List.drop_set_of_lt (by omega)]; simp; congr 1; omega
  rw [h1, h2]; simp

theorem digit_byte (v : Nat) : (48 : UInt8) + UInt8.ofNat (v % 10) = UInt8.ofNat (48 + v % 10) := by
  apply UInt8.toNat_inj.1; simp [UInt8.toNat_add, UInt8.toNat_ofNat']

theorem digitLoop_spec {dst : Ptr} {size : Nat} : ∀ (fuel value pos : Nat) (b : Block), pos + 1 < size → size ≤ b.length →
    size ≤ fuel + pos + 1 →
    Triple rel (dst ↦ b) (digitLoop dst size fuel value pos)
      (fun r => ∃∃ b' : Block, (Within size b b' ∧
        ((pos + (revDigits value).length + 1 ≤ size ∧ r = (0, pos + (revDigits value).length) ∧ b' = patch b pos (bytesV (revDigits value))) ∨
         (size < pos + (revDigits value).length + 1 ∧ r.1 ≠ 0))) ⋏ dst ↦ b') := by
  intro fuel
  induction fuel with
  | zero => intro v pos b h1 h2 h3; omega
  | succ fuel ih =>
    intro v pos b h1 h2 h3
    unfold digitLoop
    step (store_spec (p := dst) ?_)
    rw [digit_byte]
    refine Triple.ite (fun hc => ?_) (fun hc => ?_)
    · refine (ih (v / 10) (pos + 1) (b.set pos (.byte (UInt8.ofNat (48 + v % 10)))) (by omega) (by simpa using h2) (by omega)).conseq
        (entails_refl _) fun r => ?_
      have hlen : (revDigits v).length = (revDigits (v / 10)).length + 1 := by rw [revDigits_ge (by omega)]; simp
      refine entails_ex_l fun b' => entails_pand_l fun hb => entails_ex_r b' (entails_pand_r (entails_refl _) ⟨(Within.set (by omega)).trans hb.1, ?_⟩)
      rcases hb.2 with ⟨k1, k2, k3⟩ | ⟨k1, k2⟩
      · refine Or.inl ⟨by omega, by rw [k2, hlen]; congr 1; omega, ?_⟩
        rw [revDigits_ge (by omega), k3]
        simp only [bytesV, List.map_cons]
        rw [patch_cons (by omega)]
      · exact Or.inr ⟨by omega, k2⟩
    · refine Triple.pure (entails_ex_r _ (entails_pand_r (entails_refl _) ⟨Within.set (by omega), ?_⟩))
      by_cases hv : v < 10
      · left
        rw [revDigits_lt hv]
        refine ⟨by simp; omega, by simp; omega, ?_⟩
        simp only [bytesV, List.map_cons, List.map_nil]
        rw [patch_cons (by omega)]; simp [Verif.patch]
      · right
        have hlen : (revDigits v).length = (revDigits (v / 10)).length + 1 := by rw [revDigits_ge (by omega)]; simp
        have : 0 < (revDigits (v / 10)).length := by rw [revDigits]; simp
        simp only []
        omega

theorem reverseLoop_spec {dst : Ptr} {rest : Block} {pos : Nat} : ∀ (fuel w : Nat) (a m z : Text), a.length = w → z.length = w →
    pos = a.length + m.length + z.length → (m.length = 2 * fuel ∨ m.length + 1 = 2 * fuel) →
    Triple rel (dst ↦ (bytesV (a ++ m ++ z) ++ rest)) (reverseLoop dst pos fuel w)
      (fun _ => dst ↦ (bytesV (a ++ m.reverse ++ z) ++ rest)) := by
  intro fuel
  induction fuel with
  | zero =>
    intro w a m z _ _ _ h
    have : m = [] := List.eq_nil_of_length_eq_zero (by omega)
    subst this
    exact Triple.pure (entails_refl _)
  | succ fuel ih =>
    intro w a m z ha hz hp h
    unfold reverseLoop
    rcases snoc_cases m with rfl | ⟨m1, y, rfl⟩
    · simp at h; omega
    cases m1 with
    | nil =>
      have hi : (bytesV (a ++ ([] ++ [y]) ++ z) ++ rest)[w]? = some (.byte y) := by
        rw [List.getElem?_append_left (by simp [bytesV]; omega)]; simp [bytesV, ← ha]
      have e : pos - 1 - w = w := by simp at hp; omega
      rw [e]
      have hf : fuel = 0 := by simp at h; omega
      step (loadByte_spec (p := dst) hi)
      step (loadByte_spec (p := dst) hi)
      have hs : ((bytesV (a ++ ([] ++ [y]) ++ z) ++ rest).set w (Val.byte y)) = bytesV (a ++ ([] ++ [y]) ++ z) ++ rest := set_self hi
      step (store_spec (p := dst) (b := bytesV (a ++ ([] ++ [y]) ++ z) ++ rest) (by simp [bytesV]; omega))
      rw [hs]
      step (store_spec (p := dst) (b := bytesV (a ++ ([] ++ [y]) ++ z) ++ rest) (by simp [bytesV]; omega))
      rw [hs, hf]
      exact Triple.pure (by simp; exact entails_refl _)
    | cons x m' =>
      have hpos : pos - 1 - w = a.length + m'.length + 1 := by simp at hp; omega
      rw [hpos]
      have hi : (bytesV (a ++ (x :: m' ++ [y]) ++ z) ++ rest)[w]? = some (.byte x) := by
        rw [List.getElem?_append_left (by simp [bytesV]; omega)]; simp [bytesV, ← ha]
      have hj : (bytesV (a ++ (x :: m' ++ [y]) ++ z) ++ rest)[a.length + m'.length + 1]? = some (.byte y) := by
        rw [List.getElem?_append_left (by simp [bytesV]; omega)]
        have : a ++ (x :: m' ++ [y]) ++ z = (a ++ x :: m') ++ y :: z := by simp
        rw [this, show a.length + m'.length + 1 = (a ++ x :: m').length by simp; omega]
        simp [bytesV]
      step (loadByte_spec (p := dst) hi)
      step (loadByte_spec (p := dst) hj)
      have e1 : (bytesV (a ++ (x :: m' ++ [y]) ++ z) ++ rest).set w (.byte y) = bytesV (a ++ (y :: m' ++ [y]) ++ z) ++ rest := by
        rw [List.set_append_left _ _ (by simp [bytesV]; omega)]
        congr 1
        simp only [bytesV, ← List.map_set]
        rw [show a ++ (x :: m' ++ [y]) ++ z = a ++ x :: (m' ++ [y] ++ z) by simp, List.set_append_right _ _ (by omega)]
        simp [← ha]
      have e2 : (bytesV (a ++ (y :: m' ++ [y]) ++ z) ++ rest).set (a.length + m'.length + 1) (.byte x) = bytesV ((a ++ [y]) ++ m' ++ (x :: z)) ++ rest := by
        rw [List.set_append_left _ _ (by simp [bytesV]; omega)]
        congr 1
        simp only [bytesV, ← List.map_set]
        rw [show a ++ (y :: m' ++ [y]) ++ z = (a ++ y :: m') ++ y :: z by simp, List.set_append_right _ _ (by simp; omega)]
        rw [show a.length + m'.length + 1 - (a ++ y :: m').length = 0 by simp; omega]
        simp
      step (store_spec (p := dst) (b := bytesV (a ++ (x :: m' ++ [y]) ++ z) ++ rest) (by simp [bytesV]; omega))
      rw [e1]
      step (store_spec (p := dst) (b := bytesV (a ++ (y :: m' ++ [y]) ++ z) ++ rest) (by simp [bytesV]; omega))
      rw [e2]
      refine (ih (w + 1) (a ++ [y]) m' (x :: z) (by simp [ha]) (by simp [hz]) (by simp at hp ⊢; omega) (by simp at h; omega)).conseq (entails_refl _) fun _ => entails_of_eq ?_
      simp

theorem toString_spec {l1 l2 : Nat} (hl1 : l1 ≠ 0) (hl2 : l2 ≠ 0) {dst : Ptr} {size value : Nat} {b : Block} (hs : size ≤ b.length) :
    Triple rel (dst ↦ b) (toString_ l1 l2 dst size value)
      (fun r => ∃∃ b' : Block, (Within size b b' ∧ ∀ ds, IsDecimal value ds →
        ((ds.length + 1 ≤ size ∧ r = 0 ∧ cstrV b' = some ds) ∨ (size < ds.length + 1 ∧ r ≠ 0))) ⋏ dst ↦ b') := by
  unfold toString_
  refine Triple.know (know_pts (p := dst) (φ := dst ≠ 0) (by pick) fun h _ => h) fun hd => ?_
  have hu : ∀ ds, IsDecimal value ds → ds = decimal value := fun ds h => h.unique
  have hne : 0 < (decimal value).length := List.length_pos_iff.2 (decimal_is value).1
  have hrl : (revDigits value).length = (decimal value).length := by simp [decimal]
  refine Triple.ite (fun h => ?_) (fun h => ?_)
  · refine Triple.pure (entails_ex_r b (entails_pand_r (entails_refl _) ⟨Within.refl, fun ds hds => Or.inr ⟨?_, hl1⟩⟩))
    rw [hu ds hds]; omega
  step (digitLoop_spec size value 0 b (by omega) hs (by omega)) into r
  intro b' hw hb
  rcases hb with ⟨k1, k2, k3⟩ | ⟨k1, k2⟩
  · subst k2
    rw [if_pos rfl]
    simp only [Nat.zero_add] at *
    have e : b' = bytesV (revDigits value) ++ b.drop (revDigits value).length := by rw [k3, patch_zero, bytesV_length]
    cases hdr : b.drop (revDigits value).length with
    | nil => have := congrArg List.length hdr; simp at this; omega
    | cons v vs =>
    have e1 : b'.set (revDigits value).length (.byte 0) = bytesV ([] ++ revDigits value ++ []) ++ (.byte 0 :: vs) := by
      rw [e, hdr, List.set_append_right _ _ (by simp [bytesV])]; simp [bytesV]
    have hw2 : Within size b (bytesV (decimal value) ++ (.byte 0 :: vs)) := by
      have h1 : Within size b (b'.set (revDigits value).length (.byte 0)) := hw.trans (Within.set (by omega))
      rw [e1] at h1
      refine ⟨by rw [← h1.1]; simp [bytesV, hrl], ?_⟩
      rw [← h1.2, List.drop_append, List.drop_append, List.drop_of_length_le (l := bytesV (decimal value)) (by simp only [bytesV_length]; omega), List.drop_of_length_le (l := bytesV ([] ++ revDigits value ++ [])) (by simp only [bytesV_length]; simp; omega)]
      simp only [bytesV_length, List.append_nil, List.nil_append, hrl]
    step (store_spec (p := dst) (b := b') (by rw [hw.1]; omega))
    rw [e1]
    step (reverseLoop_spec (dst := dst) (rest := Val.byte 0 :: vs) (pos := (revDigits value).length) (((revDigits value).length - 1) / 2 + 1) 0 [] (revDigits value) [] rfl rfl (by simp) (by omega))
    refine Triple.pure (entails_ex_r (bytesV (decimal value) ++ (.byte 0 :: vs)) (entails_pand_r (entails_of_eq (by simp [decimal])) ⟨hw2, fun ds hds => Or.inl ⟨?_, rfl, ?_⟩⟩))
    · rw [hu ds hds]; omega
    · rw [hu ds hds]; exact cstrV_bytes (decimal_noNul value) vs
  · rw [if_neg k2]
    refine Triple.pure (entails_ex_r b' (entails_pand_r (entails_refl _) ⟨hw, fun ds hds => Or.inr ⟨?_, hl2⟩⟩))
    rw [hu ds hds]; omega

/-- C27: `unsignedIntToString` returns 0 iff the canonical decimal text and its NUL fit, and then the destination holds exactly
that text; it writes only inside the destination. -/
theorem unsignedIntToString_spec {dst : Ptr} {size : Nat} {value : UInt32} {b : Block} (hs : size ≤ b.length) :
    Triple rel (dst ↦ b) (unsignedIntToString dst size value)
      (fun r => ∃∃ b' : Block, (Within size b b' ∧ ∀ ds, IsDecimal value.toNat ds →
        ((ds.length + 1 ≤ size ∧ r = 0 ∧ cstrV b' = some ds) ∨ (size < ds.length + 1 ∧ r ≠ 0))) ⋏ dst ↦ b') :=
  toString_spec (by omega) (by omega) hs

/-- C27 for `size_tToString`. -/
theorem size_tToString_spec {dst : Ptr} {size : Nat} {value : UInt64} {b : Block} (hs : size ≤ b.length) :
    Triple rel (dst ↦ b) (size_tToString dst size value)
      (fun r => ∃∃ b' : Block, (Within size b b' ∧ ∀ ds, IsDecimal value.toNat ds →
        ((ds.length + 1 ≤ size ∧ r = 0 ∧ cstrV b' = some ds) ∨ (size < ds.length + 1 ∧ r ≠ 0))) ⋏ dst ↦ b') :=
  toString_spec (by omega) (by omega) hs

/-- C27: a NULL destination is refused. -/
theorem toString_null {size : Nat} {v : UInt32} {w : UInt64} :
    Triple rel emp (unsignedIntToString 0 size v) (fun r => (r ≠ 0) ⋏ emp) ∧
    Triple rel emp (size_tToString 0 size w) (fun r => (r ≠ 0) ⋏ emp) := by
  constructor
  · unfold unsignedIntToString toString_; rw [if_pos (Or.inl rfl)]; exact Triple.pure (entails_pand_r (entails_refl _) (by omega))
  · unfold size_tToString toString_; rw [if_pos (Or.inl rfl)]; exact Triple.pure (entails_pand_r (entails_refl _) (by omega))

/-- C27: 21 bytes always suffice for a `size_t` (11 for an `unsigned int`). -/
theorem size_tToString_21 {dst : Ptr} {value : UInt64} {b : Block} (hs : 21 ≤ b.length) :
    Triple rel (dst ↦ b) (size_tToString dst 21 value)
      (fun r => ∃∃ b' : Block, (r = 0 ∧ ∃ ds, IsDecimal value.toNat ds ∧ cstrV b' = some ds) ⋏ dst ↦ b') := by
  refine (size_tToString_spec hs).conseq (entails_refl _) fun r => entails_ex_l fun b' => entails_pand_l fun h => entails_ex_r b' (entails_pand_r (entails_refl _) ?_)
  have hd := decimal_is value.toNat
  have hl := decimal_length_64 value.toNat (by have := value.toNat_lt; omega)
  rcases h.2 _ hd with ⟨_, h1, h2⟩ | ⟨h1, _⟩
  · exact ⟨h1, _, hd, h2⟩
  · omega

example : outcome (do
    let d ← malloc 6
    let r1 ← size_tToString d 6 12345
    let t ← cstr (.heap d 0)
    let r2 ← size_tToString d 6 123456
    let r3 ← unsignedIntToString d 2 0
    let u ← cstr (.heap d 0)
    pure (r1, t, r2, r3, u)) (St.start bump) = some (.ok (0, [49, 50, 51, 52, 53], 389, 0, [48])) := by decide +kernel

end Verif.Crt
