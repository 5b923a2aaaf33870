import Verif.Base64.Model
import Verif.Base64.Spec
import Verif.Strings.Props
import Verif.Buffer.Props
import Verif.Strings.Json
import Verif.Tac
/-!
# Properties of the base64 functions (C20, C21, C22)
-/
namespace Verif.Base64
open Verif Verif.Strings Verif.Buffer

variable {rel : Prop}

theorem charAt_data {s : CharPtr} {bs : List UInt8} {i : Nat} {c : UInt8} (hc : bs[i]? = some c) :
    Triple rel (Data s bs) (charAt s i) (fun r => (r = c) ⋏ Data s bs) := by
  have key : ∀ vs : List Val, bytesV bs <+: vs → vs[i]? = some (.byte c) := by
    rintro vs ⟨w, rfl⟩
    have hi : i < bs.length := by
      rcases Nat.lt_or_ge i bs.length with h | h
      · exact h
      · rw [List.getElem?_eq_none h] at hc; simp at hc
    rw [List.getElem?_append_left (by simpa [bytesV] using hi)]
    simp only [bytesV, List.getElem?_map, hc]; rfl
  cases s with
  | null =>
    unfold Data; hoist; intro h; subst h; simp at hc
  | lit l =>
    unfold Data
    hoist
    intro h1 h2
    unfold charAt storage
    refine Triple.bind_pure ?_
    rw [key _ (by obtain ⟨w, rfl⟩ := h1; rw [bytesV_append]; exact List.prefix_append _ _)]
    exact Triple.pure (entails_pand_r (entails_pand_r (entails_refl _) ⟨h1, h2⟩) rfl)
  | heap p off =>
    unfold Data
    hoist
    intro vs h1 h2
    unfold charAt
    step (storage_pts h1)
    rw [key _ h2]
    exact Triple.pure (entails_pand_r (entails_ex_r vs (entails_pand_r (entails_refl _) ⟨h1, h2⟩)) rfl)

/-! ## tables and bits -/

theorem tab64 {i : UInt8} (h : i.toNat < 64) : tab base64char i = pure (alphabet i.toNat) := by
  have key : ∀ x : Fin 64, base64char[x.val]? = some (alphabet x.val) := by decide
  unfold tab
  rw [key ⟨_, h⟩]
theorem tab16 {i : UInt8} (h : i.toNat < 16) : tab base64b16 i = pure (alphabet (i.toNat * 4)) := by
  have key : ∀ x : Fin 16, base64b16[x.val]? = some (alphabet (x.val * 4)) := by decide
  unfold tab
  rw [key ⟨_, h⟩]
theorem tab8 {i : UInt8} (h : i.toNat < 4) : tab base64b8 i = pure (alphabet (i.toNat * 16)) := by
  have key : ∀ x : Fin 4, base64b8[x.val]? = some (alphabet (x.val * 16)) := by decide
  unfold tab
  rw [key ⟨_, h⟩]

theorem shr2 : ∀ c : UInt8, (c >>> 2).toNat = c.toNat / 4 := u8_all (by decide +kernel)
theorem shr4 : ∀ c : UInt8, (c >>> 4).toNat = c.toNat / 16 := u8_all (by decide +kernel)
theorem shr6 : ∀ c : UInt8, ((c >>> 6) &&& 3).toNat = c.toNat / 64 := u8_all (by decide +kernel)
theorem and3 : ∀ c : UInt8, (c &&& 3).toNat = c.toNat % 4 := u8_all (by decide +kernel)
theorem and15 : ∀ c : UInt8, (c &&& 0x0F).toNat = c.toNat % 16 := u8_all (by decide +kernel)
theorem and63 : ∀ c : UInt8, (c &&& 0x3F).toNat = c.toNat % 64 := u8_all (by decide +kernel)

theorem u8_fin {n : Nat} {c : UInt8} (h : c.toNat < n) : ∃ x : Fin n, c = UInt8.ofNat x.val :=
  ⟨⟨_, h⟩, by simp⟩

theorem join4 {x y : UInt8} (hx : x.toNat < 16) (hy : y.toNat < 16) : ((x <<< 4) ||| y).toNat = x.toNat * 16 + y.toNat := by
  obtain ⟨a, rfl⟩ := u8_fin hx
  obtain ⟨b, rfl⟩ := u8_fin hy
  have key : ∀ a b : Fin 16, (((UInt8.ofNat a.val) <<< 4) ||| UInt8.ofNat b.val).toNat = (UInt8.ofNat a.val).toNat * 16 + (UInt8.ofNat b.val).toNat := by
    decide +kernel
  exact key a b
theorem join2 {x y : UInt8} (hx : x.toNat < 64) (hy : y.toNat < 4) : ((x <<< 2) ||| y).toNat = x.toNat * 4 + y.toNat := by
  obtain ⟨a, rfl⟩ := u8_fin hx
  obtain ⟨b, rfl⟩ := u8_fin hy
  have key : ∀ (a : Fin 64) (b : Fin 4), (((UInt8.ofNat a.val) <<< 2) ||| UInt8.ofNat b.val).toNat = (UInt8.ofNat a.val).toNat * 4 + (UInt8.ofNat b.val).toNat := by
    decide +kernel
  exact key a b
theorem join6 {x y : UInt8} (hx : x.toNat < 4) (hy : y.toNat < 64) : ((x <<< 6) ||| y).toNat = x.toNat * 64 + y.toNat := by
  obtain ⟨a, rfl⟩ := u8_fin hx
  obtain ⟨b, rfl⟩ := u8_fin hy
  have key : ∀ (a : Fin 4) (b : Fin 64), (((UInt8.ofNat a.val) <<< 6) ||| UInt8.ofNat b.val).toNat = (UInt8.ofNat a.val).toNat * 64 + (UInt8.ofNat b.val).toNat := by
    decide +kernel
  exact key a b

theorem tabE {t : List UInt8} {i c : UInt8} (h : tab t i = pure c) {P : HProp} {k : UInt8 → M β} {Q : β → HProp}
    (hk : Triple rel P (k c) Q) : Triple rel P (tab t i >>= k) Q := by
  rw [h]; exact Triple.bind_pure hk

/-! ## encoding -/

theorem d1 (a : UInt8) (n i : Nat) (h : a.toNat / 4 = n / 64 ^ i % 64) : tab base64char (a >>> 2) = pure (digit n i) := by
  have := a.toNat_lt
  rw [tab64 (by rw [shr2]; omega), shr2, h]; rfl
theorem d2 (a b : UInt8) (n i : Nat) (h : a.toNat % 4 * 16 + b.toNat / 16 = n / 64 ^ i % 64) :
    tab base64char (((a &&& 3) <<< 4) ||| (b >>> 4)) = pure (digit n i) := by
  have := a.toNat_lt; have := b.toNat_lt
  have e : (((a &&& 3) <<< 4) ||| (b >>> 4)).toNat = a.toNat % 4 * 16 + b.toNat / 16 := by
    rw [join4 (by rw [and3]; omega) (by rw [shr4]; omega), and3, shr4]
  rw [tab64 (by rw [e]; omega), e, h]; rfl
theorem d3 (a b : UInt8) (n i : Nat) (h : a.toNat % 16 * 4 + b.toNat / 64 = n / 64 ^ i % 64) :
    tab base64char (((a &&& 0x0F) <<< 2) ||| ((b >>> 6) &&& 3)) = pure (digit n i) := by
  have := a.toNat_lt; have := b.toNat_lt
  have e : (((a &&& 0x0F) <<< 2) ||| ((b >>> 6) &&& 3)).toNat = a.toNat % 16 * 4 + b.toNat / 64 := by
    rw [join2 (by rw [and15]; omega) (by rw [shr6]; omega), and15, shr6]
  rw [tab64 (by rw [e]; omega), e, h]; rfl
theorem d4 (a : UInt8) (n i : Nat) (h : a.toNat % 64 = n / 64 ^ i % 64) : tab base64char (a &&& 0x3F) = pure (digit n i) := by
  rw [tab64 (by rw [and63]; omega), and63, h]; rfl
theorem d3' (a : UInt8) (n i : Nat) (h : a.toNat % 16 * 4 = n / 64 ^ i % 64) : tab base64b16 (a &&& 0x0F) = pure (digit n i) := by
  rw [tab16 (by rw [and15]; omega), and15, h]; rfl
theorem d2' (a : UInt8) (n i : Nat) (h : a.toNat % 4 * 16 = n / 64 ^ i % 64) : tab base64b8 (a &&& 3) = pure (digit n i) := by
  rw [tab8 (by rw [and3]; omega), and3, h]; rfl

/-- `source` reads as `bs` in the states described by `D` -/
def Reads (rel : Prop) (D : HProp) (source : CharPtr) (bs : List UInt8) : Prop :=
  ∀ (i : Nat) (c : UInt8), bs[i]? = some c → Triple rel D (charAt source i) (fun r => (r = c) ⋏ D)

/-- the encoding loop appends exactly the RFC text and a NUL -/
theorem encodeLoop_spec {encoded : Ptr} {source : CharPtr} {D : HProp} : ∀ (u w pre : List UInt8) (_ : Reads rel D source (w ++ u)),
    Triple rel (D ∗ Fill encoded pre ((rfc4648 u).length + 1))
      (encodeLoop encoded source u.length w.length pre.length)
      (fun _ => D ∗ Fill encoded (pre ++ rfc4648 u ++ [0]) 0)
  | a :: b :: c :: rest, w, pre, hD => by
    have ha := a.toNat_lt; have hb := b.toNat_lt; have hc := c.toNat_lt
    have ih := encodeLoop_spec (encoded := encoded) (source := source) (D := D) rest (w ++ [a, b, c])
    simp only [List.append_assoc, List.cons_append, List.nil_append] at ih
    obtain ⟨n, hn⟩ : ∃ n, n = a.toNat * 65536 + b.toNat * 256 + c.toNat := ⟨_, rfl⟩
    have er : rfc4648 (a :: b :: c :: rest) = digit n 3 :: digit n 2 :: digit n 1 :: digit n 0 :: rfc4648 rest := by
      simp only [rfc4648, List.cons_append, List.nil_append, hn]
    rw [er]
    show Triple rel _ (encodeLoop encoded source (rest.length + 3) _ _) _
    unfold encodeLoop
    stepd (hD _ a ?_)
    refine tabE (d1 a n 3 (by simp only [Nat.reducePow]; omega)) ?_
    stepd (hD _ b ?_)
    refine tabE (d2 a b n 2 (by simp only [Nat.reducePow]; omega)) ?_
    stepd (hD _ c ?_)
    refine tabE (d3 b c n 1 (by simp only [Nat.pow_one]; omega)) ?_
    refine tabE (d4 c n 0 (by simp only [Nat.pow_zero, Nat.div_one]; omega)) ?_
    stepd (fill_spec (b := digit n 3) ?_ ?_)
    stepd (fill_spec (b := digit n 2) ?_ ?_)
    stepd (fill_spec (b := digit n 1) ?_ ?_)
    stepd (fill_spec (b := digit n 0) ?_ ?_)
    have e1 : w.length + 3 = (w ++ [a, b, c]).length := by simp
    have e2 : pre.length + 4 = (pre ++ [digit n 3] ++ [digit n 2] ++ [digit n 1] ++ [digit n 0]).length := by simp
    rw [e1, e2]
    have e3 : (digit n 3 :: digit n 2 :: digit n 1 :: digit n 0 :: rfc4648 rest).length + 1 - 1 - 1 - 1 - 1 = (rfc4648 rest).length + 1 := by
      simp
    rw [e3]
    last (ih (pre ++ [digit n 3] ++ [digit n 2] ++ [digit n 1] ++ [digit n 0]) hD)
    simp only [sep_emp, List.append_assoc, List.cons_append, List.nil_append]
    sep_cancel
  | [a, b], w, pre, hD => by
    have ha := a.toNat_lt; have hb := b.toNat_lt
    obtain ⟨n, hn⟩ : ∃ n, n = (a.toNat * 256 + b.toNat) * 4 := ⟨_, rfl⟩
    have er : rfc4648 [a, b] = [digit n 2, digit n 1, digit n 0, pad] := by simp only [rfc4648, hn]
    rw [er]
    show Triple rel _ (encodeLoop encoded source 2 _ _) _
    unfold encodeLoop
    stepd (hD _ a ?_)
    refine tabE (d1 a n 2 (by simp only [Nat.reducePow]; omega)) ?_
    stepd (hD _ b ?_)
    refine tabE (d2 a b n 1 (by simp only [Nat.pow_one]; omega)) ?_
    refine tabE (d3' b n 0 (by simp only [Nat.pow_zero, Nat.div_one]; omega)) ?_
    stepd (fill_spec (b := digit n 2) ?_ ?_)
    stepd (fill_spec (b := digit n 1) ?_ ?_)
    stepd (fill_spec (b := digit n 0) ?_ ?_)
    stepd (fill_spec (b := 61) ?_ ?_)
    lastd (fill_spec (b := 0) ?_ ?_)
    simp only [List.append_assoc, List.cons_append, List.nil_append]
    sep_cancel
  | [a], w, pre, hD => by
    have ha := a.toNat_lt
    obtain ⟨n, hn⟩ : ∃ n, n = a.toNat * 16 := ⟨_, rfl⟩
    have er : rfc4648 [a] = [digit n 1, digit n 0, pad, pad] := by simp only [rfc4648, hn]
    rw [er]
    show Triple rel _ (encodeLoop encoded source 1 _ _) _
    unfold encodeLoop
    stepd (hD _ a ?_)
    refine tabE (d1 a n 1 (by simp only [Nat.pow_one]; omega)) ?_
    refine tabE (d2' a n 0 (by simp only [Nat.pow_zero, Nat.div_one]; omega)) ?_
    stepd (fill_spec (b := digit n 1) ?_ ?_)
    stepd (fill_spec (b := digit n 0) ?_ ?_)
    stepd (fill_spec (b := 61) ?_ ?_)
    stepd (fill_spec (b := 61) ?_ ?_)
    lastd (fill_spec (b := 0) ?_ ?_)
    simp only [List.append_assoc, List.cons_append, List.nil_append]
    sep_cancel
  | [], w, pre, hD => by
    show Triple rel _ (encodeLoop encoded source 0 _ _) _
    unfold encodeLoop
    simp only [rfc4648, List.length_nil, Nat.zero_add, List.append_nil]
    lastd (fill_spec (b := 0) ?_ ?_)
    sep_cancel

theorem alphabet_ne (v : Nat) : alphabet v ≠ 0 := by
  rcases Nat.lt_or_ge v 64 with h | h
  · have key : ∀ x : Fin 64, alphabet x.val ≠ 0 := by decide
    exact key ⟨v, h⟩
  · unfold alphabet
    repeat rw [if_neg (by omega)]
    decide

theorem rfc4648_NoNul : ∀ bs : List UInt8, NoNul (rfc4648 bs)
  | a :: b :: c :: rest => by
    have := rfc4648_NoNul rest
    simp only [rfc4648, NoNul, List.cons_append, List.nil_append, List.mem_cons, not_or]
    exact ⟨(alphabet_ne _).symm, (alphabet_ne _).symm, (alphabet_ne _).symm, (alphabet_ne _).symm, this⟩
  | [a, b] => by
    simp only [rfc4648, NoNul, List.mem_cons, not_or]
    exact ⟨(alphabet_ne _).symm, (alphabet_ne _).symm, (alphabet_ne _).symm, by decide, by simp⟩
  | [a] => by
    simp only [rfc4648, NoNul, List.mem_cons, not_or]
    exact ⟨(alphabet_ne _).symm, (alphabet_ne _).symm, by decide, by decide, by simp⟩
  | [] => by simp [rfc4648, NoNul]

/-- why an encoding may be refused: the allocator -/
def NoRoom (rel : Prop) (bs : List UInt8) : Prop := ¬ rel ∨ maxObj < (rfc4648 bs).length + 1

theorem Base64_Encode_Internal_spec' {source : CharPtr} {bs : List UInt8} {D : HProp} (hl : bs.length ≤ maxObj)
    (hD : Reads rel D source bs) :
    Triple rel D (Base64_Encode_Internal source bs.length)
      (fun r => Made Str (NoRoom rel bs) (fun t => t = rfc4648 bs) r ∗ D) := by
  unfold Base64_Encode_Internal
  have e : ((if bs.length = 0 then 0 else ((bs.length - 1) / 3 + 1) * 4) + 1) % szMod = (rfc4648 bs).length + 1 := by
    rw [rfc4648_length]
    simp only [szMod, maxObj] at *
    rw [Nat.mod_eq_of_lt (by split <;> omega)]
    split <;> omega
  rw [e]
  refine Triple.malloc (fun hr => ?_) (fun p hp _ => ?_)
  · rw [if_pos rfl]
    exact Triple.pure (Made_fail_sep hr (entails_refl _))
  rw [if_neg hp, Fill_start]
  have := encodeLoop_spec (rel := rel) (encoded := p) (source := source) (D := D) bs [] [] (by simpa using hD)
  simp only [List.nil_append, List.length_nil] at this
  step this
  rw [Fill_done, bytesV_append]
  refine Triple.pre ?_ (sep_mono (entails_refl _) (CStr_intro (rfc4648_NoNul bs) []))
  step STRING_new_with_memory_spec into r
  by_cases h : r = 0
  · subst h
    rw [if_pos rfl, if_pos rfl]
    hoist
    intro hr
    rw [CStr_heap0]
    hoist
    intro vs hvs
    step free_spec
    exact Triple.pure (Made_fail_sep (Or.inl hr) (entails_refl _))
  · rw [if_neg h, if_neg h]
    exact Triple.pure (Made_ok_sep _ h rfl (by sep_cancel))

theorem Base64_Encode_Internal_spec {source : CharPtr} {bs : List UInt8} :
    Triple rel (Data source bs) (Base64_Encode_Internal source bs.length)
      (fun r => Made Str (NoRoom rel bs) (fun t => t = rfc4648 bs) r ∗ Data source bs) := by
  refine Triple.know (know_Data (by pick)) fun hl => ?_
  exact Base64_Encode_Internal_spec' hl fun i c h => charAt_data h

/-- C20: `Base64_Encode_Bytes` -/
theorem Base64_Encode_Bytes_spec {source : CharPtr} {bs : List UInt8} :
    Triple rel (Data source bs) (Base64_Encode_Bytes source bs.length)
      (fun r => Made Str (source = .null ∨ NoRoom rel bs) (fun t => source ≠ .null ∧ t = rfc4648 bs) r ∗ Data source bs) := by
  unfold Base64_Encode_Bytes
  refine Triple.ite (fun h => ?_) (fun h => Triple.ite (fun h0 => ?_) (fun h0 => ?_))
  · exact Triple.pure (Made_fail_sep (Or.inl h) (entails_refl _))
  · obtain rfl := List.eq_nil_of_length_eq_zero h0
    last STRING_new_spec
    rename_i r
    refine sep_mono ?_ (entails_refl _)
    by_cases hr : r = 0
    · subst hr
      rw [Made_zero, Made_zero]
      exact entails_pand_l fun hh => entails_pand_r (entails_refl _) (Or.inr (Or.inl hh))
    · rw [Made_ne hr, Made_ne hr]
      refine entails_ex_l fun t => entails_pand_l fun ht => entails_ex_r t (entails_pand_r (entails_refl _) ⟨h, by simpa [rfc4648] using ht⟩)
  · refine Base64_Encode_Internal_spec.conseq (entails_refl _) fun r => sep_mono ?_ (entails_refl _)
    by_cases hr : r = 0
    · subst hr
      rw [Made_zero, Made_zero]
      exact entails_pand_l fun hh => entails_pand_r (entails_refl _) (Or.inr hh)
    · rw [Made_ne hr, Made_ne hr]
      refine entails_ex_l fun t => entails_pand_l fun ht => entails_ex_r t (entails_pand_r (entails_refl _) ⟨h, ht⟩)

/-- the bytes held by a BUFFER whose storage is initialised -/
def Holds (c : Content) (bs : List UInt8) : Prop := c.getD [] = bytesV bs

theorem BUFFER_size_at {h p : Ptr} {c : Content} :
    Triple rel (BufAt h p (some c)) (BUFFER_size h true) (fun r => (r = (0, some (clen c))) ⋏ BufAt h p (some c)) := by
  unfold BUFFER_size
  cases c with
  | none =>
    unfold BufAt
    hoist; intro hp
    refine Triple.know (know_pts (φ := h ≠ 0) (by pick) fun h1 h2 => h1) fun hne => ?_
    rw [if_neg (by simp [hne])]
    step (loadInt_spec ?_)
    exact Triple.pure (entails_pand_r (entails_pand_r (entails_refl _) hp) rfl)
  | some vs =>
    unfold BufAt
    refine Triple.know (know_pts (p := h) (φ := h ≠ 0) (by pick) fun h1 h2 => h1) fun hne => ?_
    rw [if_neg (by simp [hne])]
    step (loadInt_spec ?_)
    exact Triple.pure (entails_pand_r (by sep_cancel) rfl)

/-- C20: `Base64_Encode` -/
theorem Base64_Encode_spec {input : Ptr} {a : Option Content} {bs : List UInt8} (ha : ∀ c, a = some c → Holds c bs) :
    Triple rel (OBuf input a) (Base64_Encode input)
      (fun r => Made Str (a = none ∨ NoRoom rel bs) (fun t => a ≠ none ∧ t = rfc4648 bs) r ∗ OBuf input a) := by
  unfold Base64_Encode
  cases a with
  | none =>
    rw [OBuf_none]
    hoist
    rintro rfl
    rw [if_pos rfl]
    exact Triple.pure (Made_fail_sep (Or.inl rfl) (entails_pand_r (entails_refl _) rfl))
  | some c =>
    have hh := ha c rfl
    refine Triple.know (OBuf_some_ne (by pick)) fun hne => ?_
    rw [if_neg hne]
    step BUFFER_content_spec into r1
    rw [if_neg (by simp)]
    hoist
    rintro p rfl
    rw [if_neg (by simp)]
    step BUFFER_size_at
    rw [if_neg (by simp)]
    have mono : ∀ r, Made Str (NoRoom rel bs) (fun t => t = rfc4648 bs) r ⊢ₕ Made Str (some c = none ∨ NoRoom rel bs) (fun t => some c ≠ none ∧ t = rfc4648 bs) r := by
      intro r
      by_cases hr : r = 0
      · subst hr
        rw [Made_zero, Made_zero]
        exact entails_pand_l fun hh => entails_pand_r (entails_refl _) (Or.inr hh)
      · rw [Made_ne hr, Made_ne hr]
        refine entails_ex_l fun t => entails_pand_l fun ht => entails_ex_r t (entails_pand_r (entails_refl _) ⟨by simp, ht⟩)
    cases c with
    | none =>
      have : bs = [] := by
        cases bs with
        | nil => rfl
        | cons b bs => simp [Holds, bytesV] at hh
      subst this
      refine (Base64_Encode_Internal_spec' (bs := []) (by simp) (fun i c h => by simp at h)).conseq (entails_refl _) fun r => ?_
      exact sep_mono (mono r) BufAt_OBuf
    | some vs =>
      have hvs : vs = bytesV bs := hh
      subst hvs
      refine Triple.know (φ := p ≠ 0 ∧ bs.length ≤ maxObj) (by
        unfold BufAt
        exact know_pts (p := p) (by pick) fun h1 h2 => ⟨h1, by simpa [bytesV] using h2⟩) fun hk => ?_
      obtain ⟨hpne, hlen⟩ := hk
      simp only [Option.getD_some, clen]
      rw [ofPtr_ne hpne, bytesV_length]
      refine (Base64_Encode_Internal_spec' (bs := bs) hlen fun i c h => ?_).conseq (entails_refl _) fun r => ?_
      · unfold charAt BufAt
        step (storage_pts (Nat.zero_le _))
        have e : (bytesV bs)[i]? = some (.byte c) := by simp only [bytesV, List.getElem?_map, h]; rfl
        rw [List.drop_zero, e]
        exact Triple.pure (entails_pand_r (by sep_cancel) rfl)
      · exact sep_mono (mono r) BufAt_OBuf

end Verif.Base64
