import Verif.Base64.Props
/-!
# The base64 decoder (C21, C22)
-/
namespace Verif.Base64
open Verif Verif.Strings Verif.Buffer

variable {rel : Prop}

theorem value_val : ∀ c : UInt8, (base64toValue c).map UInt8.toNat = valOf c := u8_all (by decide +kernel)

theorem value_none {c : UInt8} : base64toValue c = none ↔ (valOf c).isSome = false := by
  rw [← value_val]; cases base64toValue c <;> simp

theorem value_getD (c : UInt8) : ((base64toValue c).getD 0).toNat = (valOf c).getD 0 := by
  rw [← value_val]; cases base64toValue c <;> simp

theorem valOf_lt {c : UInt8} : (valOf c).getD 0 < 64 := by
  cases e : valOf c with
  | none => simp
  | some v =>
    have := List.mem_of_find?_eq_some e
    simpa using this

theorem countLoop_spec : ∀ (t : List UInt8) (vs : List Val) (n : Nat), bytesV (t ++ [0]) <+: vs →
    countLoop vs n = pure (n + (digits t).length)
  | [], vs, n, h => by
    obtain ⟨w, rfl⟩ := h
    have : base64toValue 0 = none := by decide
    simp [bytesV, countLoop, this, digits]
  | c :: t, vs, n, h => by
    obtain ⟨w, rfl⟩ := h
    have ih := countLoop_spec t (bytesV (t ++ [0]) ++ w) (n + 1) (List.prefix_append _ _)
    show countLoop (.byte c :: (bytesV (t ++ [0]) ++ w)) n = _
    unfold countLoop
    by_cases hc : base64toValue c = none
    · rw [if_neg (by simpa using hc)]
      rw [digits, List.takeWhile_cons_of_neg (by rw [value_none.mp hc]; simp)]
      rfl
    · have hs : (valOf c).isSome = true := by
        cases h : (valOf c).isSome with
        | false => exact (hc (value_none.mpr h)).elim
        | true => rfl
      have e : digits (c :: t) = c :: digits t := by simp [digits, hs]
      rw [if_pos hc, ih, e, List.length_cons]
      congr 1; omega

theorem number_spec {s : CharPtr} {t : List UInt8} :
    Triple rel (CStr s t) (numberOfBase64Characters s) (fun r => (r = (digits t).length) ⋏ CStr s t) := by
  unfold numberOfBase64Characters
  step storage_CStr into vs
  intro hvs
  rw [countLoop_spec t vs 0 hvs]
  exact Triple.pure (entails_pand_r (entails_refl _) (by simp))

theorem decode_len_spec {s : CharPtr} {t : List UInt8} :
    Triple rel (CStr s t) (Base64decode_len s) (fun r => (r = room t) ⋏ CStr s t) := by
  unfold Base64decode_len
  step strlen_spec
  have lastc : ∀ (u : List UInt8) (n : Nat), n = u.length → n ≠ 0 → ∃ c, u.getLast? = some c ∧ u[n - 1]? = some c := by
    intro u n hn h0
    subst hn
    have hne : u ≠ [] := by rintro rfl; exact h0 rfl
    refine ⟨u.getLast hne, List.getLast?_eq_some_getLast hne, ?_⟩
    rw [List.getLast_eq_getElem]
    exact List.getElem?_eq_getElem _
  by_cases h0 : t.length = 0
  · rw [if_neg (by simpa using h0)]
    obtain rfl := List.eq_nil_of_length_eq_zero h0
    exact Triple.pure (entails_pand_r (entails_refl _) rfl)
  rw [if_pos h0]
  obtain ⟨c, hc1, hc2⟩ := lastc t _ rfl h0
  step (charAt_spec (t := t) (i := t.length - 1) (c := c) (by rw [List.getElem?_append_left (by omega)]; exact hc2))
  unfold room
  rw [hc1]
  by_cases hp : c = 61
  · subst hp
    rw [if_pos (c := (61 : UInt8) = 61) rfl, if_pos (c := some (61 : UInt8) = some pad) rfl]
    by_cases h1 : t.length - 1 = 0
    · rw [if_neg (by simpa using h1)]
      have : t.dropLast = [] := List.eq_nil_of_length_eq_zero (by simpa using h1)
      rw [this, List.getLast?_nil, if_neg (by simp)]
      exact Triple.pure (entails_pand_r (entails_refl _) rfl)
    · rw [if_pos h1]
      obtain ⟨d, hd1, hd2⟩ := lastc t.dropLast (t.length - 1) (by simp) h1
      have hd3 : t[t.length - 1 - 1]? = some d := by
        rw [List.getElem?_dropLast] at hd2
        split at hd2
        · exact hd2
        · simp at hd2
      step (charAt_spec (t := t) (i := t.length - 1 - 1) (c := d) (by rw [List.getElem?_append_left (by omega)]; exact hd3))
      rw [hd1]
      by_cases hq : d = 61
      · subst hq
        rw [if_pos (c := (61 : UInt8) = 61) rfl, if_pos (c := some (61 : UInt8) = some pad) rfl]
        exact Triple.pure (entails_pand_r (entails_refl _) rfl)
      · rw [if_neg hq, if_neg (by intro h; exact hq (Option.some.inj h))]
        exact Triple.pure (entails_pand_r (entails_refl _) rfl)
  · rw [if_neg hp, if_neg (by intro h; exact hp (Option.some.inj h))]
    exact Triple.pure (entails_pand_r (entails_refl _) rfl)

theorem valueAt_spec {s : CharPtr} {t : List UInt8} {i : Nat} (c : UInt8) (hc : (t ++ [0])[i]? = some c) :
    Triple rel (CStr s t) (valueAt s i) (fun r => (r = (base64toValue c).getD 0) ⋏ CStr s t) := by
  unfold valueAt
  step (charAt_spec hc)
  exact Triple.pure (entails_pand_r (entails_refl _) rfl)

theorem byteOf_toNat (n i : Nat) : (byteOf n i).toNat = n / 256 ^ i % 256 := by simp [byteOf]

theorem b1 (c1 c2 : UInt8) (n i : Nat)
    (h : (valOf c1).getD 0 * 4 + (valOf c2).getD 0 / 16 = n / 256 ^ i % 256) :
    ((base64toValue c1).getD 0 <<< 2) ||| ((base64toValue c2).getD 0 >>> 4) = byteOf n i := by
  apply UInt8.toNat_inj.mp
  have h1 := valOf_lt (c := c1); have h2 := valOf_lt (c := c2)
  rw [join2 (by rw [value_getD]; omega) (by rw [shr4, value_getD]; omega), byteOf_toNat, shr4, value_getD, value_getD, h]
theorem b2 (c1 c2 : UInt8) (n i : Nat)
    (h : (valOf c1).getD 0 % 16 * 16 + (valOf c2).getD 0 / 4 = n / 256 ^ i % 256) :
    (((base64toValue c1).getD 0 &&& 0x0f) <<< 4) ||| ((base64toValue c2).getD 0 >>> 2) = byteOf n i := by
  apply UInt8.toNat_inj.mp
  have h1 := valOf_lt (c := c1); have h2 := valOf_lt (c := c2)
  rw [join4 (by rw [and15, value_getD]; omega) (by rw [shr2, value_getD]; omega), byteOf_toNat, shr2, and15, value_getD, value_getD, h]
theorem b3 (c1 c2 : UInt8) (n i : Nat)
    (h : (valOf c1).getD 0 % 4 * 64 + (valOf c2).getD 0 = n / 256 ^ i % 256) :
    (((base64toValue c1).getD 0 &&& 0x03) <<< 6) ||| (base64toValue c2).getD 0 = byteOf n i := by
  apply UInt8.toNat_inj.mp
  have h1 := valOf_lt (c := c1); have h2 := valOf_lt (c := c2)
  rw [join6 (by rw [and3, value_getD]; omega) (by rw [value_getD]; omega), byteOf_toNat, and3, value_getD, value_getD, h]

/-- the decoding loop writes exactly the decoded bytes, if there is room for them -/
theorem decodeLoop_spec {p : Ptr} {source : CharPtr} : ∀ (u w v pre : List UInt8) (n : Nat), (decBytes u).length ≤ n →
    Triple rel (CStr source (w ++ u ++ v) ∗ Fill p pre n) (decodeLoop p source u.length w.length pre.length)
      (fun _ => CStr source (w ++ u ++ v) ∗ Fill p (pre ++ decBytes u) (n - (decBytes u).length))
  | c1 :: c2 :: c3 :: c4 :: rest, w, v, pre, m, hm => by
    have h1 := valOf_lt (c := c1); have h2 := valOf_lt (c := c2); have h3 := valOf_lt (c := c3); have h4 := valOf_lt (c := c4)
    have ih := decodeLoop_spec (p := p) (source := source) rest (w ++ [c1, c2, c3, c4]) v
    obtain ⟨n, hn⟩ : ∃ n, n = (valOf c1).getD 0 * 64 ^ 3 + (valOf c2).getD 0 * 64 ^ 2 + (valOf c3).getD 0 * 64 + (valOf c4).getD 0 := ⟨_, rfl⟩
    simp only [List.append_assoc, List.cons_append, List.nil_append] at ih
    have er : decBytes (c1 :: c2 :: c3 :: c4 :: rest) = byteOf n 2 :: byteOf n 1 :: byteOf n 0 :: decBytes rest := by
      simp only [decBytes, hn]
    simp only [er, List.length_cons] at hm ⊢
    simp only [Nat.reducePow] at hn
    simp only [List.append_assoc, List.cons_append]
    show Triple rel _ (decodeLoop p source (rest.length + 4) _ _) _
    unfold decodeLoop
    stepd (valueAt_spec c1 ?_)
    stepd (valueAt_spec c2 ?_)
    stepd (valueAt_spec c3 ?_)
    stepd (valueAt_spec c4 ?_)
    rw [b1 c1 c2 n 2 (by simp only [Nat.reducePow]; omega), b2 c2 c3 n 1 (by simp only [Nat.pow_one]; omega),
      b3 c3 c4 n 0 (by simp only [Nat.pow_zero, Nat.div_one]; omega)]
    stepd (fill_spec (b := byteOf n 2) ?_ ?_)
    stepd (fill_spec (b := byteOf n 1) ?_ ?_)
    stepd (fill_spec (b := byteOf n 0) ?_ ?_)
    have e1 : w.length + 4 = (w ++ [c1, c2, c3, c4]).length := by simp
    have e2 : pre.length + 3 = (pre ++ [byteOf n 2] ++ [byteOf n 1] ++ [byteOf n 0]).length := by simp
    rw [e1, e2]
    last (ih (pre ++ [byteOf n 2] ++ [byteOf n 1] ++ [byteOf n 0]) (m - 1 - 1 - 1) (by omega))
    simp only [sep_emp, List.append_assoc, List.cons_append, List.nil_append]
    rw [show m - 1 - 1 - 1 - (decBytes rest).length = m - ((decBytes rest).length + 1 + 1 + 1) by omega]
    sep_cancel
  | [c1, c2, c3], w, v, pre, m, hm => by
    have h1 := valOf_lt (c := c1); have h2 := valOf_lt (c := c2); have h3 := valOf_lt (c := c3)
    obtain ⟨n, hn⟩ : ∃ n, n = ((valOf c1).getD 0 * 64 ^ 2 + (valOf c2).getD 0 * 64 + (valOf c3).getD 0) / 4 := ⟨_, rfl⟩
    have er : decBytes [c1, c2, c3] = [byteOf n 1, byteOf n 0] := by
      simp only [decBytes, hn]
    simp only [er, List.length_cons, List.length_nil] at hm ⊢
    simp only [Nat.reducePow] at hn
    simp only [List.append_assoc, List.cons_append, List.nil_append]
    show Triple rel _ (decodeLoop p source 3 _ _) _
    unfold decodeLoop
    stepd (valueAt_spec c1 ?_)
    stepd (valueAt_spec c2 ?_)
    stepd (valueAt_spec c3 ?_)
    rw [b1 c1 c2 n 1 (by simp only [Nat.pow_one]; omega), b2 c2 c3 n 0 (by simp only [Nat.pow_zero, Nat.div_one]; omega)]
    stepd (fill_spec (b := byteOf n 1) ?_ ?_)
    lastd (fill_spec (b := byteOf n 0) ?_ ?_)
    simp only [List.append_assoc, List.cons_append, List.nil_append]
    rw [show m - 1 - 1 = m - (0 + 1 + 1) by omega]
    sep_cancel
  | [c1, c2], w, v, pre, m, hm => by
    have h1 := valOf_lt (c := c1); have h2 := valOf_lt (c := c2)
    obtain ⟨n, hn⟩ : ∃ n, n = ((valOf c1).getD 0 * 64 + (valOf c2).getD 0) / 16 := ⟨_, rfl⟩
    have er : decBytes [c1, c2] = [byteOf n 0] := by
      simp only [decBytes, hn]
    simp only [er, List.length_cons, List.length_nil] at hm ⊢
    simp only [List.append_assoc, List.cons_append, List.nil_append]
    show Triple rel _ (decodeLoop p source 2 _ _) _
    unfold decodeLoop
    stepd (valueAt_spec c1 ?_)
    stepd (valueAt_spec c2 ?_)
    rw [b1 c1 c2 n 0 (by simp only [Nat.pow_zero, Nat.div_one]; omega)]
    lastd (fill_spec (b := byteOf n 0) ?_ ?_)
    sep_cancel
  | [c1], w, v, pre, m, hm => by
    show Triple rel _ (decodeLoop p source 1 _ _) _
    unfold decodeLoop
    simp only [decBytes, List.length_nil, Nat.sub_zero, List.append_nil]
    exact Triple.pure (entails_refl _)
  | [], w, v, pre, m, hm => by
    show Triple rel _ (decodeLoop p source 0 _ _) _
    unfold decodeLoop
    simp only [decBytes, List.length_nil, Nat.sub_zero, List.append_nil]
    exact Triple.pure (entails_refl _)

/-- what the decoder leaves in the BUFFER it returns: the decoded bytes, then indeterminate storage up to the allotted size -/
def decoded (t : List UInt8) : Content :=
  if room t = 0 then none
  else some (bytesV (decBytes (digits t)) ++ List.replicate (room t - (decBytes (digits t)).length) .undef)

/-- The text is one the decoder handles inside its buffer: nothing is allotted, or at least as much as is written. -/
def Fits (t : List UInt8) : Prop := room t = 0 ∨ (decBytes (digits t)).length ≤ room t

instance (t : List UInt8) : Decidable (Fits t) := by unfold Fits; infer_instance

/-- C22 (partial): for every C string that fits, the decoder stays inside its buffer and its result is determined.  The claim
for all C strings is false: see `decoder_overflows` and `decoder_uninitialised`. -/
theorem Base64_Decoder_spec_partial {s : CharPtr} {o : Option (List UInt8)} (hf : ∀ t, o = some t → Fits t) :
    Triple rel (Arg s o) (Base64_Decoder s)
      (fun r => Made Buf (o = none ∨ (∃ t, o = some t ∧ (digits t).length % 4 = 1) ∨ ¬ rel)
        (fun c => ∃ t, o = some t ∧ (digits t).length % 4 ≠ 1 ∧ c = decoded t) r ∗ Arg s o) := by
  unfold Base64_Decoder
  cases o with
  | none =>
    rw [Arg_none]
    hoist
    rintro rfl
    rw [if_neg (by simp)]
    exact Triple.pure (Made_fail_sep (Or.inl rfl) (entails_pand_r (entails_refl _) rfl))
  | some t =>
    rw [Arg_some]
    have hft := hf t rfl
    refine Triple.know (know_CStr (by pick)) fun hk => ?_
    rw [if_pos hk.1]
    step number_spec
    by_cases h1 : (digits t).length % 4 = 1
    · rw [if_pos h1]
      exact Triple.pure (Made_fail_sep (Or.inr (Or.inl ⟨t, rfl, h1⟩)) (entails_refl _))
    rw [if_neg h1]
    step BUFFER_new_spec into b
    by_cases hb : b = 0
    · subst hb
      rw [if_pos rfl, if_pos rfl]
      hoist
      intro hr
      exact Triple.pure (Made_fail_sep (Or.inr (Or.inr hr)) (entails_refl _))
    rw [if_neg hb, if_neg hb]
    step decode_len_spec
    by_cases hz : room t = 0
    · rw [if_neg (by omega)]
      exact Triple.pure (Made_ok_sep none hb ⟨t, rfl, h1, by simp [decoded, hz]⟩ (by sep_cancel))
    rw [if_pos (by omega)]
    rw [← OBuf_some]
    step BUFFER_pre_build_spec into r
    intro a' he
    rcases he with ⟨hr, -, c, c', hc, ha', hok⟩ | ⟨hr, ha', hwhy⟩
    · subst hr hok ha'
      rw [if_neg (by simp)]
      step BUFFER_u_char_spec into u
      unfold BufAt
      hoist
      unfold Base64decode
      simp only [bind_assoc]
      step number_spec
      rw [Fill_start]
      have ht : t = [] ++ digits t ++ t.dropWhile (fun c => (valOf c).isSome) :=
        (List.takeWhile_append_dropWhile (p := fun c => (valOf c).isSome) (l := t)).symm
      have hd := decodeLoop_spec (rel := rel) (p := u) (source := s) (digits t) [] (t.dropWhile fun c => (valOf c).isSome) [] (room t) (hft.resolve_left hz)
      rw [← ht] at hd
      simp only [List.length_nil, List.nil_append] at hd
      step hd
      refine Triple.pure (Made_ok_sep (decoded t) hb ⟨t, rfl, h1, rfl⟩ ?_)
      have hlen : (bytesV (decBytes (digits t)) ++ List.replicate (room t - (decBytes (digits t)).length) Val.undef).length = room t := by
        simp [bytesV]; have := hft.resolve_left hz; omega
      rw [decoded, if_neg hz, Buf_some, hlen, hex_sep]
      refine entails_ex_r u ?_
      simp only [List.length_replicate]
      unfold Fill
      sep_cancel
    · subst ha'
      have := room_le t
      rw [if_pos hr]
      step BUFFER_delete_spec
      refine Triple.pure (Made_fail_sep (Or.inr (Or.inr ?_)) (entails_refl _))
      rcases hwhy with (h | h | ⟨vs, h⟩) | h | h
      · simp at h
      · exact (hz h).elim
      · simp at h
      · exact h
      · have := hk.2; omega

/-- the contents of a BUFFER holding exactly `bs` (the storage of an empty one is absent) -/
def exactly (bs : List UInt8) : Content := if bs = [] then none else some (bytesV bs)

theorem Decodes.decoded {t bs : List UInt8} (h : Decodes t bs) : Fits t ∧ decoded t = exactly bs ∧ (digits t).length % 4 ≠ 1 := by
  obtain ⟨h1, h2, h3⟩ := h.facts
  refine ⟨Or.inr (by rw [h1, h2]; omega), ?_, h3⟩
  unfold Base64.decoded exactly
  rw [h1, h2]
  by_cases hb : bs = []
  · subst hb; simp
  · rw [if_neg hb, if_neg (by cases bs <;> simp_all)]; simp

/-- C22 for well formed texts, and C21: a base64 text is decoded to exactly the bytes it stands for; only the allocator can fail. -/
theorem Base64_Decoder_wellformed {s : CharPtr} {t bs : List UInt8} (h : Decodes t bs) :
    Triple rel (CStr s t) (Base64_Decoder s) (fun r => Made Buf (¬ rel) (fun c => c = exactly bs) r ∗ CStr s t) := by
  obtain ⟨h1, h2, h3⟩ := h.decoded
  refine (Base64_Decoder_spec_partial (s := s) (o := some t) (by rintro _ ⟨⟩; exact h1)).conseq (entails_refl _) fun r => ?_
  refine sep_mono ?_ (entails_refl _)
  by_cases hr : r = 0
  · subst hr
    rw [Made_zero, Made_zero]
    refine entails_pand_l fun hh => entails_pand_r (entails_refl _) ?_
    rcases hh with h | ⟨u, hu, h⟩ | h
    · simp at h
    · cases hu; exact (h3 h).elim
    · exact h
  · rw [Made_ne hr, Made_ne hr]
    refine entails_ex_l fun c => entails_pand_l fun hc => entails_ex_r c (entails_pand_r (entails_refl _) ?_)
    obtain ⟨u, hu, -, rfl⟩ := hc
    cases hu; exact h2

/-- a client that encodes bytes and decodes the text; the result is the two handles -/
def roundtrip (source : CharPtr) (size : Nat) : M (Ptr × Ptr) := do
  let s ← Base64_Encode_Bytes source size
  if s = 0 then pure (0, 0)
  else
    let p ← STRING_c_str s
    let d ← Base64_Decoder (.ofPtr p)
    pure (s, d)

/-- C21: decoding the encoding of any bytes gives exactly those bytes back; the only failures are a NULL source and the allocator. -/
theorem roundtrip_spec {source : CharPtr} {bs : List UInt8} :
    Triple rel (Data source bs) (roundtrip source bs.length)
      (fun r => (if r.1 = 0 then ((r.2 = 0 ∧ (source = .null ∨ NoRoom rel bs)) ⋏ emp)
        else Str r.1 (rfc4648 bs) ∗ Made Buf (¬ rel) (fun c => c = exactly bs) r.2) ∗ Data source bs) := by
  unfold roundtrip
  step Base64_Encode_Bytes_spec into s
  by_cases hs : s = 0
  · subst hs
    rw [Made_zero, if_pos rfl]
    hoist
    intro h
    refine Triple.pure ?_
    rw [if_pos rfl, pand_sep, emp_sep]
    exact entails_pand_r (entails_refl _) ⟨rfl, h⟩
  rw [Made_ne hs, if_neg hs]
  hoist
  rintro t - ht
  subst ht
  have e : Str s (rfc4648 bs) = ORep Str s (some (rfc4648 bs)) := rfl
  rw [e]
  step STRING_c_str_spec into p
  unfold StrAt
  hoist
  refine Triple.know (know_heap0 (p := p) (by pick)) fun hp => ?_
  rw [ofPtr_ne hp]
  step (Base64_Decoder_wellformed (Decodes_rfc4648 bs)) into d
  refine Triple.pure ?_
  rw [if_neg hs]
  simp only [sep_assoc]
  refine entails_trans ?_ (sep_mono (StrAt_OStr (p := p) (a := some (rfc4648 bs))) (entails_refl _))
  unfold StrAt
  sep_cancel

/-! ## Non-vacuity -/

private def ascii (s : String) : List UInt8 := s.toList.map fun c => UInt8.ofNat c.toNat

/-- the round trip of four literal bytes under an allocator that never refuses gives them back -/
example : outcome (do
    let r ← roundtrip (.lit [77, 0, 255, 110]) 4
    let c ← BUFFER_content r.2 true
    let n ← BUFFER_size r.2 true
    loadN (c.2.getD 0) 0 (n.2.getD 0)) (St.start bump) = some (.ok [.byte 77, .byte 0, .byte 255, .byte 110]) := by decide +kernel

example : Decodes (ascii "TWE=") [77, 97] := by
  have h : rfc4648 [77, 97] = ascii "TWE=" := by decide
  rw [← h]; exact Decodes_rfc4648 _
/-- a text that is not base64 but that the partial theorem covers: one byte is decoded, the rest ignored -/
example : Fits (ascii "TQ!!") ∧ decoded (ascii "TQ!!") = some [.byte 77, .undef, .undef] := by decide +kernel

/-! ## C22 is false in general -/

/-- `"AAAAAA"`: 3 bytes are allotted and 4 written; `"AAA=="`: 1 is allotted and 2 are written. -/
theorem decoder_overflows :
    outcome (Base64_Decoder (.str (ascii "AAAAAA"))) (St.start bump) = some (.error (.ub "store out of bounds")) ∧
    outcome (Base64_Decoder (.str (ascii "AAA=="))) (St.start bump) = some (.error (.ub "store out of bounds")) := by
  decide +kernel

/-- `"AAAA===="`: 4 bytes are allotted, 3 written: the returned BUFFER contains an indeterminate byte. -/
theorem decoder_uninitialised :
    outcome (do
      let b ← Base64_Decoder (.str (ascii "AAAA===="))
      let c ← BUFFER_content b true
      let n ← BUFFER_size b true
      loadN (c.2.getD 0) 0 (n.2.getD 0)) (St.start bump) = some (.ok [.byte 0, .byte 0, .byte 0, .undef]) := by
  decide +kernel

/-- A string that the decoder does not handle inside its buffer. -/
theorem not_all_fit : ¬ ∀ t : List UInt8, NoNul t → Fits t := by
  intro h
  exact absurd (h (ascii "AAAAAA") (by decide)) (by unfold Fits; decide +kernel)

end Verif.Base64
