import Verif.Url.Model
import Verif.Url.Spec
import Verif.Strings.Props
import Verif.Tac
/-!
# Properties of `URL_Encode` (C23)
-/
namespace Verif.Url
open Verif Verif.Strings

variable {rel : Prop}

theorem entry_zero : entry 0 = pure (1, [0]) := rfl
theorem entry_ne {c : UInt8} (h : c ≠ 0) : entry c = pure ((enc1 c).length, enc1 c) := by
  have key : ∀ x : Fin 256, x.val ≠ 0 → urlEncoding[x.val]? = some ((enc1 (UInt8.ofNat x.val)).length, enc1 (UInt8.ofNat x.val)) := by
    decide +kernel
  have := key ⟨c.toNat, c.toNat_lt⟩ (fun h0 => h (by apply UInt8.toNat_inj.mp; simpa using h0))
  simp only [UInt8.ofNat_toNat] at this
  unfold entry
  rw [this]

theorem enc1_len : ∀ c : UInt8, 1 ≤ (enc1 c).length ∧ (enc1 c).length ≤ 6 := u8_all (by decide +kernel)
theorem enc1_nonul : ∀ c : UInt8, c ≠ 0 → NoNul (enc1 c) := u8_all (by unfold NoNul; decide +kernel)

theorem encode_cons (c : UInt8) (t : List UInt8) : encode (c :: t) = enc1 c ++ encode t := rfl

theorem encode_NoNul : ∀ {t : List UInt8}, NoNul t → NoNul (encode t)
  | [], _ => by simp [encode, NoNul]
  | c :: t, h => by
    simp only [NoNul, List.mem_cons, not_or] at h
    have := encode_NoNul (t := t) h.2
    rw [encode_cons]
    simp only [NoNul, List.mem_append, not_or]
    exact ⟨enc1_nonul c (Ne.symm h.1), this⟩

theorem encode_le : ∀ t : List UInt8, (encode t).length ≤ 6 * t.length
  | [] => by simp [encode]
  | c :: t => by
    have := encode_le t; have := (enc1_len c).2
    rw [encode_cons, List.length_append, List.length_cons]; omega

theorem lengthLoop_spec : ∀ (t : List UInt8) (vs : List Val) (n : Nat), NoNul t → bytesV (t ++ [0]) <+: vs →
    lengthLoop vs n = pure ((n + (encode t).length + 1) % szMod)
  | [], vs, n, _, h => by
    obtain ⟨w, rfl⟩ := h
    show lengthLoop (.byte 0 :: _) n = _
    unfold lengthLoop
    rw [entry_zero]
    rfl
  | c :: t, vs, n, hn, h => by
    obtain ⟨w, rfl⟩ := h
    simp only [NoNul, List.mem_cons, not_or] at hn
    have ih := lengthLoop_spec t (bytesV (t ++ [0]) ++ w) ((n + (enc1 c).length) % szMod) hn.2 (List.prefix_append _ _)
    show lengthLoop (.byte c :: (bytesV (t ++ [0]) ++ w)) n = _
    unfold lengthLoop
    rw [entry_ne (Ne.symm hn.1), pure_bind, if_pos (Ne.symm hn.1), ih, encode_cons, List.length_append]
    congr 1
    simp only [szMod]; omega

theorem charAt_lit1 (b : UInt8) : charAt (.str [b]) 0 = pure b := rfl

/-- the loop fills the block exactly with the encoding and a NUL -/
theorem encodeLoop_spec {p : Ptr} : ∀ (t : List UInt8) (vs : List Val) (pre : List UInt8), NoNul t → bytesV (t ++ [0]) <+: vs →
    Triple rel (Fill p pre ((encode t).length + 1)) (encodeLoop p vs pre.length)
      (fun _ => Fill p (pre ++ encode t ++ [0]) 0) := by
  intro t
  induction t with
  | nil =>
    intro vs pre _ h
    obtain ⟨w, rfl⟩ := h
    have ev : bytesV ([] ++ [0]) ++ w = .byte 0 :: w := rfl
    rw [ev]
    unfold encodeLoop
    rw [entry_zero, pure_bind, if_pos rfl, charAt_lit1, pure_bind]
    stepd (fill_spec (b := 0) ?_ ?_)
    rw [if_neg (by simp)]
    simp only [encode, List.flatMap_nil, List.append_nil, List.length_nil]
    exact Triple.pure (entails_refl _)
  | cons c t IH =>
    intro vs pre hn h
    obtain ⟨w, rfl⟩ := h
    simp only [NoNul, List.mem_cons, not_or] at hn
    have ih := fun pre => IH (bytesV (t ++ [0]) ++ w) pre hn.2 (List.prefix_append _ _)
    have ev : bytesV (c :: t ++ [0]) ++ w = .byte c :: (bytesV (t ++ [0]) ++ w) := rfl
    rw [ev]
    unfold encodeLoop
    rw [entry_ne (Ne.symm hn.1), pure_bind, encode_cons]
    simp only [List.length_append]
    by_cases h1 : (enc1 c).length = 1
    · rw [if_pos h1]
      obtain ⟨b, hb⟩ := List.length_eq_one_iff.mp h1
      rw [hb, charAt_lit1, pure_bind]
      stepd (fill_spec (b := b) ?_ ?_)
      rw [if_pos (Ne.symm hn.1)]
      have e : pre.length + 1 = (pre ++ [b]).length := by simp
      rw [e, show [b].length + (encode t).length + 1 - 1 = (encode t).length + 1 by simp; omega]
      refine (ih (pre ++ [b])).conseq (entails_refl _) fun _ => entails_of_eq ?_
      simp
    · rw [if_neg h1]
      have hd : Data (.str (enc1 c)) (enc1 c) = emp := Data_lit (List.prefix_append _ _) (by
        have := (enc1_len c).2; simp only [List.length_append, List.length_cons, List.length_nil, maxObj]; omega)
      have hc := fill_copy (rel := rel) (p := p) (pre := pre) (bs := enc1 c) (m := (enc1 c).length + (encode t).length + 1) (off := pre.length)
        (n := (enc1 c).length) (src := .str (enc1 c)) rfl (Nat.le_refl _) (by omega)
      rw [hd, sep_emp, List.take_length] at hc
      step hc
      rw [if_pos (Ne.symm hn.1)]
      have e : pre.length + (enc1 c).length = (pre ++ enc1 c).length := by simp
      rw [e, show (enc1 c).length + (encode t).length + 1 - (enc1 c).length = (encode t).length + 1 by omega]
      refine (ih (pre ++ enc1 c)).conseq (entails_refl _) fun _ => entails_of_eq ?_
      simp

/-- The result of `URL_Encode` on a NULL handle (`none`) or on a string: a STRING whose block holds exactly the encoding and its
terminator, or NULL for a reason.  When NULL is returned
because the last, one word, allocation was refused the encoded text has been leaked (`lost`). -/
def Encoded (rel : Prop) (o : Option (List UInt8)) (r : Ptr) : HProp :=
  if r = 0 then ((o = none ∨ ¬ rel ∨ ∃ t, o = some t ∧ maxObj < (encode t).length + 1) ⋏ emp) else ∃∃ (t : List UInt8) (p : Nat), (o = some t) ⋏ r ↦ [.ptr p] ∗ p ↦ bytesV (encode t ++ [0])

/-- memory lost by a failed call: nothing, or (only if the allocator refused a request) the block holding the encoded text -/
def Lost (rel : Prop) (o : Option (List UInt8)) (r : Ptr) (lost : HProp) : Prop :=
  lost = emp ∨ (¬ rel ∧ r = 0 ∧ ∃ t p, o = some t ∧ lost = (p ↦ bytesV (encode t ++ [0])))

theorem reads_str {h p : Ptr} {t : List UInt8} :
    Triple rel (StrAt h p (some t)) (storage (.ofPtr p)) (fun r => (bytesV (t ++ [0]) <+: r) ⋏ StrAt h p (some t)) := by
  unfold StrAt
  refine Triple.know (know_heap0 (p := p) (by pick)) fun hp => ?_
  rw [ofPtr_ne hp]
  last storage_CStr
  rw [pand_sep]
  exact entails_pand_l fun hh => entails_pand_r (by sep_cancel) hh

/-- C23: `URL_Encode`. -/
theorem URL_Encode_spec {input : Ptr} {o : Option (List UInt8)} :
    Triple rel (OStr input o) (URL_Encode input)
      (fun r => ∃∃ lost : HProp, (Lost rel o r lost) ⋏ Encoded rel o r ∗ OStr input o ∗ lost) := by
  unfold URL_Encode
  cases o with
  | none =>
    simp only [OStr, ORep_none]
    hoist
    rintro rfl
    rw [if_pos rfl]
    refine Triple.pure (entails_ex_r emp (entails_pand_r ?_ (Or.inl rfl)))
    rw [Encoded, if_pos rfl, sep_emp, pand_sep, emp_sep]
    exact entails_pand_r (entails_pand_r (entails_refl _) rfl) (Or.inl rfl)
  | some t =>
    refine Triple.know (φ := input ≠ 0 ∧ NoNul t ∧ t.length < maxObj) ?_ fun hk => ?_
    · simp only [OStr, ORep_some]
      rintro h ⟨p, hp⟩
      have h1 := know_pts (p := input) (φ := input ≠ 0) (by pick) (fun h1 _ => h1) h hp
      have h2 := know_CStr (s := .heap p 0) (t := t) (by pick) h hp
      exact ⟨h1, h2.2⟩
    obtain ⟨hne, hnn, hlen⟩ := hk
    rw [if_neg hne]
    step STRING_c_str_spec into p
    step reads_str into vs
    intro hvs
    have hle := encode_le t
    rw [lengthLoop_spec t vs 0 hnn hvs, pure_bind, Nat.zero_add,
      Nat.mod_eq_of_lt (by simp only [szMod, maxObj] at *; omega)]
    refine Triple.malloc (fun hr => ?_) (fun e he _ => ?_)
    · rw [if_pos rfl]
      refine Triple.pure (entails_ex_r emp (entails_pand_r ?_ (Or.inl rfl)))
      rw [Encoded, if_pos rfl, sep_emp, pand_sep, emp_sep]
      refine entails_pand_r StrAt_OStr ?_
      exact Or.inr (hr.imp id fun h => ⟨t, rfl, h⟩)
    rw [if_neg he]
    refine Triple.pre ?_ (sep_mono (entails_refl _) (StrAt_OStr (p := p)))
    step STRING_c_str_spec into q
    step reads_str into ws
    intro hws
    rw [Fill_start]
    step (encodeLoop_spec t ws [] hnn hws)
    rw [Fill_done]
    unfold STRING_new_with_memory
    rw [if_neg he]
    refine Triple.mallocS (by omega) (fun hr => ?_) (fun r hr => ?_)
    · rw [if_neg (by simp)]
      refine Triple.pure (entails_ex_r (e ↦ bytesV (encode t ++ [0])) (entails_pand_r ?_ (Or.inr ⟨hr, rfl, t, e, rfl, rfl⟩)))
      rw [Encoded, if_pos rfl, pand_sep, emp_sep]
      refine entails_pand_r ?_ (Or.inr (Or.inl hr))
      simp only [List.nil_append]
      rw [sep_comm]
      exact sep_mono StrAt_OStr (entails_refl _)
    · rw [if_pos hr]
      hoist
      step (store_spec ?_)
      refine Triple.pure (entails_ex_r emp (entails_pand_r ?_ (Or.inl rfl)))
      rw [Encoded, if_neg hr, sep_emp, hex_sep]
      refine entails_ex_r t ?_
      rw [hex_sep]
      refine entails_ex_r e ?_
      rw [pand_sep]
      refine entails_pand_r ?_ rfl
      simp only [sep_assoc, List.nil_append]
      refine sep_mono (entails_refl _) (sep_mono (entails_refl _) StrAt_OStr)

/-- what a successful result is, as a STRING -/
theorem Encoded_Str {t : List UInt8} (ht : NoNul t) {r : Ptr} (hr : r ≠ 0) : Encoded rel (some t) r ⊢ₕ Str r (encode t) := by
  rw [Encoded, if_neg hr]
  refine entails_ex_l fun u => entails_ex_l fun p => entails_pand_l fun hu => ?_
  cases hu
  exact Str_intro' (encode_NoNul ht)

/-- C23: `URL_EncodeString`. -/
theorem URL_EncodeString_spec {s : CharPtr} {o : Option (List UInt8)} :
    Triple rel (Arg s o) (URL_EncodeString s)
      (fun r => ∃∃ lost : HProp, (Lost rel o r lost) ⋏ Encoded rel o r ∗ Arg s o ∗ lost) := by
  unfold URL_EncodeString
  cases o with
  | none =>
    rw [Arg_none]
    hoist
    rintro rfl
    rw [if_pos rfl]
    refine Triple.pure (entails_ex_r emp (entails_pand_r ?_ (Or.inl rfl)))
    rw [Encoded, if_pos rfl, sep_emp, pand_sep, emp_sep]
    exact entails_pand_r (entails_pand_r (entails_refl _) rfl) (Or.inl rfl)
  | some t =>
    rw [Arg_some]
    refine Triple.know (know_CStr (by pick)) fun hk => ?_
    rw [if_neg hk.1]
    refine Triple.pre_eq (P' := Arg s (some t)) rfl ?_
    step STRING_construct_spec into h
    by_cases hh : h = 0
    · subst hh
      rw [Made_zero, if_pos rfl]
      hoist
      intro hr
      refine Triple.pure (entails_ex_r emp (entails_pand_r ?_ (Or.inl rfl)))
      rw [Encoded, if_pos rfl, sep_emp, pand_sep, emp_sep]
      exact entails_pand_r (entails_refl _) (hr.imp (fun h => by simp at h) fun h => Or.inl h)
    · rw [Made_ne hh, if_neg hh]
      hoist
      intro u hu
      cases hu
      rw [show Str h t = OStr h (some t) from rfl]
      step URL_Encode_spec into r
      intro lost hlost
      step STRING_delete_spec
      exact Triple.pure (entails_ex_r lost (entails_pand_r (by sep_cancel) hlost))

/-! ## Non-vacuity and the leak -/

private def ascii (s : String) : List UInt8 := s.toList.map fun c => UInt8.ofNat c.toNat

/-- encoding `"a b\xe9"` -/
example : outcome (do
    let r ← URL_EncodeString (.str (ascii "a b" ++ [233]))
    let p ← STRING_c_str r
    cstr (.ofPtr p)) (St.start bump) = some (.ok (ascii "a%20b%c3%a9")) := by decide +kernel

/-- C54 is false: when the last allocation is refused, `URL_EncodeString` returns NULL and the block holding the encoded text (here at
address 3) stays allocated although no caller can free it. -/
theorem URL_Encode_leaks :
    outcome (do
      let r ← URL_EncodeString (.str (ascii "a"))
      let v ← load 3 0
      pure (r, v)) (St.start fun t _ _ => if t = 3 then 0 else t + 1) = some (.ok (0, .byte 97)) := by
  decide +kernel

/-- C54 for an allocator that does not refuse: no memory is lost. -/
theorem URL_Encode_no_leak_partial {input : Ptr} {o : Option (List UInt8)} (hrel : rel) :
    Triple rel (OStr input o) (URL_Encode input) (fun r => Encoded rel o r ∗ OStr input o) := by
  refine URL_Encode_spec.conseq (entails_refl _) fun r => entails_ex_l fun lost => entails_pand_l fun hl => ?_
  rcases hl with rfl | ⟨h, -⟩
  · rw [sep_emp]; exact entails_refl _
  · exact (h hrel).elim

end Verif.Url
