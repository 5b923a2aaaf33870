import Verif.Mb.Read
/-! # Reading the headers of a response -/
set_option linter.unusedSimpArgs false
set_option linter.unusedVariables false
namespace Verif.Mb
open Verif.Headers (Hdrs HdrR OHdr Pair StoreE HTTPHeaders_AddHeaderNameValuePair store_header_pair know_OHdr)
open Verif.Curl (At At_start strchr_spec split_colon)
open Verif.Ex (Built)
open Verif.Sas (text)
variable {rel W : Prop} {lib : Lib} {Net : List Ev → HProp} {Con : Nat → Option Wire → HProp} {Peer : Text → Wire → Prop}

theorem cstr_at {p : Ptr} {b : Block} {i : Nat} {w : Text} (h : At b i w) : Triple rel (p ↦ b) (cstr (.heap p i)) (fun r => (r = w) ⋏ p ↦ b) := by
  exact cstr_pts (by have := h.lt; omega) h.cstr

theorem cut_nonul (t : Text) : NoNul (cut t) := by
  intro h
  unfold cut at h
  induction t with
  | nil => simp at h
  | cons a t ih =>
    by_cases ha : a = 0
    · subst ha; simp at h
    · rw [List.takeWhile_cons_of_pos (by simpa using ha)] at h
      rcases List.mem_cons.1 h with h | h
      · exact ha h.symm
      · exact ih h

theorem Has_at {buf : Ptr} {t : Text} : Has buf t = ∃∃ b : Block, (b.length = 4096 ∧ At b 0 (cut t) ∧ ∃ tail, b = bytesV t ++ .byte 0 :: tail) ⋏ buf ↦ b := by
  funext h
  refine propext ⟨?_, ?_⟩
  · rintro ⟨tail, hl, hp⟩
    exact ⟨_, ⟨by simp [bytesV]; omega, At_start t tail, tail, rfl⟩, hp⟩
  · rintro ⟨b, ⟨hl, _, tail, rfl⟩, hp⟩
    exact ⟨tail, by simp [bytesV] at hl; omega, hp⟩

/-- the C string in the array -/
theorem cstr_Has {buf : Ptr} {t : Text} : Triple rel (Has buf t) (cstr (.heap buf 0)) (fun r => (r = cut t) ⋏ Has buf t) := by
  conv => arg 2; rw [Has_at]
  hoist; intro b hb ha tail0 he0
  have he : ∃ tail, b = bytesV t ++ .byte 0 :: tail := ⟨tail0, he0⟩
  refine (cstr_at (rel := rel) (p := buf) ha).conseq (entails_refl _) fun r => entails_pand_l fun hr => entails_pand_r ?_ hr
  rw [Has_at]; exact entails_ex_r b (entails_pand_r (entails_refl _) ⟨hb, ha, he⟩)

theorem first_Has {buf : Ptr} {t : Text} : Triple rel (Has buf t) (loadByte buf 0) (fun r => (r = 0 ↔ cut t = []) ⋏ Has buf t) := by
  conv => arg 2; rw [Has_at]
  hoist; intro b hb ha tail0 he0
  have he : ∃ tail, b = bytesV t ++ .byte 0 :: tail := ⟨tail0, he0⟩
  have hf : buf ↦ b ⊢ₕ Has buf t := by rw [Has_at]; exact entails_ex_r b (entails_pand_r (entails_refl _) ⟨hb, ha, he⟩)
  cases hc : cut t with
  | nil =>
    rw [hc] at ha
    exact (loadByte_spec (p := buf) ha.nul).conseq (entails_refl _) fun r => entails_pand_l fun hr => entails_pand_r hf (by simp [hr])
  | cons a s =>
    rw [hc] at ha
    exact (loadByte_spec (p := buf) ha.byte).conseq (entails_refl _) fun r => entails_pand_l fun hr => entails_pand_r hf (by simp [hr, ha.ne])

theorem lineEffect_spec {buf : Ptr} {t : Text} {len : Nat} {ch : Bool} (hf : framing (cut t) len ch ≠ .unk) :
    Triple rel (Has buf t) (lineEffect buf len ch) (fun r => (framing (cut t) len ch = match r with
      | none => .bad
      | some x => .set x.1 x.2) ⋏ Has buf t) := by
  unfold lineEffect
  step cstr_Has
  unfold framing at hf ⊢
  by_cases h1 : startsCI (text "content-length:") (cut t)
  · simp only [if_pos h1] at hf ⊢
    cases hs : scanInt ((cut t).drop 15) with
    | none => exact Triple.pure (entails_pand_r (entails_refl _) rfl)
    | some x =>
      simp only [hs] at hf ⊢
      by_cases hz : fitsInt x.1
      · simp only [if_pos hz]; exact Triple.pure (entails_pand_r (entails_refl _) rfl)
      · rw [if_neg hz] at hf; exact absurd rfl hf
  · simp only [if_neg h1] at hf ⊢
    by_cases h2 : startsCI (text "transfer-encoding:") (cut t)
    · simp only [if_pos h2]; exact Triple.pure (entails_pand_r (entails_refl _) rfl)
    · simp only [if_neg h2]; exact Triple.pure (entails_pand_r (entails_refl _) rfl)

theorem addLine_spec {rh buf : Ptr} {t : Text} {a : Option Hdrs} :
    Triple rel (Has buf t ∗ OHdr rh a) (addLine rh buf) (fun _ => ∃∃ a' : Option Hdrs, (Given rel a (field (cut t)) a') ⋏ Arr buf ∗ OHdr rh a') := by
  unfold addLine
  rw [Has_at]; hoist; intro b hb ha tail0 he0
  have he : ∃ tail, b = bytesV t ++ .byte 0 :: tail := ⟨tail0, he0⟩
  refine Triple.know (know_OHdr (h := rh) (a := a) (by pick)) fun k1 => ?_
  step (strchr_spec (p := buf) (ch := 58) (by decide) (cut t) 0 ha)
  have same : field (cut t) = [] ∨ a = none → buf ↦ b ∗ OHdr rh a ⊢ₕ ∃∃ a' : Option Hdrs, (Given rel a (field (cut t)) a') ⋏ Arr buf ∗ OHdr rh a' := fun h => by
    refine entails_ex_r a (entails_pand_r (sep_mono (Arr_intro hb) (entails_refl _)) ?_)
    cases a with
    | none => rfl
    | some hs => rcases h with h | h
                 · rw [h]; exact ⟨hs, rfl, rfl⟩
                 · cases h
  by_cases hc : 58 ∈ cut t
  · rw [if_pos hc]
    dsimp only
    cases a with
    | none =>
      rw [if_neg (by simp [k1])]
      exact Triple.pure (same (.inr rfl))
    | some hs =>
      rw [if_pos (by simp [k1])]
      have e := split_colon hc
      have ef : field (cut t) = [((cut t).takeWhile (· ≠ 58), ((cut t).dropWhile (· ≠ 58)).drop 1)] := by unfold field; rw [if_pos hc]
      rw [ef]
      obtain ⟨n, hn⟩ : ∃ n, n = (cut t).takeWhile (· ≠ 58) := ⟨_, rfl⟩
      obtain ⟨v, hv⟩ : ∃ v, v = ((cut t).dropWhile (· ≠ 58)).drop 1 := ⟨_, rfl⟩
      rw [← hn, ← hv] at e ⊢
      have h1 := ha
      rw [e] at h1
      step (store_spec (p := buf) (b := b) (off := 0 + n.length) (v := .byte 0) (by have := h1.lt; simp at this; omega))
      have hv1 : At (b.set (0 + n.length) (.byte 0)) (0 + n.length + 1) v := h1.skip.next.set_lt (by omega)
      have hp := Ti.At.pair (p := buf) h1.cut hv1
      unfold HTTPHeaders_AddHeaderNameValuePair
      simp only [OHdr, ORep_some]
      step (store_header_pair (rel := rel) (h := rh) (hs := hs) hp (replace := false)) into r
      intro hs' hS
      refine Triple.pure (entails_ex_r (some hs') (entails_pand_r ?_ ⟨hs', rfl, r, hs', hS, rfl⟩))
      rw [ORep_some]
      exact entails_trans (by sep_cancel) (sep_mono (Arr_intro (b := b.set (0 + n.length) (.byte 0)) (by simpa using hb)) (entails_refl _))
  · rw [if_neg hc]
    exact Triple.pure (same (.inl (by unfold field; rw [if_neg hc])))

theorem Built_append {hs hs1 hs2 : Hdrs} {l1 l2 : List (Text × Text)} (h1 : Built rel hs l1 hs1) (h2 : Built rel hs1 l2 hs2) : Built rel hs (l1 ++ l2) hs2 := by
  induction l1 generalizing hs with
  | nil => obtain rfl := h1; exact h2
  | cons p l ih => obtain ⟨r, h, hS, hB⟩ := h1; exact ⟨r, h, hS, ih hB⟩

theorem Given_append {a a1 a2 : Option Hdrs} {l1 l2 : List (Text × Text)} (h1 : Given rel a l1 a1) (h2 : Given rel a1 l2 a2) : Given rel a (l1 ++ l2) a2 := by
  cases a with
  | none => obtain rfl := h1; exact h2
  | some hs => obtain ⟨h, rfl, hB⟩ := h1; obtain ⟨h', rfl, hB'⟩ := h2; exact ⟨h', rfl, Built_append hB hB'⟩
theorem Given_nil {a : Option Hdrs} : Given rel a [] a := by cases a with | none => rfl | some hs => exact ⟨hs, rfl, rfl⟩

theorem line_suffix {fin : Bool} {s t rest : Text} (h : line fin s = .got t rest) : rest <:+ s := by
  have := lineN_rest (n := 4096) (fin := fin) (s := s); rw [← line, h] at this; exact this
theorem line_suffix_bad {fin : Bool} {s rest : Text} (h : line fin s = .bad rest) : rest <:+ s := by
  have := lineN_rest (n := 4096) (fin := fin) (s := s); rw [← line, h] at this; exact this

theorem Heads.suffix {fin : Bool} {len : Nat} {ch : Bool} {s : Text} {ps : List (Text × Text)} {o : Option (Nat × Bool)} {rest : Text}
    (h : Heads fin len ch s ps o rest) : rest <:+ s := by
  induction h with
  | done h _ => exact line_suffix h
  | bad h => exact line_suffix_bad h
  | badLen h _ _ => exact line_suffix h
  | field h _ _ _ ih => exact ih.trans (line_suffix h)

theorem readHeaders_spec (H : Stream rel lib Con W) {c : Nat} {buf cp rh : Ptr} {fin : Bool} {len : Nat} {ch : Bool} {s : Text}
    {ps : List (Text × Text)} {o : Option (Nat × Bool)} {rest : Text} (h : Heads fin len ch s ps o rest) : ∀ {w : Wire} {a : Option Hdrs}, w.fin = fin → w.ins = s →
    Triple rel (Con c (some w) ∗ Arr buf ∗ Cell cp ∗ OHdr rh a) (readHeaders lib c buf cp rh len ch)
      (fun r => ∃∃ a' : Option Hdrs, (r = o ∧ Given rel a ps a') ⋏ Con c (some (w.to rest)) ∗ Arr buf ∗ Cell cp ∗ OHdr rh a') := by
  induction h with
  | @done len ch s t rest hl hc =>
    intro w a hf hi
    subst hf hi
    unfold readHeaders
    step (readLine_got H (c := c) (w := w) (buf := buf) (cp := cp) hl)
    rw [if_neg (by omega)]
    step (first_Has (buf := buf) (t := t)) into d
    intro hd
    rw [if_pos (hd.2 hc)]
    exact Triple.pure (entails_ex_r a (entails_pand_r (entails_trans (by sep_cancel) (sep_mono (entails_refl _) (sep_mono Has_Arr (entails_refl _)))) ⟨rfl, Given_nil⟩))
  | @bad len ch s rest hl =>
    intro w a hf hi
    subst hf hi
    unfold readHeaders
    step (readLine_bad H (c := c) (w := w) (buf := buf) (cp := cp) hl)
    rw [if_pos (by omega)]
    exact Triple.pure (entails_ex_r a (entails_pand_r (by sep_cancel) ⟨rfl, Given_nil⟩))
  | @badLen len ch s t rest hl hc hfr =>
    intro w a hf hi
    subst hf hi
    unfold readHeaders
    step (readLine_got H (c := c) (w := w) (buf := buf) (cp := cp) hl)
    rw [if_neg (by omega)]
    step (first_Has (buf := buf) (t := t)) into d
    intro hd
    rw [if_neg (fun h => hc (hd.1 h))]
    step (lineEffect_spec (buf := buf) (t := t) (len := len) (ch := ch) (by rw [hfr]; simp)) into e
    intro he
    rw [hfr] at he
    cases e with
    | some x => cases he
    | none =>
      exact Triple.pure (entails_ex_r a (entails_pand_r (entails_trans (by sep_cancel) (sep_mono (entails_refl _) (sep_mono Has_Arr (entails_refl _)))) ⟨rfl, Given_nil⟩))
  | @field len ch s t rest len' ch' ps o rest' hl hc hfr hH ih =>
    intro w a hf hi
    subst hf hi
    unfold readHeaders
    step (readLine_got H (c := c) (w := w) (buf := buf) (cp := cp) hl)
    rw [if_neg (by omega)]
    step (first_Has (buf := buf) (t := t)) into d
    intro hd
    rw [if_neg (fun h => hc (hd.1 h))]
    step (lineEffect_spec (buf := buf) (t := t) (len := len) (ch := ch) (by rw [hfr]; simp)) into e
    intro he
    rw [hfr] at he
    cases e with
    | none => cases he
    | some x =>
      obtain ⟨l2, c2⟩ := x
      injection he with e1 e2
      dsimp only at e1 e2
      subst e1 e2
      dsimp only
      step (addLine_spec (rh := rh) (buf := buf) (t := t) (a := a))
      intro a1 hG
      have hsuf := line_suffix hl
      refine (ih (w := w.to rest) (a := a1) rfl (Wire.ins_to hsuf)).conseq (by sep_cancel) fun r => ?_
      refine entails_ex_l fun a2 => entails_pand_l fun ⟨hr, hG2⟩ => entails_ex_r a2 (entails_pand_r ?_ ⟨hr, Given_append hG hG2⟩)
      rw [Wire.to_to hsuf hH.suffix]; exact entails_refl _

end Verif.Mb
