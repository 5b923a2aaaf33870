import Verif.Mb.Heads
/-! # Reading the body of a response -/
set_option linter.unusedSimpArgs false
set_option linter.unusedVariables false
namespace Verif.Mb
open Verif.Buffer (Content Buf OBuf BufAt clen BUFFER_enlarge_spec_partial BUFFER_content_spec BufAt_OBuf BUFFER_pre_build_spec BUFFER_unbuild_spec)
open Verif.Ti (over over_getD over_len over_patch over_nil clen_getD)
open Verif.Sas (text)
variable {rel W : Prop} {lib : Lib} {Net : List Ev → HProp} {Con : Nat → Option Wire → HProp} {Peer : Text → Wire → Prop}

theorem know_OBuf {b : Ptr} {a : Option Content} {P F : HProp} (pk : Pick P (OBuf b a) F) : ∀ h, P h → (b = 0 ↔ a = none) := by
  intro h hP
  unfold Pick at pk; rw [pk] at hP
  cases a with
  | none => simp only [Buffer.OBuf_none, pand_sep] at hP; simp [hP.1]
  | some c =>
    rw [Buffer.OBuf_some] at hP
    cases c with
    | none =>
      have := know_pts (p := b) (b := [.ptr 0, .int 0]) (P := b ↦ [.ptr 0, .int 0] ∗ F) (R := F) (φ := b ≠ 0) (by pick) (fun h _ => h) h hP
      simp [this]
    | some vs =>
      rw [Buffer.Buf_some, hex_sep] at hP
      obtain ⟨p, hP⟩ := hP
      rw [sep_assoc] at hP
      have := know_pts (p := b) (b := [.ptr p, .int vs.length]) (P := b ↦ [.ptr p, .int vs.length] ∗ p ↦ vs ∗ F) (R := p ↦ vs ∗ F) (φ := b ≠ 0) (by pick) (fun h _ => h) h hP
      simp [this]

theorem BufAt_some {h p : Ptr} {vs : Block} : BufAt h p (some (some vs)) = (h ↦ [.ptr p, .int vs.length] ∗ p ↦ vs) := rfl

theorem know_block {p : Ptr} {b : Block} {P F : HProp} (pk : Pick P (p ↦ b) F) : ∀ h, P h → b.length ≤ maxObj :=
  know_pts (p := p) (φ := b.length ≤ maxObj) pk fun _ h => h

/-! ## With a length -/

theorem prepare_spec {rc : Ptr} {n : Nat} (hr : rel) (h0 : n ≠ 0) (hm : n ≤ maxObj) :
    Triple rel (OBuf rc (some none)) (prepare rc n) (fun r => ∃∃ p : Nat, (r = some p) ⋏ BufAt rc p (some (some (List.replicate n .undef)))) := by
  unfold prepare
  step (BUFFER_pre_build_spec (rel := rel) (h := rc) (a := some none) (size := n)) into r
  intro a' hE
  rcases hE with ⟨h1, h2, c1, c2, h3, h4, h5⟩ | ⟨h1, h2, h3⟩
  · subst h1 h4 h5
    rw [if_neg (by simp)]
    step (BUFFER_content_spec (rel := rel) (h := rc)) into x
    simp only [reduceCtorEq, false_or, Bool.true_eq_false, if_false]
    hoist; rintro p rfl
    exact Triple.pure (entails_ex_r p (entails_pand_r (entails_refl _) rfl))
  · exfalso
    rcases h3 with h3 | h3 | h3
    · rcases h3 with h3 | h3 | ⟨vs, h3⟩
      · cases h3
      · exact h0 h3
      · cases h3
    · exact h3 hr
    · omega

/-- the buffer after a body -/
def after (a : Option Content) (got : Text) : Option Content := a.map fun b => over b got

section
variable (H : Stream rel lib Con W)
include H

theorem plainBody_spec {c : Nat} {buf rc : Ptr} {w : Wire} {a : Option Content} {d rest : Text} (hi : w.ins = d ++ rest) (hd : d.length < 2 ^ 31)
    (hc : d = [] ∨ a = none ∨ a = some none) (hr : a ≠ none → rel) :
    Triple rel (Con c (some w) ∗ Arr buf ∗ OBuf rc a) (plainBody lib c buf rc d.length)
      (fun r => (r = .ok) ⋏ Con c (some (w.got d.length)) ∗ Arr buf ∗ OBuf rc (after a d)) := by
  unfold plainBody
  have hle : d.length ≤ w.ins.length := by rw [hi]; simp
  have hm : (2 : Nat) ^ 31 ≤ maxObj := by decide
  by_cases h0 : d = []
  · subst h0
    rw [if_neg (by simp)]
    refine Triple.pure (entails_pand_r ?_ rfl)
    have : after a [] = a := by cases a <;> rfl
    rw [this]; exact entails_refl _
  have h0' : d.length ≠ 0 := by simpa using h0
  rw [if_pos h0']
  refine Triple.know (know_OBuf (b := rc) (a := a) (by pick)) fun hz => ?_
  rcases hc with hc | rfl | rfl
  · exact absurd hc h0
  · rw [if_neg (by simp [hz])]
    step (skipN_spec H (c := c) (buf := buf) (org := d.length) d.length w hle)
    exact Triple.pure (entails_pand_r (by sep_cancel) rfl)
  · rw [if_pos (by simp [hz])]
    step (prepare_spec (rel := rel) (rc := rc) (n := d.length) (hr (by simp)) h0' (by omega)) into x
    intro p hx
    subst hx
    dsimp only
    rw [BufAt_some]
    simp only [sep_assoc]
    step (readChunk_spec H (c := c) (p := p) (off := 0) d.length 0 w (List.replicate d.length .undef) hle (by omega) (by simp) (by simp; omega))
    rw [if_neg (by omega)]
    refine Triple.pure (entails_pand_r ?_ rfl)
    have e : patch (List.replicate d.length Val.undef) (0 + 0) (bytesV (w.ins.take d.length)) = bytesV d := by
      rw [hi, List.take_left' rfl]; exact patch_full (by simp [bytesV])
    rw [e]
    have e2 : after (some none) d = some (some (bytesV d)) := by
      unfold after; simp only [Option.map_some]
      have := over_patch none [] d h0
      rw [List.nil_append] at this
      rw [← this, over_nil]; simp [bytesV, patch]
    rw [e2]
    refine entails_trans (?_ : _ ⊢ₕ Con c (some (w.got d.length)) ∗ Arr buf ∗ BufAt rc p (some (some (bytesV d)))) (sep_mono (entails_refl _) (sep_mono (entails_refl _) BufAt_OBuf))
    rw [BufAt_some, show (List.replicate d.length Val.undef).length = (bytesV d).length by simp [bytesV]]
    sep_cancel

/-! ## In chunks -/

omit H in
theorem enlarge_spec {rc : Ptr} {c : Content} {n : Nat} {received : Option Ptr} {result : Res} (hr : rel) (h0 : n ≠ 0) (hm : clen c + n ≤ maxObj) :
    Triple rel (OBuf rc (some c)) (enlarge rc n received result)
      (fun r => ∃∃ p : Nat, (r = (some p, result)) ⋏ BufAt rc p (some (some (c.getD [] ++ List.replicate n .undef)))) := by
  unfold enlarge
  have hm2 : maxObj < szMod := by decide
  step (BUFFER_enlarge_spec_partial (rel := rel) (h := rc) (a := some c) (n := n) (by intro c1 h1; cases h1; omega)) into r
  intro a' hE
  rcases hE with ⟨h1, h2, c1, c2, h3, h4, h5⟩ | ⟨h1, h2, h3⟩
  · subst h1 h4 h5
    cases h3
    rw [if_neg (by simp)]
    step (BUFFER_content_spec (rel := rel) (h := rc)) into x
    simp only [reduceCtorEq, false_or, Bool.true_eq_false, if_false]
    hoist; rintro p rfl
    exact Triple.pure (entails_ex_r p (entails_pand_r (entails_refl _) rfl))
  · exfalso
    rcases h3 with h3 | h3 | ⟨c1, h3, h4⟩
    · rcases h3 with h3 | h3
      · cases h3
      · exact h0 h3
    · exact h3 hr
    · cases h3; omega

/-- the length of what the buffer held -/
def held (a : Option Content) : Nat := ((a.getD none).getD []).length

theorem chunkData_spec {c : Nat} {buf rc : Ptr} {w : Wire} {a : Option Content} {got d rest : Text} {received : Option Ptr} {result : Res} (hi : w.ins = d ++ rest)
    (h0 : d ≠ []) (hd : d.length < 2 ^ 31) (hm : held a + got.length + d.length ≤ maxObj) (hr : a ≠ none → rel) :
    Triple rel (Con c (some w) ∗ Arr buf ∗ OBuf rc (after a got)) (chunkData lib c buf rc got.length d.length received result)
      (fun r => ∃∃ received' : Option Ptr, (r = some (received', result)) ⋏ Con c (some (w.got d.length)) ∗ Arr buf ∗ OBuf rc (after a (got ++ d))) := by
  unfold chunkData
  have hle : d.length ≤ w.ins.length := by rw [hi]; simp
  have h0' : d.length ≠ 0 := by simpa using h0
  have hz : szMod = 2 ^ 64 := rfl
  have ek : ((d.length : Int) % szMod).toNat = d.length := by rw [Int.emod_eq_of_lt (by omega) (by omega)]; rfl
  dsimp only
  rw [ek]
  refine Triple.know (know_OBuf (b := rc) (a := after a got) (by pick)) fun hzz => ?_
  cases a with
  | none =>
    rw [if_neg (by simp [hzz, after])]
    step (skipN_spec H (c := c) (buf := buf) (org := d.length) d.length w hle)
    rw [toI32_small hd, if_neg (by omega)]
    exact Triple.pure (entails_ex_r received (entails_pand_r (by sep_cancel) rfl))
  | some b =>
    rw [if_pos (by simp [hzz, after])]
    have hh : held (some b) = (b.getD []).length := rfl
    rw [hh] at hm
    have hcl : clen (over b got) = (b.getD []).length + got.length := over_len b got
    simp only [after, Option.map_some]
    step (enlarge_spec (rel := rel) (rc := rc) (c := over b got) (n := d.length) (received := received) (result := result) (hr (by simp)) h0' (by omega)) into x
    intro p hx
    subst hx
    dsimp only
    rw [BufAt_some]
    simp only [sep_assoc]
    have hL : ((over b got).getD [] ++ List.replicate d.length Val.undef).length = (b.getD []).length + got.length + d.length := by
      rw [List.length_append, ← clen_getD, hcl, List.length_replicate]
    step (readChunk_spec H (c := c) (p := p) (off := got.length) d.length 0 w ((over b got).getD [] ++ List.replicate d.length Val.undef) hle (by omega) (by rw [hL]; omega) (by rw [hL]; omega))
    rw [if_neg (by omega)]
    refine Triple.pure (entails_ex_r (some p) (entails_pand_r ?_ rfl))
    have e1 : w.ins.take d.length = d := by rw [hi, List.take_left' rfl]
    have e := over_patch b got d h0
    rw [e1, Nat.add_zero, ← e]
    refine entails_trans (?_ : _ ⊢ₕ Con c (some (w.got d.length)) ∗ Arr buf ∗ BufAt rc p (some (some (patch ((over b got).getD [] ++ List.replicate d.length Val.undef) got.length (bytesV d)))))
      (sep_mono (entails_refl _) (sep_mono (entails_refl _) BufAt_OBuf))
    rw [BufAt_some, patch_length (by rw [hL, bytesV_length]; omega)]
    sep_cancel

omit H in
theorem SizeIs.scan {t : Text} {n : Nat} (h : SizeIs t n) (hn : n < 2 ^ 31) : ∃ z, scanHex (cut t) = some z ∧ fitsHex z ∧ toI32 (z % 2 ^ 32).toNat = n := by
  obtain ⟨z, h1, h2, h3⟩ := h
  exact ⟨z, h1, h2, by rw [h3]; exact toI32_small hn⟩

omit H in
theorem unbuild_spec {rc : Ptr} {a : Option Content} : Triple rel (OBuf rc a) (Buffer.BUFFER_unbuild rc) (fun _ => OBuf rc (a.map fun _ => none)) := by
  refine (BUFFER_unbuild_spec (rel := rel) (h := rc) (a := a)).conseq (entails_refl _) fun r => entails_ex_l fun a' => entails_pand_l fun hE => ?_
  rcases hE with ⟨h1, h2, c1, c2, h3, h4, h5⟩ | ⟨h1, h2, h3⟩
  · subst h3 h4 h5; exact entails_refl _
  · subst h2
    rcases h3 with h3 | h3 | h3
    · rcases h3 with rfl | rfl <;> exact entails_refl _
    · simp at h3
    · exact h3.elim

omit H in
theorem Chunks.suffix {fin : Bool} {cap : Nat} {s : Text} {o : Body} (h : Chunks fin cap s o) : o.rest <:+ s := by
  induction h with
  | bad h => exact line_suffix_bad h
  | notHex h _ => exact line_suffix h
  | last h _ => exact List.IsSuffix.trans ⟨[13, 10], rfl⟩ (line_suffix h)
  | @lastBad _ _ _ a b _ h _ _ => exact List.IsSuffix.trans ⟨[a, b], rfl⟩ (line_suffix h)
  | @chunk _ _ _ d rest _ h _ _ _ _ _ ih => exact ih.trans (List.IsSuffix.trans ⟨d ++ [13, 10], by simp⟩ (line_suffix h))
  | @chunkBad _ _ _ d a b _ h _ _ _ _ _ => exact List.IsSuffix.trans ⟨d ++ [a, b], by simp⟩ (line_suffix h)

theorem chunkLoop_spec {c : Nat} {buf cp rc : Ptr} {a : Option Content} (hr : a ≠ none → rel) {fin : Bool} {cap : Nat} {s : Text} {o : Body} (h : Chunks fin cap s o) :
    ∀ {w : Wire} {got : Text} {received : Option Ptr}, w.fin = fin → w.ins = s → held a + got.length + cap ≤ maxObj →
    Triple rel (Con c (some w) ∗ Arr buf ∗ Cell cp ∗ OBuf rc (after a got)) (chunkLoop lib c buf cp rc got.length received .ok)
      (fun r => (r = o.res) ⋏ Con c (some (w.to o.rest)) ∗ Arr buf ∗ Cell cp ∗ OBuf rc (a.map fun b => if o.wiped then none else over b (got ++ o.got))) := by
  induction h with
  | @bad cap s rest hl =>
    intro w got received hf hi hm
    subst hf hi
    unfold chunkLoop
    step (readLine_bad H (c := c) (w := w) (buf := buf) (cp := cp) hl)
    rw [if_pos (by omega)]
    refine Triple.pure (entails_pand_r ?_ rfl)
    simp only [List.append_nil, after, Bool.false_eq_true, if_false]
    sep_cancel
  | @notHex cap s t rest hl hx =>
    intro w got received hf hi hm
    subst hf hi
    unfold chunkLoop
    step (readLine_got H (c := c) (w := w) (buf := buf) (cp := cp) hl)
    rw [if_neg (by omega)]
    step (cstr_Has (buf := buf) (t := t))
    rw [hx]
    refine Triple.pure (entails_pand_r ?_ rfl)
    simp only [List.append_nil, after, Bool.false_eq_true, if_false]
    exact entails_trans (by sep_cancel) (sep_mono (entails_refl _) (sep_mono Has_Arr (entails_refl _)))
  | @last cap s t rest hl hs =>
    intro w got received hf hi hm
    subst hf hi
    unfold chunkLoop
    obtain ⟨z, hx, hfz, hz⟩ := hs.scan (by omega)
    step (readLine_got H (c := c) (w := w) (buf := buf) (cp := cp) hl)
    rw [if_neg (by omega)]
    step (cstr_Has (buf := buf) (t := t))
    rw [hx]
    dsimp only
    rw [if_neg (by simpa using hfz), hz, if_pos (by rfl)]
    have hsuf := line_suffix hl
    refine Triple.pre (?_ : Triple rel (Con c (some (w.to (13 :: 10 :: rest))) ∗ Arr buf ∗ Cell cp ∗ OBuf rc (after a got)) _ _)
      (entails_trans (by sep_cancel) (sep_mono (entails_refl _) (sep_mono (Has_Arr (t := t)) (entails_refl _))))
    step (skipCrlf_spec H (c := c) (buf := buf) (w := w.to (13 :: 10 :: rest)) (a := 13) (b := 10) (s := rest) (Wire.ins_to hsuf))
    rw [if_pos (by decide)]
    refine Triple.pure (entails_pand_r ?_ rfl)
    have e : (w.to (13 :: 10 :: rest)).got 2 = w.to rest := Wire.to_got (pre := [13, 10]) hsuf
    rw [e]
    simp only [List.append_nil, after, Bool.false_eq_true, if_false]
    sep_cancel
  | @lastBad cap s t x y rest hl hs hxy =>
    intro w got received hf hi hm
    subst hf hi
    unfold chunkLoop
    obtain ⟨z, hx, hfz, hz⟩ := hs.scan (by omega)
    step (readLine_got H (c := c) (w := w) (buf := buf) (cp := cp) hl)
    rw [if_neg (by omega)]
    step (cstr_Has (buf := buf) (t := t))
    rw [hx]
    dsimp only
    rw [if_neg (by simpa using hfz), hz, if_pos (by rfl)]
    have hsuf := line_suffix hl
    refine Triple.pre (?_ : Triple rel (Con c (some (w.to (x :: y :: rest))) ∗ Arr buf ∗ Cell cp ∗ OBuf rc (after a got)) _ _)
      (entails_trans (by sep_cancel) (sep_mono (entails_refl _) (sep_mono (Has_Arr (t := t)) (entails_refl _))))
    step (skipCrlf_spec H (c := c) (buf := buf) (w := w.to (x :: y :: rest)) (a := x) (b := y) (s := rest) (Wire.ins_to hsuf))
    rw [if_neg (by simpa using hxy)]
    step (unbuild_spec (rel := rel) (rc := rc) (a := after a got))
    refine Triple.pure (entails_pand_r ?_ rfl)
    have e : (w.to (x :: y :: rest)).got 2 = w.to rest := Wire.to_got (pre := [x, y]) hsuf
    rw [e]
    have e2 : ((after a got).map fun _ => (none : Content)) = a.map fun b => if true = true then none else over b (got ++ []) := by cases a <;> rfl
    rw [e2]
    sep_cancel
  | @chunk cap s t d rest o hl hs h0 hd hc hC ih =>
    intro w got received hf hi hm
    subst hf hi
    unfold chunkLoop
    have h0' : d.length ≠ 0 := by simpa using h0
    obtain ⟨z, hx, hfz, hz⟩ := hs.scan hd
    step (readLine_got H (c := c) (w := w) (buf := buf) (cp := cp) hl)
    rw [if_neg (by omega)]
    step (cstr_Has (buf := buf) (t := t))
    rw [hx]
    dsimp only
    rw [if_neg (by simpa using hfz), hz, if_neg (by omega)]
    have hsuf := line_suffix hl
    refine Triple.pre (?_ : Triple rel (Con c (some (w.to (d ++ 13 :: 10 :: rest))) ∗ Arr buf ∗ OBuf rc (after a got) ∗ Cell cp) _ _)
      (entails_trans (by sep_cancel) (sep_mono (entails_refl _) (sep_mono (Has_Arr (t := t)) (entails_refl _))))
    step (chunkData_spec H (c := c) (buf := buf) (rc := rc) (w := w.to (d ++ 13 :: 10 :: rest)) (a := a) (got := got) (d := d) (rest := 13 :: 10 :: rest) (received := received)
      (result := .ok) (Wire.ins_to hsuf) h0 hd (by omega) hr) into r
    intro rcv hrv
    subst hrv
    dsimp only
    have s1 : (13 :: 10 :: rest) <:+ d ++ 13 :: 10 :: rest := ⟨d, rfl⟩
    have e1 : (w.to (d ++ 13 :: 10 :: rest)).got d.length = w.to (13 :: 10 :: rest):= Wire.to_got hsuf
    rw [e1]
    have hsuf1 := s1.trans hsuf
    step (skipCrlf_spec H (c := c) (buf := buf) (w := w.to (13 :: 10 :: rest)) (a := 13) (b := 10) (s := rest) (Wire.ins_to hsuf1))
    rw [if_pos (by decide)]
    have s2 : rest <:+ 13 :: 10 :: rest := ⟨[13, 10], rfl⟩
    have e2 : (w.to (13 :: 10 :: rest)).got 2 = w.to rest := Wire.to_got (pre := [13, 10]) hsuf1
    rw [e2]
    have hz' : szMod = 2 ^ 64 := rfl
    have hmo : maxObj = 2 ^ 56 := rfl
    have ek : ((d.length : Int) % szMod).toNat = d.length := by rw [Int.emod_eq_of_lt (by omega) (by omega)]; rfl
    rw [ek, Nat.mod_eq_of_lt (by omega), ← List.length_append]
    have hsuf2 := s2.trans hsuf1
    refine (ih (w := w.to rest) (got := got ++ d) (received := rcv) rfl (Wire.ins_to hsuf2) (by rw [List.length_append]; omega)).conseq (by sep_cancel) fun r => ?_
    refine entails_pand_l fun hr => entails_pand_r ?_ hr
    rw [Wire.to_to hsuf2 hC.suffix]
    simp only [List.append_assoc]
    exact entails_refl _
  | @chunkBad cap s t d x y rest hl hs h0 hd hc hxy =>
    intro w got received hf hi hm
    subst hf hi
    unfold chunkLoop
    have h0' : d.length ≠ 0 := by simpa using h0
    obtain ⟨z, hx, hfz, hz⟩ := hs.scan hd
    step (readLine_got H (c := c) (w := w) (buf := buf) (cp := cp) hl)
    rw [if_neg (by omega)]
    step (cstr_Has (buf := buf) (t := t))
    rw [hx]
    dsimp only
    rw [if_neg (by simpa using hfz), hz, if_neg (by omega)]
    have hsuf := line_suffix hl
    refine Triple.pre (?_ : Triple rel (Con c (some (w.to (d ++ x :: y :: rest))) ∗ Arr buf ∗ OBuf rc (after a got) ∗ Cell cp) _ _)
      (entails_trans (by sep_cancel) (sep_mono (entails_refl _) (sep_mono (Has_Arr (t := t)) (entails_refl _))))
    step (chunkData_spec H (c := c) (buf := buf) (rc := rc) (w := w.to (d ++ x :: y :: rest)) (a := a) (got := got) (d := d) (rest := x :: y :: rest) (received := received)
      (result := .ok) (Wire.ins_to hsuf) h0 hd (by omega) hr) into r
    intro rcv hrv
    subst hrv
    dsimp only
    have s1 : (x :: y :: rest) <:+ d ++ x :: y :: rest := ⟨d, rfl⟩
    have e1 : (w.to (d ++ x :: y :: rest)).got d.length = w.to (x :: y :: rest):= Wire.to_got hsuf
    rw [e1]
    have hsuf1 := s1.trans hsuf
    step (skipCrlf_spec H (c := c) (buf := buf) (w := w.to (x :: y :: rest)) (a := x) (b := y) (s := rest) (Wire.ins_to hsuf1))
    rw [if_neg (by simpa using hxy)]
    have s2 : rest <:+ x :: y :: rest := ⟨[x, y], rfl⟩
    have e2 : (w.to (x :: y :: rest)).got 2 = w.to rest := Wire.to_got (pre := [x, y]) hsuf1
    rw [e2]
    refine Triple.pure (entails_pand_r ?_ rfl)
    simp only [after, Bool.false_eq_true, if_false]
    sep_cancel
end
end Verif.Mb
