import Verif.Wh.Props
import Verif.Ti.Receive
import Verif.Mb.Body
/-! # The response: bodies and headers of `httpapi_winhttp.c` -/
set_option linter.unusedSimpArgs false
set_option linter.unusedVariables false
namespace Verif.Wh
open Verif.Headers (Hdrs HdrR OHdr Pair StoreE store_header_pair know_OHdr)
open Verif.Buffer (Content Buf OBuf clen BufAt BufAt_OBuf BUFFER_enlarge_spec_partial BUFFER_content_spec BUFFER_size_spec BUFFER_new_spec BUFFER_delete_spec)
open Verif.Curl (Args At strchr_spec StatR OutX OutX_eq split_colon)
open Verif.Map (CS free_CS)
open Verif.Ti (Lost Lost_zero)
variable {rel : Prop} {lib : Lib} {W : Codec} {Net : List Ev → HProp} {Sess Con : Nat → HProp} {Req : Nat → Nat → HProp}

/-! ## Lines of a wide text -/

/-- a delimiter -/
def isDelim (c : Nat) : Bool := c = 13 || c = 10
theorem isDelim_iff {c : Nat} : isDelim c = true ↔ c = 13 ∨ c = 10 := by simp [isDelim]

/-- from position `i` the block reads as `w` -/
def AtW (b : Block) (i : Nat) (w : Wide) : Prop := 0 ∉ w ∧ ∃ tail, b.drop i = wideV w ++ .int 0 :: tail

theorem AtW.nul {b : Block} {i : Nat} (h : AtW b i []) : b[i]? = some (.int 0) := by
  obtain ⟨_, tail, h⟩ := h
  have := congrArg (·[0]?) h
  simpa [List.getElem?_drop, wideV] using this
theorem AtW.byte {b : Block} {i : Nat} {c : Nat} {w : Wide} (h : AtW b i (c :: w)) : b[i]? = some (.int c) := by
  obtain ⟨_, tail, h⟩ := h
  have := congrArg (·[0]?) h
  simpa [List.getElem?_drop, wideV] using this
theorem AtW.next {b : Block} {i : Nat} {c : Nat} {w : Wide} (h : AtW b i (c :: w)) : AtW b (i + 1) w := by
  obtain ⟨hn, tail, h⟩ := h
  refine ⟨fun hx => hn (by simp [hx]), tail, ?_⟩
  have := congrArg (List.drop 1) h
  simpa [List.drop_drop, wideV] using this
theorem AtW.skip {b : Block} {i : Nat} {u w : Wide} (h : AtW b i (u ++ w)) : AtW b (i + u.length) w := by
  induction u generalizing i with
  | nil => simpa using h
  | cons c u ih =>
    have := ih (i := i + 1) (AtW.next h)
    simpa [Nat.add_assoc, Nat.add_comm 1] using this
theorem AtW.ne {b : Block} {i : Nat} {c : Nat} {w : Wide} (h : AtW b i (c :: w)) : c ≠ 0 := fun hc => h.1 (by simp [hc])
theorem AtW.nonul {b : Block} {i : Nat} {w : Wide} (h : AtW b i w) : 0 ∉ w := h.1
theorem AtW.lt {b : Block} {i : Nat} {w : Wide} (h : AtW b i w) : i + w.length < b.length := by
  obtain ⟨_, tail, h⟩ := h
  have := congrArg List.length h
  simp [wideV] at this; omega
/-- a store before the position changes nothing -/
theorem AtW.set_lt {b : Block} {i j : Nat} {v : Val} {w : Wide} (h : AtW b i w) (hj : j < i) : AtW (b.set j v) i w := by
  refine ⟨h.1, h.2.imp fun tail h => ?_⟩
  rw [List.drop_set, if_pos hj, h]
/-- a NUL ends the text -/
theorem AtW.cut {b : Block} {i : Nat} {u w : Wide} (h : AtW b i (u ++ w)) : AtW (b.set (i + u.length) (.int 0)) i u := by
  refine ⟨fun hx => h.1 (by simp [hx]), ?_⟩
  obtain ⟨_, tail, h⟩ := h
  rw [List.drop_set, if_neg (by omega), h, show i + u.length - i = u.length by omega]
  cases w with
  | nil => exact ⟨tail, by simp [wideV]⟩
  | cons c w => exact ⟨wideV w ++ .int 0 :: tail, by simp [wideV]⟩

theorem skipDelims_spec {p : Ptr} {b : Block} : ∀ (w : Wide) (i : Nat), AtW b i w →
    Triple rel (p ↦ b) (skipDelims p i) (fun r => (AtW b r (w.dropWhile isDelim)) ⋏ p ↦ b) := by
  intro w
  induction w with
  | nil =>
    intro i h
    unfold skipDelims
    step (loadInt_spec (p := p) h.nul)
    rw [if_neg (by decide)]
    exact Triple.pure (entails_pand_r (entails_refl _) h)
  | cons c w ih =>
    intro i h
    unfold skipDelims
    step (loadInt_spec (p := p) h.byte)
    cases hd : isDelim c with
    | true =>
      rw [if_pos (isDelim_iff.1 hd), List.dropWhile_cons_of_pos (by simpa using hd)]
      exact ih (i + 1) h.next
    | false =>
      rw [if_neg (by rw [← isDelim_iff, hd]; simp), List.dropWhile_cons_of_neg (by simp [hd])]
      exact Triple.pure (entails_pand_r (entails_refl _) h)

/-- no delimiter -/
def plain (c : Nat) : Bool := !isDelim c

theorem tokenEnd_spec {p : Ptr} {b : Block} : ∀ (w : Wide) (i : Nat), AtW b i w →
    Triple rel (p ↦ b) (tokenEnd p i) (fun r => (r = i + (w.takeWhile plain).length) ⋏ p ↦ b) := by
  intro w
  induction w with
  | nil =>
    intro i h
    unfold tokenEnd
    step (loadInt_spec (p := p) h.nul)
    rw [if_pos (by simp)]
    exact Triple.pure (entails_pand_r (entails_refl _) (by simp))
  | cons c w ih =>
    intro i h
    unfold tokenEnd
    step (loadInt_spec (p := p) h.byte)
    have hc : c ≠ 0 := h.ne
    cases hd : isDelim c with
    | true =>
      rw [if_pos (.inr (isDelim_iff.1 hd)), List.takeWhile_cons_of_neg (by simp [plain, hd])]
      exact Triple.pure (entails_pand_r (entails_refl _) (by simp))
    | false =>
      rw [if_neg (by rw [← isDelim_iff, hd]; simp [hc]), List.takeWhile_cons_of_pos (by simp [plain, hd])]
      refine (ih (i + 1) h.next).conseq (entails_refl _) fun r => entails_pand_l fun hr => entails_pand_r (entails_refl _) ?_
      rw [hr]; simp; omega

/-- the first line and the rest after its delimiter -/
def line1 (w : Wide) : Wide := (w.dropWhile isDelim).takeWhile plain
def rest1 (w : Wide) : Wide := ((w.dropWhile isDelim).dropWhile plain).drop 1

theorem wcstok_spec {p : Ptr} {b : Block} {w : Wide} {i : Nat} (h : AtW b i w) :
    Triple rel (p ↦ b) (wcstok p i) (fun r => ∃∃ b' : Block,
      (match r.1 with
        | none => w.dropWhile isDelim = []
        | some s => w.dropWhile isDelim ≠ [] ∧ AtW b' s (line1 w) ∧ AtW b' r.2 (rest1 w)) ⋏ p ↦ b') := by
  unfold wcstok
  step (skipDelims_spec (p := p) w i h) into s
  intro hs
  cases e : w.dropWhile isDelim with
  | nil =>
    rw [e] at hs
    step (loadInt_spec (p := p) hs.nul)
    rw [if_pos rfl]
    exact Triple.pure (entails_ex_r b (entails_pand_r (entails_refl _) rfl))
  | cons c w' =>
    rw [e] at hs
    step (loadInt_spec (p := p) hs.byte)
    rw [if_neg hs.ne]
    step (tokenEnd_spec (p := p) (c :: w') s hs)
    have e2 := (List.takeWhile_append_dropWhile (p := plain) (l := c :: w'))
    have h2 := hs
    rw [← e2] at h2
    cases e3 : (c :: w').dropWhile plain with
    | nil =>
      rw [e3, List.append_nil] at h2
      have h3 := h2
      rw [← List.append_nil (List.takeWhile _ _)] at h3
      step (loadInt_spec (p := p) (h3.skip).nul)
      rw [if_pos rfl]
      refine Triple.pure (entails_ex_r b (entails_pand_r (entails_refl _) ⟨by simp, ?_, ?_⟩))
      · unfold line1; rw [e]; exact h2
      · unfold rest1; rw [e, e3]; exact h3.skip
    | cons d w2 =>
      rw [e3] at h2
      have h4 := h2.skip
      step (loadInt_spec (p := p) h4.byte)
      rw [if_neg h4.ne]
      step (store_spec (p := p) (b := b) (by have := h4.lt; omega))
      refine Triple.pure (entails_ex_r _ (entails_pand_r (entails_refl _) ⟨by simp, ?_, ?_⟩))
      · unfold line1; rw [e]; exact h2.cut
      · unfold rest1; rw [e, e3]; exact h4.next.set_lt (by omega)

theorem plain_of {c : Nat} (h : ¬ (c = 13 ∨ c = 10)) : isDelim c = false := by
  simp only [not_or] at h
  simp [isDelim, h.1, h.2]

theorem splitLines_acc {acc w : Wide} : splitLines acc w =
    (if acc ++ w.takeWhile plain = [] then [] else [acc ++ w.takeWhile plain]) ++ splitLines [] ((w.dropWhile plain).drop 1) := by
  induction w generalizing acc with
  | nil => cases acc <;> simp [splitLines]
  | cons c w ih =>
    by_cases hc : c = 13 ∨ c = 10
    · have hp : plain c = false := by rcases hc with rfl | rfl <;> decide
      rw [splitLines, if_pos hc, List.takeWhile_cons_of_neg (by simp [hp]), List.dropWhile_cons_of_neg (by simp [hp])]
      cases acc <;> simp
    · have hp : plain c = true := by simp [plain, plain_of hc]
      rw [splitLines, if_neg hc, List.takeWhile_cons_of_pos hp, List.dropWhile_cons_of_pos hp, ih]
      simp

theorem splitLines_step {w : Wide} : splitLines [] w = if w.dropWhile isDelim = [] then [] else line1 w :: splitLines [] (rest1 w) := by
  induction w with
  | nil => simp [splitLines]
  | cons c w ih =>
    by_cases hc : c = 13 ∨ c = 10
    · have hp : isDelim c = true := by rcases hc with rfl | rfl <;> decide
      rw [splitLines, if_pos hc, if_pos rfl, ih]
      unfold line1 rest1
      rw [List.dropWhile_cons_of_pos hp]
    · have hp := plain_of hc
      have e : (c :: w).dropWhile isDelim = c :: w := List.dropWhile_cons_of_neg (by simp [hp])
      have e2 : (c :: w).takeWhile plain ≠ [] := by rw [List.takeWhile_cons_of_pos (by simp [plain, hp])]; simp
      rw [splitLines_acc]
      unfold line1 rest1
      rw [e, List.nil_append, if_neg e2, if_neg (by simp)]
      rfl

theorem rest1_lt {w : Wide} (h : w.dropWhile isDelim ≠ []) : (rest1 w).length < w.length := by
  have h1 : (w.dropWhile isDelim).length ≤ w.length := (List.dropWhile_suffix _).sublist.length_le
  have h2 : ((w.dropWhile isDelim).dropWhile plain).length ≤ (w.dropWhile isDelim).length := (List.dropWhile_suffix _).sublist.length_le
  have h3 : (w.dropWhile isDelim).length ≠ 0 := by simpa using h
  unfold rest1
  rw [List.length_drop]
  omega

theorem line1_ne {w : Wide} (h : w.dropWhile isDelim ≠ []) : line1 w ≠ [] := by
  unfold line1
  have := List.head_dropWhile_not isDelim h
  cases e : w.dropWhile isDelim with
  | nil => exact absurd e h
  | cons c w' =>
    simp only [e, List.head_cons] at this
    rw [List.takeWhile_cons_of_pos (by simp [plain, this])]; simp


theorem AtW.form {b : Block} {i : Nat} {w : Wide} (h : AtW b i w) : ∃ pre rest, b = pre ++ (wideV w ++ .int 0 :: rest) ∧ pre.length = i := by
  have hl := h.lt
  obtain ⟨_, tail, h⟩ := h
  exact ⟨b.take i, tail, by rw [← h, List.take_append_drop], by rw [List.length_take]; omega⟩

/-! ## Headers of the response -/

/-- a line of the response; `r`: it goes on -/
def LineE (rel : Prop) (W : Codec) (w : Wide) (hs : Hdrs) (r : Bool) (hs' : Hdrs) : Prop :=
  match W.narrow w with
  | none => r = true ∧ hs' = hs
  | some t => (¬ rel ∧ r = true ∧ hs' = hs) ∨
    if 58 ∈ t then ∃ r1, StoreE rel false (some hs) (some (nameOf t)) (some (valueOf t)) r1 (some hs') ∧ r = decide (r1 = .ok) else r = true ∧ hs' = hs

theorem Lost_one {p : Ptr} {b : Block} : p ↦ b ⊢ₕ Lost 1 := by
  unfold Lost
  rw [Lost_zero, sep_emp]
  exact entails_ex_r p (entails_ex_r b (entails_refl _))

theorem addLine_spec (H : Honours rel lib W Net Sess Con Req) {rh p token q : Nat} {w : Wide} {t : Text} {b d : Block} {hs : Hdrs} (hw : AtW b token w) (ht : W.narrow w = some t)
    (hd : d.length = t.length + 1) :
    Triple rel (HdrR rh hs ∗ p ↦ b ∗ q ↦ d) (addLine lib rh p token q (t.length + 1))
      (fun r => ∃∃ hs' : Hdrs, (LineE rel W w hs r hs') ⋏ HdrR rh hs' ∗ p ↦ b ∗ Lost (if r then 0 else 1)) := by
  unfold addLine
  obtain ⟨pre, rest, hb, hp⟩ := hw.form
  have hn := (H.narrow_ok w t ht).1
  have hnar := H.narrow p pre w rest t q (t.length + 1) d hw.1 ht (by omega) (by omega)
  rw [← hb, hp] at hnar
  step hnar into k
  intro hk
  rw [if_pos (by omega)]
  have e0 : d.drop (t.length + 1) = [] := List.drop_eq_nil_of_le (by omega)
  rw [e0]
  have hA : At (bytesV t ++ [.byte 0]) 0 t := ⟨hn, [], rfl⟩
  step (strchr_spec (p := q) (ch := 58) (by decide) t 0 hA)
  by_cases hc : 58 ∈ t
  · rw [if_pos hc]
    have e := split_colon hc
    obtain ⟨n, hn'⟩ : ∃ n, n = nameOf t := ⟨_, rfl⟩
    obtain ⟨v, hv⟩ : ∃ v, v = valueOf t := ⟨_, rfl⟩
    have e2 : t = n ++ 58 :: v := by rw [hn', hv]; exact e
    have e3 : (t.takeWhile (· ≠ 58)).length = n.length := by rw [hn']; rfl
    rw [e3]
    dsimp only
    rw [Nat.zero_add]
    have h1 := hA
    rw [e2] at h1
    rw [← e2] at h1
    have hlt : n.length < (bytesV t ++ [Val.byte 0]).length := by rw [e2]; simp [bytesV]
    step (store_spec (p := q) (b := bytesV t ++ [.byte 0]) (v := .byte 0) hlt)
    have h2 : At (bytesV t ++ [.byte 0]) 0 (n ++ 58 :: v) := by rw [← e2]; exact hA
    have hcut := h2.cut
    rw [Nat.zero_add] at hcut
    have hv1 : At ((bytesV t ++ [Val.byte 0]).set n.length (.byte 0)) (n.length + 1) v := by
      have h3 : At (bytesV t ++ [.byte 0]) (0 + n.length + 1) v := h2.skip.next
      rw [Nat.zero_add] at h3
      exact h3.set_lt (by omega)
    have P : Pair (q ↦ (bytesV t ++ [Val.byte 0]).set n.length (.byte 0)) (.heap q 0) n (.heap q (n.length + 1)) v :=
      Pair.pts (Nat.zero_le _) hcut.cstr (by have := hv1.lt; omega) hv1.cstr
    step (store_header_pair (h := rh) (hs := hs) P (replace := false)) into r
    intro hs' he
    have hL : LineE rel W w hs (decide (r = .ok)) hs' := by
      unfold LineE; rw [ht]; dsimp only; right; rw [if_pos hc]; exact ⟨r, by rw [← hn', ← hv]; exact he, rfl⟩
    refine Triple.ite (fun hr => ?_) fun hr => ?_
    · rw [decide_eq_false hr] at hL
      refine Triple.pure (entails_ex_r hs' (entails_pand_r ?_ hL))
      rw [if_neg (by simp)]
      refine entails_trans (Q := HdrR rh hs' ∗ p ↦ b ∗ q ↦ (bytesV t ++ [Val.byte 0]).set n.length (.byte 0)) (by sep_cancel)
        (sep_mono (entails_refl _) (sep_mono (entails_refl _) Lost_one))
    · rw [decide_eq_true (Decidable.not_not.1 hr)] at hL
      step (free_spec (p := q))
      refine Triple.pure (entails_ex_r hs' (entails_pand_r ?_ hL))
      rw [if_pos rfl, Lost_zero, sep_emp]
      sep_cancel
  · rw [if_neg hc]
    dsimp only
    step (free_spec (p := q))
    refine Triple.pure (entails_ex_r hs (entails_pand_r ?_ ?_))
    · rw [if_pos rfl, Lost_zero, sep_emp]
      sep_cancel
    · unfold LineE; rw [ht]; dsimp only; right; rw [if_neg hc]; exact ⟨rfl, rfl⟩

theorem takeLine_spec (H : Honours rel lib W Net Sess Con Req) {rh p token : Nat} {w : Wide} {b : Block} {hs : Hdrs} (hw : AtW b token w) :
    Triple rel (HdrR rh hs ∗ p ↦ b) (takeLine lib rh p token)
      (fun r => ∃∃ hs' : Hdrs, (LineE rel W w hs r hs') ⋏ HdrR rh hs' ∗ p ↦ b ∗ Lost (if r then 0 else 1)) := by
  unfold takeLine
  obtain ⟨pre, rest, hb, hp⟩ := hw.form
  have hnar := H.narrowSize p pre w rest hw.1
  rw [← hb, hp] at hnar
  step hnar into size
  intro hk
  have skip : LineE rel W w hs true hs → HdrR rh hs ∗ p ↦ b ⊢ₕ ∃∃ hs' : Hdrs, (LineE rel W w hs true hs') ⋏ HdrR rh hs' ∗ p ↦ b ∗ Lost (if true then 0 else 1) := by
    intro hL
    refine entails_ex_r hs (entails_pand_r ?_ hL)
    rw [if_pos rfl, Lost_zero, sep_emp]
    exact entails_refl _
  cases hn : W.narrow w with
  | none =>
    rw [hn] at hk
    replace hk : size = 0 := hk
    rw [if_pos hk]
    exact Triple.pure (entails_trans (by sep_cancel) (skip (by unfold LineE; rw [hn]; exact ⟨rfl, rfl⟩)))
  | some t =>
    rw [hn] at hk
    replace hk : size = t.length + 1 := hk
    subst hk
    rw [if_neg (by omega)]
    refine Triple.malloc (fun hr => ?_) fun q hq hm => ?_
    · rw [if_pos rfl]
      have := (H.narrow_ok w t hn).2
      exact Triple.pure (entails_trans (by sep_cancel) (skip (by
        unfold LineE; rw [hn]; exact .inl ⟨hr.resolve_right (by simp only [maxObj]; omega), rfl, rfl⟩)))
    · rw [if_neg hq]
      exact (addLine_spec H (rh := rh) (p := p) (token := token) (q := q) (hs := hs) hw hn (d := List.replicate (t.length + 1) .undef) (by simp)).conseq
        (by sep_cancel) fun r => entails_refl _

theorem lineLoop_spec (H : Honours rel lib W Net Sess Con Req) {rh p : Ptr} : ∀ (n : Nat) (w : Wide) (b : Block) (hs : Hdrs) (t : Option Nat × Nat), w.length ≤ n →
    (match t.1 with
        | none => w.dropWhile isDelim = []
        | some s => w.dropWhile isDelim ≠ [] ∧ AtW b s (line1 w) ∧ AtW b t.2 (rest1 w)) →
    Triple rel (HdrR rh hs ∗ p ↦ b) (lineLoop lib rh p t)
      (fun r => ∃∃ (hs' : Hdrs) (b' : Block) (k : Nat), (LinesE rel W (linesOf w) hs r hs' k) ⋏ HdrR rh hs' ∗ p ↦ b' ∗ Lost k) := by
  intro n
  induction n with
  | zero =>
    rintro w b hs ⟨t, n⟩ hn ht
    have hw : w = [] := by simpa using hn
    subst hw
    unfold lineLoop
    cases t with
    | some s => simp at ht
    | none =>
      refine Triple.pure (entails_ex_r hs (entails_ex_r b (entails_ex_r 0 (entails_pand_r ?_ ⟨rfl, rfl, rfl⟩))))
      rw [Lost_zero, sep_emp]; exact entails_refl _
  | succ n ih =>
    rintro w b hs ⟨t, m⟩ hn ht
    unfold lineLoop
    cases t with
    | none =>
      refine Triple.pure (entails_ex_r hs (entails_ex_r b (entails_ex_r 0 (entails_pand_r ?_ ?_))))
      · rw [Lost_zero, sep_emp]; exact entails_refl _
      · unfold linesOf
        rw [splitLines_step, if_pos ht]
        exact ⟨rfl, rfl, rfl⟩
    | some s =>
      obtain ⟨h1, h2, h3⟩ := ht
      dsimp only at h3 ⊢
      have hw : linesOf w = line1 w :: linesOf (rest1 w) := by
        unfold linesOf
        rw [splitLines_step, if_neg h1]
      rw [hw]
      cases e : line1 w with
      | nil => exact absurd e (line1_ne h1)
      | cons c l =>
        rw [e] at h2
        step (loadInt_spec (p := p) h2.byte)
        rw [if_neg h2.ne]
        step (takeLine_spec H (rh := rh) (p := p) (hs := hs) h2) into go
        intro hs1 ha
        unfold LineE at ha
        cases go with
        | true =>
          rw [if_pos rfl, if_pos rfl, Lost_zero, sep_emp]
          step (wcstok_spec (p := p) h3) into t
          intro b1 hb1
          refine (ih (rest1 w) b1 hs1 t (by have := rest1_lt h1; omega) hb1).conseq (by sep_cancel) fun r => ?_
          refine entails_ex_l fun hs' => entails_ex_l fun b' => entails_ex_l fun k => entails_pand_l fun h => entails_ex_r hs' (entails_ex_r b' (entails_ex_r k (entails_pand_r (entails_refl _) ?_)))
          unfold LinesE
          cases hn2 : W.narrow (c :: l) with
          | none => rw [hn2] at ha; rw [← ha.2]; exact h
          | some x =>
            rw [hn2] at ha
            dsimp only at ha ⊢
            rcases ha with ⟨hr, _, rfl⟩ | ha
            · exact .inl ⟨hr, h⟩
            · right
              split at ha
              · rename_i hc
                obtain ⟨r1, hE, hr1⟩ := ha
                rw [if_pos hc]
                exact ⟨r1, hs1, hE, by rw [if_pos (by simpa using hr1.symm)]; exact h⟩
              · rename_i hc
                rw [if_neg hc, ← ha.2]; exact h
        | false =>
          rw [if_neg (by simp), if_neg (by simp)]
          refine Triple.pure (entails_ex_r hs1 (entails_ex_r b (entails_ex_r 1 (entails_pand_r (by sep_cancel) ?_))))
          unfold LinesE
          cases hn2 : W.narrow (c :: l) with
          | none => rw [hn2] at ha; exact absurd ha.1 (by simp)
          | some x =>
            rw [hn2] at ha
            dsimp only at ha ⊢
            rcases ha with ⟨hr, h, _⟩ | ha
            · exact absurd h (by simp)
            · right
              split at ha
              · rename_i hc
                obtain ⟨r1, hE, hr1⟩ := ha
                rw [if_pos hc]
                exact ⟨r1, hs1, hE, by rw [if_neg (by simpa using hr1.symm)]; exact ⟨rfl, rfl, rfl⟩⟩
              · exact absurd ha.1 (by simp)

/-- a request in any state -/
def ReqR (Req : Nat → Nat → HProp) (q : Nat) : HProp := ∃∃ n, Req q n
theorem ReqR_eq {q : Nat} : ReqR Req q = ∃∃ n, Req q n := rfl

theorem readHeaders_spec (H : Honours rel lib W Net Sess Con Req) {q rh : Nat} {hs : Hdrs} {tr : List Ev} :
    Triple rel (Net tr ∗ ReqR Req q ∗ HdrR rh hs) (readHeaders lib q rh)
      (fun r => ∃∃ (hs' : Hdrs) (evs : List Ev) (k : Nat), (HeadersE rel W q hs r hs' evs k) ⋏ Net (tr ++ evs) ∗ ReqR Req q ∗ HdrR rh hs' ∗ Lost k) := by
  unfold readHeaders
  conv => arg 2; rw [ReqR_eq]
  hoist; intro n
  step (H.rawSize q n 8 tr) into len
  intro hlen m
  rw [Nat.mod_eq_of_lt hlen]
  refine Triple.mallocW (by omega) (fun hr => ?_) fun p hp hm => ?_
  · rw [if_pos rfl]
    refine Triple.pure (entails_ex_r hs (entails_ex_r [.rawSize q len] (entails_ex_r 0 (entails_pand_r ?_ ⟨len, .inl ⟨rfl, rfl, hr.resolve_right (by simp only [maxObj]; omega), rfl, rfl⟩⟩))))
    rw [Lost_zero, sep_emp]
    refine entails_trans (Q := Req q m ∗ (Net (tr ++ [.rawSize q len]) ∗ HdrR rh hs)) (by sep_cancel) (entails_trans (sep_mono (show Req q m ⊢ₕ ReqR Req q from entails_ex_r m (entails_refl _)) (entails_refl _)) (by sep_cancel))
  rw [if_neg hp]
  step (H.rawHeaders q m p (List.replicate ((len + 2) / 2) .undef) len _ (by simp; omega)) into good
  intro m2
  have opn : Req q m2 ⊢ₕ ReqR Req q := entails_ex_r m2 (entails_refl _)
  cases good with
  | false =>
    unfold RawR
    rw [if_neg (by simp), if_neg (by simp)]
    hoist; intro b
    step (free_spec (p := p))
    refine Triple.pure (entails_ex_r hs (entails_ex_r [.rawSize q len, .raw q none] (entails_ex_r 0 (entails_pand_r ?_ ⟨len, .inr (.inl ⟨rfl, rfl, rfl, rfl⟩)⟩))))
    rw [Lost_zero, sep_emp]
    simp only [List.append_assoc, List.cons_append, List.nil_append]
    refine entails_trans (Q := Req q m2 ∗ (Net (tr ++ [.rawSize q len, .raw q none]) ∗ HdrR rh hs)) (by sep_cancel) (entails_trans (sep_mono opn (entails_refl _)) (by sep_cancel))
  | true =>
    unfold RawR
    rw [if_pos rfl, if_pos rfl]
    hoist; intro w
    rw [WStr_eq]
    hoist; intro rest hz
    have hA : AtW (wideV w ++ .int 0 :: rest) 0 w := ⟨hz, rest, rfl⟩
    step (wcstok_spec (p := p) hA) into t
    intro b1 hb1
    step (lineLoop_spec H (rh := rh) (p := p) _ w b1 hs t (Nat.le_refl _) hb1) into r
    intro hs' b' k hL
    step (free_spec (p := p))
    refine Triple.pure (entails_ex_r hs' (entails_ex_r [.rawSize q len, .raw q (some w)] (entails_ex_r k (entails_pand_r ?_ ⟨len, .inr (.inr ⟨w, rfl, hL⟩)⟩))))
    simp only [List.append_assoc, List.cons_append, List.nil_append]
    refine entails_trans (Q := Req q m2 ∗ (Net (tr ++ [.rawSize q len, .raw q (some w)]) ∗ HdrR rh hs' ∗ Lost k)) (by sep_cancel) (entails_trans (sep_mono opn (entails_refl _)) (by sep_cancel))

/-! ## The body of the response -/

theorem size_at {h p m : Nat} : Triple rel (h ↦ [.ptr p, .int m]) (Buffer.BUFFER_size h true) (fun r => (r = (0, some m)) ⋏ h ↦ [.ptr p, .int m]) := by
  unfold Buffer.BUFFER_size
  refine Triple.know (know_pts (p := h) (φ := h ≠ 0) (R := emp) (sep_emp _).symm fun h1 _ => h1) fun hh => ?_
  rw [if_neg (by simp [hh])]
  stepd (loadInt_spec (p := h) (n := m) ?_)
  exact Triple.pure (entails_pand_r (by sep_cancel) rfl)

theorem clen_eq (c : Content) : clen c = (c.getD []).length := by cases c <;> rfl

/-- a piece of the body -/
def PieceE (rel : Prop) (q a : Nat) (c : Content) (r : Option Res) (c' : Content) (evs : List Ev) : Prop :=
  match r with
  | none => ∃ bs, bs ≠ [] ∧ bs.length ≤ a ∧ c' = grown c a bs ∧ evs = [.read q (some bs)]
  | some e => (e = .error ∧ c' = c ∧ evs = [] ∧ (¬ rel ∨ maxObj < (c.getD []).length + a)) ∨
    (e = .readDataFailed ∧ ((∃ tl : List Val, tl.length = a ∧ c' = some (c.getD [] ++ tl) ∧ evs = [.read q none]) ∨ (c' = grown c a [] ∧ evs = [.read q (some [])])))

theorem readPiece_spec (H : Honours rel lib W Net Sess Con Req) {q n b a : Nat} {c : Content} {tr : List Ev} (ha : a ≠ 0) (ha2 : a < 2 ^ 32) :
    Triple rel (Net tr ∗ Req q n ∗ OBuf b (some c)) (readPiece lib q b a)
      (fun r => ∃∃ (c' : Content) (evs : List Ev), (PieceE rel q a c r c' evs) ⋏ Net (tr ++ evs) ∗ Req q n ∗ OBuf b (some c')) := by
  unfold readPiece
  rw [Buffer.OBuf_some]
  refine Triple.know (Ex.know_Buf (b := b) (c := c) (by pick)) fun hc => ?_
  rw [← Buffer.OBuf_some]
  step (BUFFER_enlarge_spec_partial (rel := rel) (h := b) (a := some c) (n := a) (by
    intro c1 h1; cases h1; simp only [maxObj, szMod] at hc ⊢; omega)) into r
  intro a' hE
  rcases hE with ⟨h1, h2, c1, c2, h3, h4, h5⟩ | ⟨h1, h2, h3⟩
  · subst h1 h4 h5
    cases h3
    rw [if_neg (by simp)]
    step (BUFFER_content_spec (rel := rel) (h := b)) into x
    simp only [reduceCtorEq, false_or, Bool.true_eq_false, if_false]
    hoist; rintro p rfl
    dsimp only [BufAt]
    simp only [sep_assoc]
    step (size_at (h := b) (p := p) (m := (c.getD [] ++ List.replicate a Val.undef).length)) into y
    rintro rfl
    have e : (c.getD [] ++ List.replicate a Val.undef).length - a = (c.getD []).length := by simp
    have close : ∀ vs : List Val, vs.length = (c.getD [] ++ List.replicate a Val.undef).length → b ↦ [.ptr p, .int (c.getD [] ++ List.replicate a Val.undef).length] ∗ p ↦ vs ⊢ₕ OBuf b (some (some vs)) := by
      intro vs hv
      refine entails_trans ?_ (BufAt_OBuf (p := p))
      dsimp only [BufAt]
      rw [hv]; exact entails_refl _
    have hrd := H.readData q n p a (c.getD []) (List.replicate a .undef) tr (by simp)
    rw [← e] at hrd
    step hrd into z
    cases z with
    | none =>
      dsimp only [ReadR]
      hoist; intro tl htl
      refine Triple.pure (entails_ex_r (some (c.getD [] ++ tl)) (entails_ex_r [.read q none] (entails_pand_r ?_ (.inr ⟨rfl, .inl ⟨tl, htl, rfl, rfl⟩⟩))))
      refine entails_trans (Q := (b ↦ [.ptr p, .int (c.getD [] ++ List.replicate a Val.undef).length] ∗ p ↦ (c.getD [] ++ tl)) ∗ (Net (tr ++ [.read q none]) ∗ Req q n))
        (by simp only [sep_assoc]; sep_cancel) (entails_trans (sep_mono (close _ (by simp [htl])) (entails_refl _)) (by sep_cancel))
    | some k =>
      dsimp only [ReadR]
      hoist; intro bs hbs hka
      have eg : (c.getD [] ++ bytesV bs ++ (List.replicate a Val.undef).drop k) = c.getD [] ++ bytesV bs ++ List.replicate (a - bs.length) Val.undef := by
        rw [List.drop_replicate, hbs]
      rw [eg]
      have cl : Req q n ∗ b ↦ [.ptr p, .int (c.getD [] ++ List.replicate a Val.undef).length] ∗ Net (tr ++ [.read q (some bs)]) ∗ p ↦ (c.getD [] ++ bytesV bs ++ List.replicate (a - bs.length) Val.undef)
          ⊢ₕ Net (tr ++ [.read q (some bs)]) ∗ Req q n ∗ OBuf b (some (grown c a bs)) := by
        refine entails_trans (Q := (b ↦ [.ptr p, .int (c.getD [] ++ List.replicate a Val.undef).length] ∗ p ↦ (c.getD [] ++ bytesV bs ++ List.replicate (a - bs.length) Val.undef)) ∗ (Net (tr ++ [.read q (some bs)]) ∗ Req q n))
          (by simp only [sep_assoc]; sep_cancel) (entails_trans (sep_mono (close _ (by simp [bytesV]; omega)) (entails_refl _)) (by unfold grown; sep_cancel))
      refine Triple.ite (fun h0 => ?_) fun h0 => ?_
      · have hz : bs = [] := List.eq_nil_of_length_eq_zero (by omega)
        subst hz
        exact Triple.pure (entails_ex_r _ (entails_ex_r [.read q (some [])] (entails_pand_r (entails_trans (by sep_cancel) cl) (.inr ⟨rfl, .inr ⟨rfl, rfl⟩⟩))))
      · exact Triple.pure (entails_ex_r _ (entails_ex_r [.read q (some bs)] (entails_pand_r (entails_trans (by sep_cancel) cl) ⟨bs, by rintro rfl; simp at hbs; omega, by omega, rfl, rfl⟩)))
  · subst h2
    rw [if_pos h1]
    refine Triple.pure (entails_ex_r c (entails_ex_r [] (entails_pand_r (by rw [List.append_nil]; sep_cancel) (.inl ⟨rfl, rfl, rfl, ?_⟩))))
    rcases h3 with h3 | h3 | ⟨c1, h3, h4⟩
    · rcases h3 with h3 | h3
      · cases h3
      · omega
    · exact .inl h3
    · cases h3; rw [clen_eq] at h4; exact .inr h4

theorem readLoop_spec (H : Honours rel lib W Net Sess Con Req) {q b : Nat} : ∀ (n : Nat) (c : Content) (tr : List Ev),
    Triple rel (Net tr ∗ Req q n ∗ OBuf b (some c)) (readLoop lib q b)
      (fun r => ∃∃ (c' : Content) (evs : List Ev), (BodyE rel q c r c' evs) ⋏ Net (tr ++ evs) ∗ ReqR Req q ∗ OBuf b (some c')) := by
  intro n
  induction n using Nat.strongRecOn with
  | _ n ih =>
  intro c tr
  unfold readLoop
  step (H.queryDataAvailable q n tr) into x
  intro m hx
  have opn : Req q m ⊢ₕ ReqR Req q := entails_ex_r m (entails_refl _)
  have cl : ∀ {c' : Content} {tr : List Ev}, Net tr ∗ Req q m ∗ OBuf b (some c') ⊢ₕ Net tr ∗ ReqR Req q ∗ OBuf b (some c') :=
    sep_mono (entails_refl _) (sep_mono opn (entails_refl _))
  cases x with
  | none =>
    dsimp only
    exact Triple.pure (entails_ex_r c (entails_ex_r _ (entails_pand_r (entails_trans (by sep_cancel) cl) .failed)))
  | some a =>
    obtain ⟨ha2, hm⟩ := hx a rfl
    dsimp only
    refine Triple.ite (fun h0 => ?_) fun h0 => ?_
    · subst h0
      exact Triple.pure (entails_ex_r c (entails_ex_r _ (entails_pand_r (entails_trans (by sep_cancel) cl) .last)))
    · step (readPiece_spec H (q := q) (n := m) (b := b) (c := c) h0 ha2) into r
      intro c' evs hE
      cases r with
      | some e =>
        dsimp only
        refine Triple.pure (entails_ex_r c' (entails_ex_r (.avail q (some a) :: evs) (entails_pand_r (entails_trans ?_ cl) ?_)))
        · rw [List.append_assoc]; exact by sep_cancel
        · rcases hE with ⟨rfl, rfl, rfl, h⟩ | ⟨rfl, ⟨tl, htl, rfl, rfl⟩ | ⟨rfl, rfl⟩⟩
          · exact .full h0 h
          · exact .broken tl h0 htl
          · exact .nothing h0
      | none =>
        dsimp only
        obtain ⟨bs, hb0, hba, rfl, rfl⟩ := hE
        refine (ih m (hm h0) (grown c a bs) _).conseq (by sep_cancel) fun r => ?_
        refine entails_ex_l fun c' => entails_ex_l fun evs => entails_pand_l fun h => entails_ex_r c' (entails_ex_r (.avail q (some a) :: .read q (some bs) :: evs) (entails_pand_r ?_ (.piece hb0 hba h)))
        simp only [List.append_assoc, List.cons_append, List.nil_append]
        exact entails_refl _

/-- the body is stored; without a buffer it is read into one of its own -/
def ReadE (rel : Prop) (q : Nat) (a : Option Content) (r : Res) (a' : Option Content) (evs : List Ev) : Prop :=
  (a = none ∧ ¬ rel ∧ r = .error ∧ a' = none ∧ evs = []) ∨ ∃ c', BodyE rel q (a.getD none) r c' evs ∧ a' = a.map fun _ => c'

/-- the status is stored -/
theorem stat_then {α : Type} {st : Ptr} {s : Option Val} {v : Val} {m : M α} {P : HProp} {Q : α → HProp}
    (h : Triple rel (StatR st (s.map fun _ => v) ∗ P) m Q) : Triple rel (StatR st s ∗ P) (if st ≠ 0 then (do store st 0 v; m) else m) Q := by
  cases s with
  | none =>
    unfold StatR at h ⊢
    hoist; rintro rfl
    rw [if_neg (by simp)]
    exact Triple.pre h (by dsimp only [Option.map]; rw [pand_sep]; exact entails_pand_r (by sep_cancel) rfl)
  | some w =>
    rw [show StatR st (some w) = (st ↦ [w]) from rfl]
    refine Triple.know (know_pts (p := st) (φ := st ≠ 0) (by pick) fun h1 _ => h1) fun hst => ?_
    rw [if_pos hst]
    step (store_spec (p := st) (b := [w]) (off := 0) (v := v) (by simp))
    exact Triple.pre h (entails_refl _)

theorem readBody_spec (H : Honours rel lib W Net Sess Con Req) {q code : Nat} {st rc : Ptr} {s : Option Val} {a : Option Content} {tr : List Ev} :
    Triple rel (Net tr ∗ ReqR Req q ∗ StatR st s ∗ OBuf rc a) (readBody lib q code st rc)
      (fun r => ∃∃ (a' : Option Content) (evs : List Ev), (ReadE rel q a r a' evs) ⋏
        Net (tr ++ evs) ∗ ReqR Req q ∗ StatR st (s.map fun _ => .int code) ∗ OBuf rc a') := by
  unfold readBody
  refine Triple.know (Mb.know_OBuf (b := rc) (a := a) (by pick)) fun k => ?_
  conv => arg 2; rw [ReqR_eq]
  hoist; intro n
  cases a with
  | none =>
    rw [if_neg (by simpa using k.2 rfl)]
    have hz : rc = 0 := k.2 rfl
    subst hz
    rw [Buffer.OBuf_null]
    step BUFFER_new_spec into b
    refine Triple.pre (?_ : Triple rel (StatR st s ∗ (Net tr ∗ Req q n ∗ if b = 0 then ((¬ rel) ⋏ emp) else Buf b none)) _ _) (by sep_cancel)
    refine stat_then ?_
    unfold readBody.finish
    refine Triple.ite (fun hb => ?_) fun hb => ?_
    · subst hb
      rw [if_pos rfl]
      hoist; intro hr
      refine Triple.pure (entails_ex_r none (entails_ex_r [] (entails_pand_r ?_ (.inl ⟨rfl, hr, rfl, rfl, rfl⟩))))
      rw [List.append_nil, Buffer.OBuf_null]
      refine entails_trans (Q := Req q n ∗ (Net tr ∗ StatR st (s.map fun _ => .int code))) (by sep_cancel)
        (entails_trans (sep_mono (show Req q n ⊢ₕ ReqR Req q from entails_ex_r n (entails_refl _)) (entails_refl _)) (by sep_cancel))
    · rw [if_neg hb, ← Buffer.OBuf_some]
      step (readLoop_spec H (q := q) (b := b) n none tr) into r
      intro c' evs hE
      rw [if_neg (by simp)]
      step (BUFFER_delete_spec (rel := rel) (h := b))
      refine Triple.pure (entails_ex_r none (entails_ex_r evs (entails_pand_r ?_ (.inr ⟨c', hE, rfl⟩))))
      rw [Buffer.OBuf_null]
      sep_cancel
  | some c =>
    have hz : rc ≠ 0 := fun h => by have := k.1 h; cases this
    rw [if_pos hz]
    refine Triple.pre (?_ : Triple rel (StatR st s ∗ (Net tr ∗ Req q n ∗ OBuf rc (some c))) _ _) (by sep_cancel)
    refine stat_then ?_
    unfold readBody.finish
    rw [if_neg hz]
    step (readLoop_spec H (q := q) (b := rc) n c tr) into r
    intro c' evs hE
    rw [if_pos hz]
    exact Triple.pure (entails_ex_r (some c') (entails_ex_r evs (entails_pand_r (by sep_cancel) (.inr ⟨c', hE, rfl⟩))))

/-! ## The response -/

theorem receiveResponse_c (H : Honours rel lib W Net Sess Con Req) {q : Nat} {tr : List Ev} :
    Triple rel (Net tr ∗ ReqR Req q) (lib.receiveResponse q) (fun r => Net (tr ++ [.receive q r]) ∗ ReqR Req q) := by
  rw [ReqR_eq]; hoist; intro n; exact H.receiveResponse q n tr
theorem queryStatus_c (H : Honours rel lib W Net Sess Con Req) {q : Nat} {tr : List Ev} :
    Triple rel (Net tr ∗ ReqR Req q) (lib.queryStatus q) (fun r => Net (tr ++ [.status q r]) ∗ ReqR Req q) := by
  rw [ReqR_eq]; hoist; intro n; exact H.queryStatus q n tr

theorem receive_spec (H : Honours rel lib W Net Sess Con Req) {q : Nat} {st rh rc : Ptr} {x : Args} {tr : List Ev} :
    Triple rel (Net tr ∗ ReqR Req q ∗ OutX st rh rc x) (receive lib q st rh rc)
      (fun r => ∃∃ (x' : Args) (evs : List Ev) (k : Nat), (ReceiveE rel W q x r x' evs k) ⋏ Net (tr ++ evs) ∗ ReqR Req q ∗ OutX st rh rc x' ∗ Lost k) := by
  unfold receive
  step (receiveResponse_c H (q := q) (tr := tr)) into good
  refine Triple.ite (fun hg => ?_) fun hg => ?_
  · subst hg
    refine Triple.pure (entails_ex_r x (entails_ex_r _ (entails_ex_r 0 (entails_pand_r ?_ (.inl ⟨rfl, rfl, rfl, rfl⟩)))))
    rw [Lost_zero, sep_emp]; sep_cancel
  have hg : good = true := by simpa using hg
  subst hg
  step (queryStatus_c H (q := q)) into s
  cases s with
  | none =>
    dsimp only
    refine Triple.pure (entails_ex_r x (entails_ex_r [.receive q true, .status q none] (entails_ex_r 0 (entails_pand_r ?_ (.inr (.inl ⟨rfl, rfl, rfl, rfl⟩))))))
    rw [Lost_zero, sep_emp, List.append_assoc]; exact by sep_cancel
  | some code =>
    dsimp only
    rw [OutX_eq]
    refine Triple.know (know_OHdr (h := rh) (a := x.rhdrs) (by pick)) fun k3 => ?_
    step (readBody_spec H (q := q) (code := code) (st := st) (rc := rc) (s := x.status) (a := x.rcontent)) into r
    intro a' evs hR
    refine Triple.ite (fun hb => ?_) fun hb => ?_
    · obtain ⟨rfl, hrh⟩ := hb
      obtain ⟨hs, hhs⟩ : ∃ hs, x.rhdrs = some hs := by
        cases h : x.rhdrs with
        | none => exact absurd (k3.2 h) hrh
        | some hs => exact ⟨hs, rfl⟩
      rw [hhs, OHdr, ORep_some]
      rcases hR with ⟨_, _, hh, _⟩ | ⟨c', hB, rfl⟩
      · cases hh
      refine Triple.last (readHeaders_spec H (q := q) (rh := rh) (hs := hs) (tr := tr ++ [.receive q true] ++ [.status q (some code)] ++ evs)) (by fr) fun r2 => ?_
      simp only [hex_sep, pand_sep]
      refine entails_ex_l fun hs' => entails_ex_l fun evs2 => entails_ex_l fun k => entails_pand_l fun hH => ?_
      refine entails_ex_r { x with status := x.status.map (fun _ => .int code), rcontent := x.rcontent.map (fun _ => c'), rhdrs := some hs' }
        (entails_ex_r (.receive q true :: .status q (some code) :: (evs ++ evs2)) (entails_ex_r k (entails_pand_r ?_ ?_)))
      · rw [OutX_eq, OHdr, ORep_some]
        simp only [List.append_assoc, List.cons_append, List.nil_append, sep_assoc]
        sep_cancel
      · exact .inr (.inr ⟨code, _, .inr ⟨_, c', evs, hB, .inr ⟨rfl, hs, hs', evs2, hhs, hH, rfl, rfl⟩⟩, rfl⟩)
    · refine Triple.pure (entails_ex_r { x with status := x.status.map (fun _ => .int code), rcontent := a' }
        (entails_ex_r (.receive q true :: .status q (some code) :: evs) (entails_ex_r 0 (entails_pand_r ?_ ?_))))
      · rw [Lost_zero, sep_emp, OutX_eq]
        simp only [List.append_assoc, List.cons_append, List.nil_append, sep_assoc]
        sep_cancel
      · refine .inr (.inr ⟨code, evs, ?_, rfl⟩)
        rcases hR with ⟨h1, h2, rfl, rfl, rfl⟩ | ⟨c', hB, rfl⟩
        · exact .inl ⟨h1, h2, rfl, by rw [h1], rfl, rfl⟩
        · refine .inr ⟨r, c', evs, hB, .inl ⟨?_, rfl, rfl, rfl, rfl⟩⟩
          by_cases hr : r = .ok
          · exact .inr (k3.1 (Decidable.not_not.1 fun h => hb ⟨hr, h⟩))
          · exact .inl hr

end Verif.Wh
