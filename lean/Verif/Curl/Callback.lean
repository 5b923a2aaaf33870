import Verif.Curl.Props
/-! # The callbacks of `httpapi_curl.c`: response headers and response body -/
set_option linter.unusedSimpArgs false
set_option linter.unusedVariables false
namespace Verif.Curl
open Verif.Headers Verif.Buffer Verif.Crt
open Verif.Sas (text)
variable {rel : Prop} {lib : Lib} {Net : List Ev → HProp} {Global : HProp} {Easy : Nat → HProp} {Slist : Nat → List Text → HProp}
  {Busy : Nat → Transfer → Nat → HProp}

/-! ## `strtok` -/

/-- from position `i` the block reads as `w` -/
def At (b : Block) (i : Nat) (w : Text) : Prop := NoNul w ∧ ∃ tail, b.drop i = bytesV w ++ .byte 0 :: tail

theorem At.nul {b : Block} {i : Nat} (h : At b i []) : b[i]? = some (.byte 0) := by
  obtain ⟨_, tail, h⟩ := h
  have := congrArg (·[0]?) h
  simpa [List.getElem?_drop, bytesV] using this
theorem At.byte {b : Block} {i : Nat} {c : UInt8} {w : Text} (h : At b i (c :: w)) : b[i]? = some (.byte c) := by
  obtain ⟨_, tail, h⟩ := h
  have := congrArg (·[0]?) h
  simpa [List.getElem?_drop, bytesV] using this
theorem At.next {b : Block} {i : Nat} {c : UInt8} {w : Text} (h : At b i (c :: w)) : At b (i + 1) w := by
  obtain ⟨hn, tail, h⟩ := h
  refine ⟨fun hx => hn (by simp [hx]), tail, ?_⟩
  have := congrArg (List.drop 1) h
  simpa [List.drop_drop, bytesV] using this
theorem At.skip {b : Block} {i : Nat} {u w : Text} (h : At b i (u ++ w)) : At b (i + u.length) w := by
  induction u generalizing i with
  | nil => simpa using h
  | cons c u ih =>
    have := ih (i := i + 1) (At.next h)
    simpa [Nat.add_assoc, Nat.add_comm 1] using this
theorem At.ne {b : Block} {i : Nat} {c : UInt8} {w : Text} (h : At b i (c :: w)) : c ≠ 0 := fun hc => h.1 (by simp [hc])
theorem At.nonul {b : Block} {i : Nat} {w : Text} (h : At b i w) : NoNul w := h.1
theorem At.lt {b : Block} {i : Nat} {w : Text} (h : At b i w) : i + w.length < b.length := by
  obtain ⟨_, tail, h⟩ := h
  have := congrArg List.length h
  simp [bytesV] at this; omega
theorem At.cstr {b : Block} {i : Nat} {w : Text} (h : At b i w) : cstrV (b.drop i) = some w := by
  obtain ⟨hn, tail, h⟩ := h
  rw [h]; exact cstrV_bytes hn _
/-- a store before the position changes nothing -/
theorem At.set_lt {b : Block} {i j : Nat} {v : Val} {w : Text} (h : At b i w) (hj : j < i) : At (b.set j v) i w := by
  refine ⟨h.1, h.2.imp fun tail h => ?_⟩
  rw [List.drop_set, if_pos hj, h]
/-- a NUL ends the text -/
theorem At.cut {b : Block} {i : Nat} {u w : Text} (h : At b i (u ++ w)) : At (b.set (i + u.length) (.byte 0)) i u := by
  refine ⟨fun hx => h.1 (by simp [hx]), ?_⟩
  obtain ⟨_, tail, h⟩ := h
  rw [List.drop_set, if_neg (by omega), h, show i + u.length - i = u.length by omega]
  cases w with
  | nil => exact ⟨tail, by simp [bytesV]⟩
  | cons c w => exact ⟨bytesV w ++ .byte 0 :: tail, by simp [bytesV]⟩

theorem skipDelims_spec {p : Ptr} {b : Block} : ∀ (w : Text) (i : Nat), At b i w →
    Triple rel (p ↦ b) (skipDelims p i) (fun r => (At b r (w.dropWhile isDelim)) ⋏ p ↦ b) := by
  intro w
  induction w with
  | nil =>
    intro i h
    unfold skipDelims
    step (loadByte_spec (p := p) h.nul)
    rw [if_neg (by decide)]
    exact Triple.pure (entails_pand_r (entails_refl _) h)
  | cons c w ih =>
    intro i h
    unfold skipDelims
    step (loadByte_spec (p := p) h.byte)
    cases hd : isDelim c with
    | true =>
      rw [if_pos rfl, List.dropWhile_cons_of_pos (by simpa using hd)]
      exact ih (i + 1) h.next
    | false =>
      rw [if_neg (by simp), List.dropWhile_cons_of_neg (by simp [hd])]
      exact Triple.pure (entails_pand_r (entails_refl _) h)

/-- no delimiter -/
def plain (c : UInt8) : Bool := !isDelim c

theorem tokenEnd_spec {p : Ptr} {b : Block} : ∀ (w : Text) (i : Nat), At b i w →
    Triple rel (p ↦ b) (tokenEnd p i) (fun r => (r = i + (w.takeWhile plain).length) ⋏ p ↦ b) := by
  intro w
  induction w with
  | nil =>
    intro i h
    unfold tokenEnd
    step (loadByte_spec (p := p) h.nul)
    rw [if_pos (by simp)]
    exact Triple.pure (entails_pand_r (entails_refl _) (by simp))
  | cons c w ih =>
    intro i h
    unfold tokenEnd
    step (loadByte_spec (p := p) h.byte)
    have hc : c ≠ 0 := h.ne
    cases hd : isDelim c with
    | true =>
      rw [if_pos (by simp), List.takeWhile_cons_of_neg (by simp [plain, hd])]
      exact Triple.pure (entails_pand_r (entails_refl _) (by simp))
    | false =>
      rw [if_neg (by simp [hc]), List.takeWhile_cons_of_pos (by simp [plain, hd])]
      refine (ih (i + 1) h.next).conseq (entails_refl _) fun r => entails_pand_l fun hr => entails_pand_r (entails_refl _) ?_
      rw [hr]; simp; omega

/-- the first line and the rest after its delimiter -/
def line1 (w : Text) : Text := (w.dropWhile isDelim).takeWhile plain
def rest1 (w : Text) : Text := ((w.dropWhile isDelim).dropWhile plain).drop 1

theorem strtok_spec {p : Ptr} {b : Block} {w : Text} {i : Nat} (h : At b i w) :
    Triple rel (p ↦ b) (strtok p i) (fun r => ∃∃ b' : Block,
      (match r.1 with
        | none => w.dropWhile isDelim = []
        | some s => w.dropWhile isDelim ≠ [] ∧ At b' s (line1 w) ∧ At b' r.2 (rest1 w)) ⋏ p ↦ b') := by
  unfold strtok
  step (skipDelims_spec (p := p) w i h) into s
  intro hs
  cases e : w.dropWhile isDelim with
  | nil =>
    rw [e] at hs
    step (loadByte_spec (p := p) hs.nul)
    rw [if_pos rfl]
    exact Triple.pure (entails_ex_r b (entails_pand_r (entails_refl _) rfl))
  | cons c w' =>
    rw [e] at hs
    step (loadByte_spec (p := p) hs.byte)
    rw [if_neg hs.ne]
    step (tokenEnd_spec (p := p) (c :: w') s hs)
    have e2 := (List.takeWhile_append_dropWhile (p := plain) (l := c :: w'))
    have h2 := hs
    rw [← e2] at h2
    cases e3 : (c :: w').dropWhile plain with
    | nil =>
      rw [e3, List.append_nil] at h2
      have h3 := h2
      rw [← List.append_nil (List.takeWhile _ _)] at h3
      step (loadByte_spec (p := p) (h3.skip).nul)
      rw [if_pos rfl]
      refine Triple.pure (entails_ex_r b (entails_pand_r (entails_refl _) ⟨by simp, ?_, ?_⟩))
      · unfold line1; rw [e]; exact h2
      · unfold rest1; rw [e, e3]; exact h3.skip
    | cons d w2 =>
      rw [e3] at h2
      have h4 := h2.skip
      step (loadByte_spec (p := p) h4.byte)
      rw [if_neg h4.ne]
      step (store_spec (p := p) (b := b) (by have := h4.lt; omega))
      refine Triple.pure (entails_ex_r _ (entails_pand_r (entails_refl _) ⟨by simp, ?_, ?_⟩))
      · unfold line1; rw [e]; exact h2.cut
      · unfold rest1; rw [e, e3]; exact h4.next.set_lt (by omega)

theorem strchr_spec {p : Ptr} {b : Block} {ch : UInt8} (hz : ch ≠ 0) : ∀ (w : Text) (i : Nat), At b i w →
    Triple rel (p ↦ b) (strchr p ch i) (fun r => (r = if ch ∈ w then some (i + (w.takeWhile (· ≠ ch)).length) else none) ⋏ p ↦ b) := by
  intro w
  induction w with
  | nil =>
    intro i h
    unfold strchr
    step (loadByte_spec (p := p) h.nul)
    rw [if_neg (Ne.symm hz), if_pos rfl]
    exact Triple.pure (entails_pand_r (entails_refl _) (by simp))
  | cons c w ih =>
    intro i h
    unfold strchr
    step (loadByte_spec (p := p) h.byte)
    by_cases hc : c = ch
    · subst hc
      rw [if_pos rfl]
      exact Triple.pure (entails_pand_r (entails_refl _) (by simp))
    · rw [if_neg hc, if_neg h.ne]
      refine (ih (i + 1) h.next).conseq (entails_refl _) fun r => entails_pand_l fun hr => entails_pand_r (entails_refl _) ?_
      rw [hr, List.takeWhile_cons_of_pos (by simp [hc])]
      simp only [List.mem_cons, Ne.symm hc, false_or, List.length_cons]
      split <;> simp; omega

/-! ## one line -/

/-- the header in a line -/
def headerOf (l : Text) : Option (Text × Text) :=
  if 58 ∈ l then some (l.takeWhile (· ≠ 58), (l.dropWhile (· ≠ 58)).drop 1) else none

theorem split_colon {l : Text} (h : 58 ∈ l) : l = l.takeWhile (· ≠ 58) ++ 58 :: (l.dropWhile (· ≠ 58)).drop 1 := by
  induction l with
  | nil => simp at h
  | cons c l ih =>
    by_cases hc : c = 58
    · subst hc; simp
    · rw [List.takeWhile_cons_of_pos (by simp [hc]), List.dropWhile_cons_of_pos (by simp [hc]), List.cons_append, ← ih (by simpa [Ne.symm hc] using h)]

theorem addLine_spec {h p s : Ptr} {b : Block} {l : Text} {hs : Hdrs} (hl : At b s l) :
    Triple rel (HdrR h hs ∗ p ↦ b) (addLine h p s)
      (fun _ => ∃∃ hs' : Hdrs, (Absorbs rel (headerOf l).toList hs hs') ⋏ HdrR h hs' ∗ p ↦ b) := by
  unfold addLine
  step (strchr_spec (p := p) (ch := 58) (by decide) l s hl)
  by_cases hc : 58 ∈ l
  · rw [if_pos hc]
    have e := split_colon hc
    obtain ⟨n, hn⟩ : ∃ n, n = l.takeWhile (· ≠ 58) := ⟨_, rfl⟩
    obtain ⟨v, hv⟩ : ∃ v, v = (l.dropWhile (· ≠ 58)).drop 1 := ⟨_, rfl⟩
    rw [← hn, ← hv] at e
    rw [← hn]
    have eh : headerOf l = some (n, v) := by unfold headerOf; rw [if_pos hc, hn, hv]
    rw [eh]
    have h1 := hl
    rw [e] at h1
    have hlt : s + n.length < b.length := by have := h1.lt; simp at this; omega
    step (store_spec (p := p) (b := b) (v := .byte 0) hlt)
    have hv1 : At (b.set (s + n.length) (.byte 0)) (s + n.length + 1) v := h1.skip.next.set_lt (by omega)
    have P : Pair (p ↦ b.set (s + n.length) (.byte 0)) (.heap p s) n (.heap p (s + n.length + 1)) v :=
      Pair.pts (by have := h1.cut.lt; omega) h1.cut.cstr (by have := hv1.lt; omega) hv1.cstr
    step (store_header_pair (h := h) (hs := hs) P (replace := false)) into r
    intro hs' he
    last (store_spec (p := p) (b := b.set (s + n.length) (.byte 0)) (v := .byte 58) (by simpa using hlt))
    refine entails_ex_r hs' (entails_pand_r ?_ (.cons he .nil))
    rw [List.set_set]
    have : b.set (s + n.length) (.byte 58) = b := by
      have := h1.skip.byte
      obtain ⟨h3, h4⟩ := List.getElem?_eq_some_iff.1 this
      rw [← h4]; exact List.set_getElem_self h3
    rw [this]
    sep_cancel
  · rw [if_neg hc]
    refine Triple.pure (entails_ex_r hs (entails_pand_r (by sep_cancel) ?_))
    unfold headerOf
    rw [if_neg hc]
    exact .nil

/-! ## all lines -/

theorem plain_of {c : UInt8} (h : ¬ (c = 13 ∨ c = 10)) : isDelim c = false := by
  simp only [not_or] at h
  simp [isDelim, h.1, h.2]

theorem splitLines_acc {acc w : Text} : splitLines acc w =
    (if acc ++ w.takeWhile plain = [] then [] else [acc ++ w.takeWhile plain]) ++ splitLines [] ((w.dropWhile plain).drop 1) := by
  induction w generalizing acc with
  | nil => cases acc <;> simp [splitLines]
  | cons c w ih =>
    by_cases hc : c = 13 ∨ c = 10
    · have hp : plain c = false := by rcases hc with rfl | rfl <;> decide
      rw [splitLines, if_pos hc, List.takeWhile_cons_of_neg (by simp [hp]), List.dropWhile_cons_of_neg (by simp [hp])]
      cases acc <;> simp
    · have hp : plain c = true := by simp [plain, plain_of hc]
      rw [splitLines, if_neg hc, List.takeWhile_cons_of_pos hp, List.dropWhile_cons_of_pos hp, ih]
      simp

theorem splitLines_step {w : Text} : splitLines [] w = if w.dropWhile isDelim = [] then [] else line1 w :: splitLines [] (rest1 w) := by
  induction w with
  | nil => simp [splitLines]
  | cons c w ih =>
    by_cases hc : c = 13 ∨ c = 10
    · have hp : isDelim c = true := by rcases hc with rfl | rfl <;> decide
      rw [splitLines, if_pos hc, if_pos rfl, ih]
      unfold line1 rest1
      rw [List.dropWhile_cons_of_pos hp]
    · have hp := plain_of hc
      have e : (c :: w).dropWhile isDelim = c :: w := List.dropWhile_cons_of_neg (by simp [hp])
      have e2 : (c :: w).takeWhile plain ≠ [] := by rw [List.takeWhile_cons_of_pos (by simp [plain, hp])]; simp
      rw [splitLines_acc]
      unfold line1 rest1
      rw [e, List.nil_append, if_neg e2, if_neg (by simp)]
      rfl

/-- the headers in a text without NUL -/
def headersIn (w : Text) : List (Text × Text) := (splitLines [] w).filterMap headerOf

theorem Absorbs.append {l1 l2 : List (Text × Text)} {a b c : Hdrs} (h1 : Absorbs rel l1 a b) (h2 : Absorbs rel l2 b c) : Absorbs rel (l1 ++ l2) a c := by
  induction h1 with
  | nil => exact h2
  | cons h _ ih => exact .cons h (ih h2)

theorem rest1_lt {w : Text} (h : w.dropWhile isDelim ≠ []) : (rest1 w).length < w.length := by
  have h1 : (w.dropWhile isDelim).length ≤ w.length := (List.dropWhile_suffix _).sublist.length_le
  have h2 : ((w.dropWhile isDelim).dropWhile plain).length ≤ (w.dropWhile isDelim).length := (List.dropWhile_suffix _).sublist.length_le
  have h3 : (w.dropWhile isDelim).length ≠ 0 := by simpa using h
  unfold rest1
  rw [List.length_drop]
  omega

theorem line1_ne {w : Text} (h : w.dropWhile isDelim ≠ []) : line1 w ≠ [] := by
  unfold line1
  have := List.head_dropWhile_not isDelim h
  cases e : w.dropWhile isDelim with
  | nil => exact absurd e h
  | cons c w' =>
    simp only [e, List.head_cons] at this
    rw [List.takeWhile_cons_of_pos (by simp [plain, this])]; simp

/-- the tokens found so far are handed over; `t` is what `strtok` has just returned for the text `w` -/
theorem tokenLoop_spec {h p : Ptr} : ∀ (n : Nat) (w : Text) (b : Block) (hs : Hdrs) (t : Option Nat × Nat), w.length ≤ n →
    (match t.1 with
        | none => w.dropWhile isDelim = []
        | some s => w.dropWhile isDelim ≠ [] ∧ At b s (line1 w) ∧ At b t.2 (rest1 w)) →
    Triple rel (HdrR h hs ∗ p ↦ b) (tokenLoop h p t)
      (fun _ => ∃∃ (hs' : Hdrs) (b' : Block), (Absorbs rel (headersIn w) hs hs') ⋏ HdrR h hs' ∗ p ↦ b') := by
  intro n
  induction n with
  | zero =>
    rintro w b hs ⟨t, n⟩ hn ht
    have hw : w = [] := by simpa using hn
    subst hw
    unfold tokenLoop
    cases t with
    | some s => simp at ht
    | none => exact Triple.pure (entails_ex_r hs (entails_ex_r b (entails_pand_r (entails_refl _) .nil)))
  | succ n ih =>
    rintro w b hs ⟨t, m⟩ hn ht
    unfold tokenLoop
    cases t with
    | none =>
      refine Triple.pure (entails_ex_r hs (entails_ex_r b (entails_pand_r (entails_refl _) ?_)))
      unfold headersIn
      rw [splitLines_step, if_pos ht]
      exact .nil
    | some s =>
      obtain ⟨h1, h2, h3⟩ := ht
      dsimp only at h3 ⊢
      have hw : headersIn w = (headerOf (line1 w)).toList ++ headersIn (rest1 w) := by
        unfold headersIn
        rw [splitLines_step, if_neg h1, List.filterMap_cons]
        cases headerOf (line1 w) <;> rfl
      rw [hw]
      cases e : line1 w with
      | nil => exact absurd e (line1_ne h1)
      | cons c l =>
        rw [e] at h2
        step (loadByte_spec (p := p) h2.byte)
        rw [if_pos h2.ne]
        step (addLine_spec (h := h) (p := p) (hs := hs) h2)
        intro hs1 ha
        step (strtok_spec (p := p) h3) into t
        intro b1 hb1
        refine (ih (rest1 w) b1 hs1 t (by have := rest1_lt h1; omega) hb1).conseq (by sep_cancel) fun _ => ?_
        refine entails_ex_l fun hs' => entails_ex_l fun b' => entails_pand_l fun h => entails_ex_r hs' (entails_ex_r b' (entails_pand_r (entails_refl _) ?_))
        exact ha.append h

theorem headersOf_eq (bs : Text) : headersOf bs = headersIn (bs.takeWhile (· ≠ 0)) := rfl

theorem At_start (bs : Text) (tail : List Val) : At (bytesV bs ++ .byte 0 :: tail) 0 (bs.takeWhile (· ≠ 0)) := by
  refine ⟨fun hx => ?_, ?_⟩
  · have := List.all_takeWhile (l := bs) (p := fun c => decide (c ≠ 0))
    rw [List.all_eq_true] at this
    simpa using this 0 hx
  rw [List.drop_zero]
  induction bs with
  | nil => exact ⟨tail, rfl⟩
  | cons c bs ih =>
    by_cases hc : c = 0
    · subst hc
      rw [List.takeWhile_cons_of_neg (by simp)]
      exact ⟨bytesV bs ++ .byte 0 :: tail, rfl⟩
    · rw [List.takeWhile_cons_of_pos (by simp [hc])]
      obtain ⟨t, ht⟩ := ih
      exact ⟨t, by simp only [bytesV, List.map_cons, List.cons_append] at ht ⊢; rw [ht]⟩

/-- a piece of header: the headers in it are added -/
theorem HeadersWriteFunction_spec {h p : Ptr} {size nmemb : Nat} {bs : Text} {tail : List Val} {hs : Hdrs} (hn : size * nmemb = bs.length) :
    Triple rel (HdrR h hs ∗ p ↦ (bytesV bs ++ .byte 0 :: tail)) (HeadersWriteFunction p size nmemb h)
      (fun r => ∃∃ (hs' : Hdrs) (b' : Block), (r = size * nmemb ∧ Absorbs rel (headersOf bs) hs hs') ⋏ HdrR h hs' ∗ p ↦ b') := by
  unfold HeadersWriteFunction
  refine Triple.know (know_pts (p := p) (φ := p ≠ 0 ∧ bs.length < maxObj) (by pick) fun h1 h2 => ⟨h1, by simp [bytesV] at h2; omega⟩) fun hp => ?_
  rw [if_pos hp.1]
  step (strtok_spec (p := p) (At_start bs tail)) into t
  intro b1 hb1
  step (tokenLoop_spec (h := h) (p := p) _ (bs.takeWhile (· ≠ 0)) b1 hs t (Nat.le_refl _) hb1)
  intro hs' b' ha
  refine Triple.pure (entails_ex_r hs' (entails_ex_r b' (entails_pand_r (entails_refl _) ⟨?_, by rw [headersOf_eq]; exact ha⟩)))
  rw [hn, Nat.mod_eq_of_lt]
  have := hp.2
  simp only [maxObj, szMod] at *; omega

/-! ## the body -/

/-- where the response body is collected: what has arrived; `true`: there was no memory for it -/
def CollR (rel : Prop) (rcb : Ptr) (got : Text) : Bool → HProp
  | false => ∃∃ b : Nat, rcb ↦ [.ptr b, .int got.length, .int 0] ∗ (if got = [] then ((b = 0) ⋏ emp) else b ↦ bytesV got)
  | true => (got ≠ [] ∧ ¬ rel) ⋏ rcb ↦ [.ptr 0, .int 0, .int 1]

theorem CollR_false {rcb : Ptr} {got : Text} : CollR rel rcb got false =
  ∃∃ b : Nat, rcb ↦ [.ptr b, .int got.length, .int 0] ∗ (if got = [] then ((b = 0) ⋏ emp) else b ↦ bytesV got) := rfl
theorem CollR_true {rcb : Ptr} {got : Text} : CollR rel rcb got true = ((got ≠ [] ∧ ¬ rel) ⋏ rcb ↦ [.ptr 0, .int 0, .int 1]) := rfl

theorem know_CollR {rcb : Ptr} {got : Text} {e : Bool} {P F : HProp} (pk : Pick P (CollR rel rcb got e) F) : ∀ h, P h → rcb ≠ 0 := by
  intro h hp
  unfold Pick at pk; rw [pk] at hp
  cases e with
  | false =>
    rw [CollR_false, hex_sep] at hp
    obtain ⟨b, hp⟩ := hp
    obtain ⟨_, _, _, _, ⟨_, _, _, _, hp, _⟩, _⟩ := hp
    exact hp.1
  | true =>
    rw [CollR_true, pand_sep] at hp
    obtain ⟨_, _, _, _, _, hp, _⟩ := hp
    exact hp.1

theorem ContentWriteFunction_spec {p rcb : Ptr} {size nmemb : Nat} {bs got : Text} {tail : List Val} {e : Bool} (hn : size * nmemb = bs.length)
    (hroom : Room rel got bs) :
    Triple rel (CollR rel rcb got e ∗ p ↦ (bytesV bs ++ tail)) (ContentWriteFunction p size nmemb rcb)
      (fun r => ∃∃ e' : Bool, (r = size * nmemb) ⋏ CollR rel rcb (got ++ bs) e' ∗ p ↦ (bytesV bs ++ tail)) := by
  unfold ContentWriteFunction
  refine Triple.know (know_pts (p := p) (φ := p ≠ 0 ∧ bs.length ≤ maxObj) (by pick) fun h1 h2 => ⟨h1, by simp [bytesV] at h2; omega⟩) fun hp => ?_
  refine Triple.know (know_CollR (rcb := rcb) (by pick)) fun hr0 => ?_
  have hmod : (size * nmemb) % szMod = bs.length := by
    rw [hn, Nat.mod_eq_of_lt]
    have := hp.2; simp only [maxObj, szMod] at *; omega
  rw [hmod, hn]
  cases bs with
  | nil =>
    rw [if_neg (by simp)]
    refine Triple.pure (entails_ex_r e (entails_pand_r ?_ rfl))
    rw [List.append_nil]; exact entails_refl _
  | cons c cs =>
    rw [if_pos ⟨hr0, hp.1, by simp⟩]
    cases e with
    | true =>
      rw [CollR_true]; hoist; intro h1 h2
      rcases hroom with h | h | h
      · simp at h
      · exact absurd h h1
      · exact absurd h.1 h2
    | false =>
      rw [CollR_false]; hoist; intro b
      stepd (loadPtr_spec (p := rcb) (q := b) ?_)
      stepd (loadInt_spec (p := rcb) (n := got.length) ?_)
      obtain ⟨n, hn'⟩ : ∃ n, n = (c :: cs).length := ⟨_, rfl⟩
      rw [← hn']
      have hn0 : 0 < n := by rw [hn']; simp
      have ok : ∀ {q : Ptr}, q ≠ 0 → got.length + n ≤ maxObj →
          Triple rel (q ↦ (bytesV got ++ List.replicate n .undef) ∗ rcb ↦ [.ptr b, .int got.length, .int 0] ∗ p ↦ (bytesV (c :: cs) ++ tail))
            (if q ≠ 0 then do
              store rcb gBuffer (.ptr q)
              let b ← loadPtr rcb gBuffer
              let have_ ← loadInt rcb gSize
              memcpy b have_ (.heap p 0) n
              store rcb gSize (.int ((have_ + n) % szMod))
              pure n
            else do
              store rcb gError (.int 1)
              let b ← loadPtr rcb gBuffer
              if b ≠ 0 then do
                free b
                pure n
              else pure n)
            (fun r => ∃∃ e' : Bool, (r = n) ⋏ CollR rel rcb (got ++ c :: cs) e' ∗ p ↦ (bytesV (c :: cs) ++ tail)) := by
        intro q hq hm
        rw [if_pos hq]
        step (store_spec (p := rcb) ?_)
        stepd (loadPtr_spec (p := rcb) (q := q) ?_)
        stepd (loadInt_spec (p := rcb) (n := got.length) ?_)
        have hcp := memcpy_heap (rel := rel) (dst := q) (p := p) (off := got.length) (o := 0) (n := n) (b := bytesV got ++ List.replicate n .undef)
          (vs := bytesV (c :: cs) ++ tail) (by rw [hn']; simp [bytesV]) (by simp [bytesV])
        have e1 : ((bytesV (c :: cs) ++ tail).drop 0).take n = bytesV (c :: cs) := by
          rw [List.drop_zero, List.take_left' (by rw [bytesV_length, hn'])]
        have e2 : patch (bytesV got ++ List.replicate n .undef) got.length (bytesV (c :: cs)) = bytesV (got ++ c :: cs) := by
          rw [patch, List.take_left' (bytesV_length _), bytesV_length, bytesV_append, List.drop_append, bytesV_length,
            List.drop_eq_nil_of_le (by rw [bytesV_length]; omega), List.drop_eq_nil_of_le (by simp [hn'])]
          simp
        rw [e1, e2] at hcp
        step hcp
        step (store_spec (p := rcb) ?_)
        refine Triple.pure (entails_ex_r false (entails_pand_r ?_ rfl))
        rw [CollR_false, hex_sep]
        refine entails_ex_r q ?_
        rw [if_neg (by simp), show (got.length + n) % szMod = (got ++ c :: cs).length by
          rw [Nat.mod_eq_of_lt (by simp only [maxObj, szMod] at *; omega), hn']; simp]
        sep_cancel
      by_cases hg : got = []
      · subst hg
        rw [if_pos rfl]; hoist; rintro rfl
        have : (([] : Text).length + n) % szMod = n := by
          have := hp.2; rw [← hn'] at this
          simp only [List.length_nil, Nat.zero_add]; exact Nat.mod_eq_of_lt (by simp only [maxObj, szMod] at *; omega)
        rw [this]
        refine Triple.realloc_null (fun hrr => ?_) fun q hq hm => ?_
        · rw [if_neg (by simp)]
          step (store_spec (p := rcb) ?_)
          stepd (loadPtr_spec (p := rcb) (q := 0) ?_)
          rw [if_neg (by simp)]
          refine Triple.pure (entails_ex_r true (entails_pand_r ?_ rfl))
          have hrel : ¬ rel := hrr.resolve_right (by have := hp.2; rw [← hn'] at this; omega)
          rw [CollR_true, pand_sep]
          refine entails_pand_r ?_ ⟨by simp, hrel⟩
          sep_cancel
        · exact (ok hq (by simpa using hm)).pre (by simp only [bytesV, List.map_nil, List.nil_append]; sep_cancel)
      · rw [if_neg hg]
        rcases hroom with h | h | h
        · simp at h
        · exact absurd h hg
        · have hm : got.length + n ≤ maxObj := by rw [hn']; simpa using h.2
          rw [show (got.length + n) % szMod = got.length + n from Nat.mod_eq_of_lt (by simp only [maxObj, szMod] at *; omega)]
          refine Triple.realloc (p := b) (b := bytesV got) (by omega) (by pick) (fun hrr => ?_) fun q hq _ => ?_
          · rcases hrr with h' | h'
            · exact absurd h.1 h'
            · omega
          · refine (ok hq hm).pre ?_
            rw [List.take_of_length_le (by rw [bytesV_length]; omega), bytesV_length, show got.length + n - got.length = n by omega]
            sep_cancel

end Verif.Curl
