import Verif.Mb.Spec
import Verif.Ti.Receive
/-! # Reading from a connection -/
set_option linter.unusedSimpArgs false
set_option linter.unusedVariables false
namespace Verif.Mb
open Verif.Curl (At At_start)
open Verif.Sas (text)
variable {rel W : Prop} {lib : Lib} {Net : List Ev → HProp} {Con : Nat → Option Wire → HProp} {Peer : Text → Wire → Prop}

/-! ## Positions in the stream -/

theorem Wire.ins_got (w : Wire) (n : Nat) : (w.got n).ins = w.ins.drop n := by
  unfold Wire.ins Wire.got; rw [List.drop_drop]
theorem Wire.got_got (w : Wire) (n m : Nat) : (w.got n).got m = w.got (n + m) := by
  unfold Wire.got; rw [Nat.add_assoc]
theorem Wire.got_zero (w : Wire) : w.got 0 = w := rfl
theorem Wire.fin_got (w : Wire) (n : Nat) : (w.got n).fin = w.fin := rfl
theorem Wire.fin_to (w : Wire) (r : Text) : (w.to r).fin = w.fin := rfl
theorem Wire.to_drop {w : Wire} {n : Nat} (h : n ≤ w.ins.length) : w.to (w.ins.drop n) = w.got n := by
  unfold Wire.to; rw [List.length_drop, Nat.sub_sub_self h]
theorem Wire.to_suffix {w : Wire} {pre r : Text} (h : w.ins = pre ++ r) : w.to r = w.got pre.length := by
  unfold Wire.to; rw [h, List.length_append, Nat.add_sub_cancel]
theorem Wire.ins_to {w : Wire} {r : Text} (h : r <:+ w.ins) : (w.to r).ins = r := by
  obtain ⟨pre, h⟩ := h
  rw [Wire.to_suffix h.symm, Wire.ins_got, ← h, List.drop_left]
theorem Wire.to_to {w : Wire} {r r' : Text} (h : r <:+ w.ins) (h' : r' <:+ r) : (w.to r).to r' = w.to r' := by
  have e : (w.to r).to r' = (w.to r).got (r.length - r'.length) := by rw [Wire.to, Wire.ins_to h]
  rw [e, Wire.to, Wire.got_got, Wire.to]
  congr 1
  have := h.length_le; have := h'.length_le; omega
theorem Wire.to_self (w : Wire) : w.to w.ins = w := by unfold Wire.to; rw [Nat.sub_self, Wire.got_zero]
theorem Wire.got_to {w : Wire} {n : Nat} {r : Text} (hn : n ≤ w.ins.length) (h : r <:+ w.ins.drop n) : (w.got n).to r = w.to r := by
  rw [← Wire.to_drop hn, Wire.to_to (List.drop_suffix _ _) h]

theorem Wire.to_got {w : Wire} {pre r : Text} (h : (pre ++ r) <:+ w.ins) : (w.to (pre ++ r)).got pre.length = w.to r := by
  unfold Wire.to
  rw [Wire.got_got]
  congr 1
  have := h.length_le
  rw [List.length_append] at this ⊢; omega

/-! ## Arrays -/

/-- an array of 4096 bytes -/
def Arr (buf : Ptr) : HProp := ∃∃ b : Block, (b.length = 4096) ⋏ buf ↦ b
theorem Arr_eq {buf : Ptr} : Arr buf = ∃∃ b : Block, (b.length = 4096) ⋏ buf ↦ b := rfl
theorem Arr_intro {buf : Ptr} {b : Block} (h : b.length = 4096) : buf ↦ b ⊢ₕ Arr buf := entails_ex_r b (entails_pand_r (entails_refl _) h)
/-- a variable of one byte -/
def Cell (p : Ptr) : HProp := ∃∃ v : Val, p ↦ [v]
theorem Cell_eq {p : Ptr} : Cell p = ∃∃ v : Val, p ↦ [v] := rfl
theorem Cell_intro {p : Ptr} {v : Val} : p ↦ [v] ⊢ₕ Cell p := entails_ex_r v (entails_refl _)
/-- the array holds a line and a NUL -/
def Has (buf : Ptr) (t : Text) : HProp := ∃∃ tail : List Val, (t.length + 1 + tail.length = 4096) ⋏ buf ↦ bytesV t ++ .byte 0 :: tail
theorem Has_eq {buf : Ptr} {t : Text} : Has buf t = ∃∃ tail : List Val, (t.length + 1 + tail.length = 4096) ⋏ buf ↦ bytesV t ++ .byte 0 :: tail := rfl
theorem Has_intro {buf : Ptr} {t : Text} {tail : List Val} (h : t.length + 1 + tail.length = 4096) : buf ↦ bytesV t ++ .byte 0 :: tail ⊢ₕ Has buf t :=
  entails_ex_r tail (entails_pand_r (entails_refl _) h)
theorem Has_Arr {buf : Ptr} {t : Text} : Has buf t ⊢ₕ Arr buf := by
  rw [Has_eq]; exact entails_ex_l fun tail => entails_pand_l fun h => Arr_intro (by simp [bytesV]; omega)

/-! ## `receive` -/
section
variable (H : Stream rel lib Con W)
include H

theorem receive_some {c : Nat} {w : Wire} {p : Ptr} {b : Block} {off n : Nat} (h0 : 0 < n) (hn : n < 2 ^ 31) (hb : off + n ≤ b.length) (hi : w.ins ≠ []) :
    Triple rel (Con c (some w) ∗ p ↦ b) (lib.receive c p off n)
      (fun r => ∃∃ k : Nat, (r = k ∧ 0 < k ∧ k ≤ n ∧ k ≤ w.ins.length) ⋏ Con c (some (w.got k)) ∗ p ↦ patch b off (bytesV (w.ins.take k))) := by
  have := H.receive c w p b off n h0 hn hb
  unfold Received at this
  simpa only [if_neg hi] using this

/-- one byte -/
theorem receive_one {c : Nat} {w : Wire} {p : Ptr} {v : Val} {d : UInt8} {s : Text} (hi : w.ins = d :: s) :
    Triple rel (Con c (some w) ∗ p ↦ [v]) (lib.receive c p 0 1) (fun r => (r = 1) ⋏ Con c (some (w.got 1)) ∗ p ↦ [.byte d]) := by
  refine (receive_some H (n := 1) (by omega) (by omega) (by simp) (by simp [hi])).conseq (entails_refl _) fun r => ?_
  refine entails_ex_l fun k => entails_pand_l fun ⟨hr, h0, h1, _⟩ => ?_
  obtain rfl : k = 1 := by omega
  refine entails_pand_r ?_ hr
  have e : patch [v] 0 (bytesV (w.ins.take 1)) = [.byte d] := by rw [hi]; rfl
  rw [e]; exact entails_refl _

/-- nothing left -/
theorem receive_none {c : Nat} {w : Wire} {p : Ptr} {v : Val} (hi : w.ins = []) :
    Triple rel (Con c (some w) ∗ p ↦ [v]) (lib.receive c p 0 1)
      (fun r => ∃∃ v' : Val, ((r = 0 ∧ w.fin = true ∧ v' = v) ∨ (r < 0 ∧ w.fin = false)) ⋏ Con c (some w) ∗ p ↦ [v']) := by
  have := H.receive c w p [v] 0 1 (by omega) (by omega) (by simp)
  unfold Received at this
  simp only [if_pos hi] at this
  refine this.conseq (entails_refl _) fun r => ?_
  cases hf : w.fin with
  | true => simp only [if_pos]; exact entails_pand_l fun hr => entails_ex_r v (entails_pand_r (entails_refl _) (.inl ⟨hr, trivial, rfl⟩))
  | false =>
    rw [if_neg (by simp)]
    refine entails_ex_l fun vs => entails_pand_l fun ⟨hr, hl⟩ => ?_
    obtain ⟨v', rfl⟩ := List.length_eq_one_iff.1 hl
    exact entails_ex_r v' (entails_pand_r (entails_refl _) (.inr ⟨hr, rfl⟩))

/-! ## `readLine` -/

omit H in
theorem lineN_cr {n : Nat} {fin : Bool} {s : Text} (h : 0 < n) :
    lineN n fin (13 :: s) = match s with
      | [] => .bad []
      | d :: rest => if d = 10 then .got [] rest else .bad rest := by
  unfold lineN
  rw [List.takeWhile_cons_of_neg (by simp), List.dropWhile_cons_of_neg (by simp), if_neg (by simp; omega)]
  rcases s with _ | ⟨d, s⟩
  · simp
  · by_cases hd : d = 10
    · subst hd; rfl
    · split <;> simp_all

/-- a line with a byte before it -/
def Line.cons (d : UInt8) : Line → Line
  | .got t rest => .got (d :: t) rest
  | .bad rest => .bad rest
  | .unk => .bad []

omit H in
theorem lineN_cons {n : Nat} {fin : Bool} {d : UInt8} {s : Text} (hd : d ≠ 13) : lineN (n + 1) fin (d :: s) = (lineN n fin s).cons d := by
  unfold lineN
  rw [List.takeWhile_cons_of_pos (by simpa using hd), List.dropWhile_cons_of_pos (by simpa using hd)]
  simp only [List.length_cons, Nat.add_le_add_iff_right, List.drop_succ_cons]
  by_cases h : n ≤ (s.takeWhile (· ≠ 13)).length
  · rw [if_pos h, if_pos h]; rfl
  · rw [if_neg h, if_neg h]
    split
    · rfl
    · rfl
    · by_cases hs : s = [] ∧ fin = true
      · rw [if_pos hs, if_neg (by simp)]; rfl
      · rw [if_neg hs, if_neg (by simp)]; rfl

omit H in
theorem lineN_one {fin : Bool} {d : UInt8} {s : Text} (hd : d ≠ 13) : lineN 1 fin (d :: s) = .bad s := by
  unfold lineN
  rw [List.takeWhile_cons_of_pos (by simpa using hd), if_pos (by simp)]; rfl

omit H in
theorem lineN_nil {n : Nat} {fin : Bool} (h : 0 < n) : lineN n fin [] = if fin = true then .unk else .bad [] := by
  unfold lineN; simp; omega

omit H in
theorem lineN_got {n : Nat} {fin : Bool} {s t rest : Text} (h : lineN n fin s = .got t rest) : s = t ++ 13 :: 10 :: rest ∧ t.length < n := by
  unfold lineN at h
  split at h
  · simp at h
  · rename_i hn
    split at h
    · rename_i d hd
      have e := List.takeWhile_append_dropWhile (p := (· ≠ (13 : UInt8))) (l := s)
      have h13 : ∀ l : Text, ∀ a r, l.dropWhile (· ≠ (13 : UInt8)) = a :: r → a = 13 := by
        intro l
        induction l with
        | nil => simp
        | cons x l ih =>
          intro a r hx
          by_cases h : x = 13
          · subst h; rw [List.dropWhile_cons_of_neg (by simp)] at hx; injection hx with h1 h2; exact h1.symm
          · rw [List.dropWhile_cons_of_pos (by simpa using h)] at hx; exact ih a r hx
      obtain rfl := h13 _ _ _ hd
      injection h with h1 h2
      subst h1; subst h2
      rw [hd] at e
      exact ⟨e.symm, by omega⟩
    · simp at h
    · split at h <;> simp at h

omit H in
/-- what follows is the end of the stream -/
theorem lineN_rest {n : Nat} {fin : Bool} {s : Text} : match lineN n fin s with
    | .got _ rest => rest <:+ s
    | .bad rest => rest <:+ s
    | .unk => s = [] := by
  cases h : lineN n fin s with
  | got t rest => exact ⟨t ++ [13, 10], by rw [(lineN_got h).1]; simp⟩
  | bad rest =>
    unfold lineN at h
    split at h
    · injection h with h; subst h; exact List.drop_suffix _ _
    · split at h
      · simp at h
      · rename_i x y r _ hd
        injection h with h; subst h
        refine List.IsSuffix.trans (⟨[x, y], rfl⟩ : r <:+ x :: y :: r) ?_
        rw [← hd]; exact List.dropWhile_suffix _
      · split at h
        · simp at h
        · injection h with h; subst h; exact List.nil_suffix
  | unk =>
    unfold lineN at h
    split at h
    · simp at h
    · split at h
      · simp at h
      · simp at h
      · split at h
        · rename_i h2; exact h2.1
        · simp at h

omit H in
/-- something is read -/
theorem lineN_rest' {n : Nat} {fin : Bool} {e : UInt8} {s : Text} : match lineN (n + 1) fin (e :: s) with
    | .got _ rest => rest <:+ s
    | .bad rest => rest <:+ s
    | .unk => False := by
  by_cases he : e = 13
  · subst he
    rw [lineN_cr (by omega)]
    rcases s with _ | ⟨d, s⟩
    · exact List.nil_suffix
    · dsimp only
      by_cases hd : d = 10
      · rw [if_pos hd]; exact List.suffix_cons _ _
      · rw [if_neg hd]; exact List.suffix_cons _ _
  · rw [lineN_cons he]
    have := lineN_rest (n := n) (fin := fin) (s := s)
    cases h : lineN n fin s with
    | got t rest => rw [h] at this; exact this
    | bad rest => rw [h] at this; exact this
    | unk => exact List.nil_suffix

/-- what is in memory after a line was read into an array that holds `t0` -/
def LineQ (Con : Nat → Option Wire → HProp) (c : Nat) (w : Wire) (buf cp : Ptr) (t0 : Text) (l : Line) (r : Int) : HProp :=
  match l with
  | .got t rest => (r = ((t0 ++ t).length : Nat)) ⋏ Con c (some (w.to rest)) ∗ Has buf (t0 ++ t) ∗ Cell cp
  | .bad rest => (r = -1) ⋏ Con c (some (w.to rest)) ∗ Arr buf ∗ Cell cp
  | .unk => (r = -1) ⋏ Con c (some w) ∗ Arr buf ∗ Cell cp

theorem readLineLoop_spec {c : Nat} {buf cp : Ptr} : ∀ (n : Nat) (t0 : Text) (w : Wire) (d : UInt8) (tail : List Val), t0.length + (n + 1) = 4096 → tail.length = n + 1 →
    Triple rel (Con c (some w) ∗ cp ↦ [.byte d] ∗ buf ↦ bytesV t0 ++ tail) (readLineLoop lib c buf cp 4096 t0.length)
      (fun r => LineQ Con c w buf cp t0 (lineN (n + 1) w.fin (d :: w.ins)) r) := by
  intro n
  induction n with
  | zero => ?_
  | succ n ih => ?_
  all_goals
    intro t0 w d tail hn ht
    unfold readLineLoop
    step (loadByte_spec (p := cp) (b := [.byte d]) (off := 0) rfl)
    obtain ⟨v, tl, rfl⟩ : ∃ v tl, tail = v :: tl := by cases tail with | nil => simp at ht | cons v tl => exact ⟨v, tl, rfl⟩
    have hb : (bytesV t0 ++ v :: tl).length = 4096 := by rw [List.length_append, bytesV_length]; simp only [List.length_cons] at ht ⊢; omega
    have hset : ∀ y : UInt8, (bytesV t0 ++ v :: tl).set t0.length (.byte y) = bytesV t0 ++ .byte y :: tl := by
      intro y; rw [List.set_append_right _ _ (by simp [bytesV])]; simp [bytesV]
    by_cases hd : d = 13
    · subst hd
      rw [if_neg (by simp), lineN_cr (by omega)]
      step (store_spec (p := buf) (b := bytesV t0 ++ v :: tl) (off := t0.length) (v := .byte 0) (by omega))
      rw [hset]
      rcases hi : w.ins with _ | ⟨e, s⟩
      · have e0 : w.to [] = w := by unfold Wire.to; rw [hi]; rfl
        step (receive_none H (c := c) (w := w) (p := cp) (v := .byte 13) hi) into r
        intro v' hv
        refine Triple.ite (fun hr => ?_) fun hr => ?_
        · refine Triple.pure (entails_pand_r ?_ rfl)
          rw [e0]
          exact entails_trans (by sep_cancel) (sep_mono (entails_refl _) (sep_mono (Arr_intro (b := bytesV t0 ++ .byte 0 :: tl) (by rw [List.length_append] at hb ⊢; exact hb)) Cell_intro))
        · obtain ⟨rfl, _, rfl⟩ : r = 0 ∧ w.fin = true ∧ v' = .byte 13 := by rcases hv with h | h; exact h; omega
          step (loadByte_spec (p := cp) (b := [.byte 13]) (off := 0) rfl)
          rw [if_pos (by decide)]
          refine Triple.pure (entails_pand_r ?_ rfl)
          rw [e0]
          exact entails_trans (by sep_cancel) (sep_mono (entails_refl _) (sep_mono (Arr_intro (b := bytesV t0 ++ .byte 0 :: tl) (by rw [List.length_append] at hb ⊢; exact hb)) Cell_intro))
      · have e1 : w.to s = w.got 1 := Wire.to_suffix (pre := [e]) hi
        step (receive_one H (c := c) (w := w) (p := cp) (v := .byte 13) hi)
        rw [if_neg (by omega)]
        step (loadByte_spec (p := cp) (b := [.byte e]) (off := 0) rfl)
        by_cases he : e = 10
        · subst he
          rw [if_neg (by simp)]
          dsimp only
          rw [if_pos rfl]
          refine Triple.pure (entails_pand_r ?_ (by simp))
          rw [e1, List.append_nil]
          exact entails_trans (by sep_cancel) (sep_mono (entails_refl _) (sep_mono (Has_intro (t := t0) (tail := tl) (by simp only [List.length_cons] at ht; omega)) Cell_intro))
        · rw [if_pos he]
          dsimp only
          rw [if_neg he]
          refine Triple.pure (entails_pand_r ?_ rfl)
          rw [e1]
          exact entails_trans (by sep_cancel) (sep_mono (entails_refl _) (sep_mono (Arr_intro (b := bytesV t0 ++ .byte 0 :: tl) (by rw [List.length_append] at hb ⊢; exact hb)) Cell_intro))
    · rw [if_pos hd]
      first
      | rw [if_pos (by omega), lineN_one hd]
        refine Triple.pure (entails_pand_r ?_ rfl)
        rw [Wire.to_self]
        exact entails_trans (by sep_cancel) (sep_mono (entails_refl _) (sep_mono (Arr_intro hb) Cell_intro))
      | rw [if_neg (by omega), lineN_cons hd]
        step (store_spec (p := buf) (b := bytesV t0 ++ v :: tl) (off := t0.length) (v := .byte d) (by omega))
        rw [hset]
        have hA : bytesV t0 ++ .byte d :: tl = bytesV (t0 ++ [d]) ++ tl := by simp [bytesV]
        have hL : (t0 ++ [d]).length = t0.length + 1 := by simp
        rcases hi : w.ins with _ | ⟨e, s⟩
        · have e0 : w.to [] = w := by unfold Wire.to; rw [hi]; rfl
          have eb : (lineN (n + 1) w.fin []).cons d = .bad [] := by rw [lineN_nil (by omega)]; split <;> rfl
          rw [eb]
          step (receive_none H (c := c) (w := w) (p := cp) (v := .byte d) hi) into r
          intro v' hv
          refine Triple.ite (fun hr => ?_) fun hr => ?_
          · refine Triple.pure (entails_pand_r ?_ rfl)
            rw [e0]
            exact entails_trans (by sep_cancel) (sep_mono (entails_refl _) (sep_mono (Arr_intro (b := bytesV t0 ++ .byte d :: tl) (by rw [List.length_append] at hb ⊢; exact hb)) Cell_intro))
          · obtain ⟨rfl, _, rfl⟩ : r = 0 ∧ w.fin = true ∧ v' = .byte d := by rcases hv with h | h; exact h; omega
            have := ih (t0 ++ [d]) w d tl (by rw [hL]; omega) (by simp only [List.length_cons] at ht; omega)
            rw [hL, hi] at this
            refine this.conseq (by rw [hA]; sep_cancel) fun r => ?_
            have el : ∃ rest, lineN (n + 1) w.fin [d] = .bad rest ∧ rest = [] := by
              cases n with
              | zero => exact ⟨[], lineN_one hd, rfl⟩
              | succ n => rw [lineN_cons hd, lineN_nil (by omega)]; split <;> exact ⟨_, rfl, rfl⟩
            obtain ⟨_, el, rfl⟩ := el
            rw [el]; exact entails_refl _
        · step (receive_one H (c := c) (w := w) (p := cp) (v := .byte d) hi)
          rw [if_neg (by omega)]
          have := ih (t0 ++ [d]) (w.got 1) e tl (by rw [hL]; omega) (by simp only [List.length_cons] at ht; omega)
          rw [hL, Wire.ins_got, hi, Wire.fin_got] at this
          refine this.conseq (by rw [hA]; sep_cancel) fun r => ?_
          rw [List.drop_one, List.tail_cons]
          have hsuf := lineN_rest' (n := n) (fin := w.fin) (e := e) (s := s)
          have hg : ∀ rest, rest <:+ s → (w.got 1).to rest = w.to rest := fun rest h =>
            Wire.got_to (by rw [hi]; simp) (by rw [hi]; exact h)
          cases hl : lineN (n + 1) w.fin (e :: s) with
          | got t rest =>
            rw [hl] at hsuf
            simp only [LineQ, Line.cons]
            rw [hg rest hsuf, List.append_assoc]
            exact entails_refl _
          | bad rest =>
            rw [hl] at hsuf
            simp only [LineQ, Line.cons]
            rw [hg rest hsuf]
            exact entails_refl _
          | unk => rw [hl] at hsuf; cases hsuf

/-- `readLine` -/
theorem readLine_spec {c : Nat} {w : Wire} {buf cp : Ptr} (hu : line w.fin w.ins ≠ .unk) :
    Triple rel (Con c (some w) ∗ Arr buf ∗ Cell cp) (readLine lib c buf cp 4096) (fun r => LineQ Con c w buf cp [] (line w.fin w.ins) r) := by
  unfold readLine
  rw [Arr_eq, Cell_eq]; hoist; intro v b hb
  step (store_spec (p := cp) (b := [v]) (off := 0) (v := .undef) (by simp))
  change Triple rel (cp ↦ [Val.undef] ∗ _) _ _
  rcases hi : w.ins with _ | ⟨e, s⟩
  · have hf : w.fin = false := by
      rw [hi, line, lineN_nil (by omega)] at hu
      cases h : w.fin with
      | false => rfl
      | true => rw [h] at hu; simp at hu
    step (receive_none H (c := c) (w := w) (p := cp) (v := .undef) hi) into r
    intro v' hv
    rw [if_pos (by rcases hv with h | h; · rw [hf] at h; simp at h
                   · exact h.1)]
    rw [line, lineN_nil (by omega), hf]
    refine Triple.pure (entails_pand_r ?_ rfl)
    have e0 : w.to [] = w := by unfold Wire.to; rw [hi]; rfl
    rw [e0]
    exact entails_trans (by sep_cancel) (sep_mono (entails_refl _) (sep_mono (Arr_intro hb) Cell_intro))
  · step (receive_one H (c := c) (w := w) (p := cp) (v := .undef) hi)
    rw [if_neg (by omega)]
    have := readLineLoop_spec H (c := c) (buf := buf) (cp := cp) 4095 [] (w.got 1) e b (by simp) hb
    rw [Wire.ins_got, hi, Wire.fin_got] at this
    refine this.conseq (by simp only [bytesV, List.map_nil, List.nil_append]; sep_cancel) fun r => ?_
    rw [List.drop_one, List.tail_cons, line]
    have hsuf := lineN_rest' (n := 4095) (fin := w.fin) (e := e) (s := s)
    have hg : ∀ rest, rest <:+ s → (w.got 1).to rest = w.to rest := fun rest h =>
      Wire.got_to (by rw [hi]; simp) (by rw [hi]; exact h)
    cases hl : lineN (4095 + 1) w.fin (e :: s) with
    | got t rest => rw [hl] at hsuf; simp only [LineQ]; rw [hg rest hsuf]; exact entails_refl _
    | bad rest => rw [hl] at hsuf; simp only [LineQ]; rw [hg rest hsuf]; exact entails_refl _
    | unk => rw [hl] at hsuf; cases hsuf

theorem readLine_got {c : Nat} {w : Wire} {buf cp : Ptr} {t rest : Text} (h : line w.fin w.ins = .got t rest) :
    Triple rel (Con c (some w) ∗ Arr buf ∗ Cell cp) (readLine lib c buf cp 4096)
      (fun r => (r = (t.length : Nat)) ⋏ Con c (some (w.to rest)) ∗ Has buf t ∗ Cell cp) := by
  have := readLine_spec H (c := c) (w := w) (buf := buf) (cp := cp) (by rw [h]; simp)
  rw [h] at this; exact this

theorem readLine_bad {c : Nat} {w : Wire} {buf cp : Ptr} {rest : Text} (h : line w.fin w.ins = .bad rest) :
    Triple rel (Con c (some w) ∗ Arr buf ∗ Cell cp) (readLine lib c buf cp 4096)
      (fun r => (r = -1) ⋏ Con c (some (w.to rest)) ∗ Arr buf ∗ Cell cp) := by
  have := readLine_spec H (c := c) (w := w) (buf := buf) (cp := cp) (by rw [h]; simp)
  rw [h] at this; exact this

/-! ## `readChunk` -/

omit H in
theorem toI32_small {n : Nat} (h : n < 2 ^ 31) : toI32 n = n := by
  unfold toI32
  have : n % 2 ^ 32 = n := Nat.mod_eq_of_lt (by omega)
  rw [this, if_pos h]

omit H in
theorem patch_patch {b : Block} {off : Nat} {u v : List Val} (h : off + u.length + v.length ≤ b.length) :
    patch (patch b off u) (off + u.length) v = patch b off (u ++ v) := by
  unfold patch
  have h1 : (b.take off).length = off := by simp; omega
  have h2 : (b.take off ++ u).length = off + u.length := by simp; omega
  rw [List.take_append_of_le_length (by omega), List.take_of_length_le (by omega)]
  have h3 : (b.take off ++ u ++ b.drop (off + u.length)).drop (off + u.length + v.length) = b.drop (off + (u ++ v).length) := by
    rw [List.drop_append, List.drop_of_length_le (l := b.take off ++ u) (by omega), h2, List.nil_append, List.drop_drop, List.length_append]
    congr 1; omega
  rw [h3]; simp only [List.append_assoc]

omit H in
theorem patch_nil {b : Block} {off : Nat} : patch b off [] = b := by unfold patch; simp

theorem readChunk_spec {c : Nat} {p : Ptr} {off : Nat} : ∀ (size offset : Nat) (w : Wire) (b : Block), size ≤ w.ins.length → offset + size < 2 ^ 31 →
    off + offset + size ≤ b.length → b.length ≤ maxObj →
    Triple rel (Con c (some w) ∗ p ↦ b) (readChunk lib c p off size offset)
      (fun r => (r = (offset + size : Nat)) ⋏ Con c (some (w.got size)) ∗ p ↦ patch b (off + offset) (bytesV (w.ins.take size))) := by
  intro size
  induction size using Nat.strongRecOn with
  | _ size ih => ?_
  intro offset w b hi hs hb hm
  have hm2 : maxObj < szMod := by decide
  unfold readChunk
  by_cases h0 : size = 0
  · subst h0
    rw [if_neg (by omega)]
    refine Triple.pure (entails_pand_r ?_ (toI32_small (by omega)))
    rw [List.take_zero, Wire.got_zero]; simp only [bytesV, List.map_nil, patch_nil]; exact entails_refl _
  rw [if_pos (by omega), Nat.mod_eq_of_lt (show off + offset < szMod by omega), toI32_small (by omega)]
  have hne : w.ins ≠ [] := by intro h; rw [h] at hi; simp at hi; omega
  step (receive_some H (c := c) (w := w) (p := p) (b := b) (off := off + offset) (n := size) (by omega) (by omega) (by omega) hne) into r
  intro k hr hk0 hk1 hk2
  subst hr
  have hz : szMod = 2 ^ 64 := rfl
  have ek : ((k : Int) % szMod).toNat = k := by rw [Int.emod_eq_of_lt (by omega) (by omega)]; rfl
  dsimp only
  rw [ek, if_neg (by omega)]
  have e1 : (size + szMod - k) % szMod = size - k := by
    rw [show size + szMod - k = (size - k) + szMod by omega, Nat.add_mod_right, Nat.mod_eq_of_lt (by omega)]
  have e2 : (offset + k) % szMod = offset + k := Nat.mod_eq_of_lt (by omega)
  rw [e1, e2]
  have hlen : (bytesV (w.ins.take k)).length = k := by rw [bytesV_length, List.length_take]; omega
  have hpl : (patch b (off + offset) (bytesV (w.ins.take k))).length = b.length := patch_length (by omega)
  refine (ih (size - k) (by omega) (offset + k) (w.got k) _ (by rw [Wire.ins_got, List.length_drop]; omega) (by omega) (by rw [hpl]; omega) (by rw [hpl]; exact hm)).conseq
    (entails_refl _) fun r => entails_pand_l fun hr => entails_pand_r ?_ (by rw [hr]; congr 1; omega)
  have e3 := patch_patch (b := b) (off := off + offset) (u := bytesV (w.ins.take k)) (v := bytesV ((w.ins.drop k).take (size - k)))
    (by rw [hlen, bytesV_length, List.length_take, List.length_drop]; omega)
  rw [hlen, ← bytesV_append] at e3
  rw [Wire.ins_got, Wire.got_got, show k + (size - k) = size by omega, show off + (offset + k) = off + offset + k by omega, e3]
  have e4 : w.ins.take k ++ (w.ins.drop k).take (size - k) = w.ins.take size := by
    conv => rhs; rw [show size = k + (size - k) by omega, List.take_add]
  rw [e4]; exact entails_refl _

/-- into the array -/
theorem readChunk_arr {c : Nat} {buf : Ptr} {n : Nat} {w : Wire} (hi : n ≤ w.ins.length) (hn : n ≤ 4096) :
    Triple rel (Con c (some w) ∗ Arr buf) (readChunk lib c buf 0 n 0) (fun r => (r = (n : Nat)) ⋏ Con c (some (w.got n)) ∗ Arr buf) := by
  rw [Arr_eq]; hoist; intro b hb
  refine (readChunk_spec H n 0 w b hi (by omega) (by omega) (by rw [hb]; decide)).conseq (entails_refl _) fun r => ?_
  refine entails_pand_l fun hr => entails_pand_r (sep_mono (entails_refl _) (entails_ex_r _ (entails_pand_r (entails_refl _) ?_))) (by simpa using hr)
  rw [patch_length (by rw [bytesV_length, List.length_take]; omega), hb]

theorem skipN_spec {c : Nat} {buf : Ptr} {org : Nat} : ∀ (n : Nat) (w : Wire), n ≤ w.ins.length →
    Triple rel (Con c (some w) ∗ Arr buf) (skipN lib c buf 4096 org n) (fun r => (r = toI32 org) ⋏ Con c (some (w.got n)) ∗ Arr buf) := by
  intro n
  induction n using Nat.strongRecOn with
  | _ n ih => ?_
  intro w hi
  unfold skipN
  by_cases h : n > 4096
  · rw [if_pos h]
    step (readChunk_arr H (n := 4096) (w := w) (by omega) (by omega))
    rw [if_neg (by omega)]
    have := ih (n - 4096) (by omega) (w.got 4096) (by rw [Wire.ins_got, List.length_drop]; omega)
    rw [Wire.got_got, show 4096 + (n - 4096) = n by omega] at this
    exact this
  · rw [if_neg h]
    step (readChunk_arr H (n := n) hi (by omega))
    rw [if_neg (by omega)]
    exact Triple.pure (entails_pand_r (entails_refl _) rfl)

theorem skipCrlf_spec {c : Nat} {buf : Ptr} {w : Wire} {a b : UInt8} {s : Text} (hi : w.ins = a :: b :: s) :
    Triple rel (Con c (some w) ∗ Arr buf) (skipCrlf lib c buf) (fun r => (r = decide (a = 13 ∧ b = 10)) ⋏ Con c (some (w.got 2)) ∗ Arr buf) := by
  unfold skipCrlf
  rw [Arr_eq]; hoist; intro blk hb
  step (readChunk_spec H 2 0 w blk (by rw [hi]; simp) (by omega) (by omega) (by rw [hb]; decide))
  rw [if_neg (by omega)]
  have e : patch blk (0 + 0) (bytesV (w.ins.take 2)) = .byte a :: .byte b :: blk.drop 2 := by
    rw [patch_zero, hi]; rfl
  rw [e]
  have hf : Con c (some (w.got 2)) ∗ buf ↦ (.byte a :: .byte b :: blk.drop 2) ⊢ₕ Con c (some (w.got 2)) ∗ ∃∃ b : Block, (b.length = 4096) ⋏ buf ↦ b :=
    sep_mono (entails_refl _) (entails_ex_r _ (entails_pand_r (entails_refl _) (by simp; omega)))
  step (loadByte_spec (p := buf) (b := .byte a :: .byte b :: blk.drop 2) (off := 0) rfl)
  refine Triple.ite (fun h => ?_) fun h => ?_
  · exact Triple.pure (entails_pand_r (entails_trans (by sep_cancel) hf) (by simp [h]))
  step (loadByte_spec (p := buf) (b := .byte a :: .byte b :: blk.drop 2) (off := 1) rfl)
  have h : a = 13 := Decidable.not_not.1 h
  exact Triple.pure (entails_pand_r (entails_trans (by sep_cancel) hf) (by simp [h]; rfl))
end
end Verif.Mb
