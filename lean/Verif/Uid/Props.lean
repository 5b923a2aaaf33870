import Verif.Uid.Spec
import Verif.Tac
/-! # C53: unique identifiers -/
namespace Verif.Uid
variable {rel : Prop} {rand : M Nat} {Net : List Nat → HProp}

/-- append one character, with a dash before it where the layout has one -/
def put (out : List UInt8) (c : UInt8) : List UInt8 :=
  (if out.length = 8 ∨ out.length = 13 ∨ out.length = 18 ∨ out.length = 23 then out ++ [45] else out) ++ [c]

/-- a block whose first bytes have been overwritten by `out` -/
def Part (p : Ptr) (b : Block) (out : List UInt8) : HProp := p ↦ bytesV out ++ b.drop out.length

theorem store_part {p : Ptr} {b : Block} {out : List UInt8} {c : UInt8} (h : out.length < b.length) :
    Triple rel (Part p b out) (store p out.length (.byte c)) (fun _ => Part p b (out ++ [c])) := by
  unfold Part
  refine (store_spec (by simp [bytesV]; omega)).conseq (entails_refl _) fun _ => entails_of_eq ?_
  congr 1
  have h' : b.drop out.length ≠ [] := by
    intro e; have := congrArg List.length e; simp at this; omega
  obtain ⟨v, l, hl⟩ := List.exists_cons_of_ne_nil h'
  have hl' : b.drop (out ++ [c]).length = l := by
    have : b.drop (out.length + 1) = (b.drop out.length).tail := by simp
    simp [this, hl]
  rw [hl, hl']
  have : out.length = (bytesV out).length := by simp [bytesV]
  rw [this, List.set_append_right _ _ (by omega)]
  simp [bytesV]

/-- the length after one character -/
def plen (n : Nat) : Nat := if n = 8 ∨ n = 13 ∨ n = 18 ∨ n = 23 then n + 2 else n + 1

theorem put_plen (out : List UInt8) (c : UInt8) : (put out c).length = plen out.length := by
  unfold put plen; split <;> simp

theorem putNibble_spec {p : Ptr} {b : Block} {out : List UInt8} {c : UInt8} {β : Type} {k : Nat → M β} {Q : β → HProp}
    (h : plen out.length ≤ b.length)
    (hk : Triple rel (Part p b (put out c)) (k (put out c).length) Q) :
    Triple rel (Part p b out) (do
      let pos ← if out.length = 8 ∨ out.length = 13 ∨ out.length = 18 ∨ out.length = 23 then do
          store p out.length (.byte 45)
          pure (out.length + 1)
        else pure out.length
      store p pos (.byte c)
      k (pos + 1)) Q := by
  unfold plen at h
  by_cases hd : out.length = 8 ∨ out.length = 13 ∨ out.length = 18 ∨ out.length = 23
  · rw [if_pos hd] at h ⊢
    simp only []
    refine Triple.bind' (store_part (by omega)) fun _ => ?_
    simp only [pure_bind]
    have e : out.length + 1 = (out ++ [45]).length := by simp
    rw [e]
    refine Triple.bind' (store_part (by simp; omega)) fun _ => ?_
    have e2 : put out c = out ++ [45] ++ [c] := by simp only [put, if_pos hd]
    rw [e2] at hk
    simpa using hk
  · rw [if_neg hd] at h ⊢
    simp only [pure_bind]
    refine Triple.bind' (store_part (by omega)) fun _ => ?_
    have e2 : put out c = out ++ [c] := by simp only [put, if_neg hd]
    rw [e2] at hk
    simpa using hk

theorem tochar_hex (b : UInt8) : tochar.getD (b &&& 0xf).toNat 0 = hexDigit (b.toNat % 16) := by
  revert b; apply u8_all; decide +kernel

theorem shr4 (b : UInt8) : ((b >>> 4) &&& 0xf).toNat = b.toNat / 16 ∧ (b >>> 4).toNat % 16 = b.toNat / 16 := by
  revert b; apply u8_all; decide +kernel

theorem put_len (out : List UInt8) (c : UInt8) : (put out c).length ≤ out.length + 2 := by
  unfold put; split <;> simp

theorem putNibbles_spec {p : Ptr} {b : Block} {out : List UInt8} {a : List UInt8} {i : Nat} (hi : i < a.length)
    (h : plen (plen out.length) ≤ b.length) :
    Triple rel (Part p b out) (putNibbles p i 2 a out.length)
      (fun r => (r.2 = (put (put out (hexDigit ((a.getD i 0).toNat % 16))) (hexDigit ((a.getD i 0).toNat / 16))).length ∧
          r.1.length = a.length ∧ ∀ j, j ≠ i → r.1.getD j 0 = a.getD j 0) ⋏
        Part p b (put (put out (hexDigit ((a.getD i 0).toNat % 16))) (hexDigit ((a.getD i 0).toNat / 16)))) := by
  have hle : plen out.length ≤ plen (plen out.length) := by
    generalize plen out.length = n
    unfold plen; split <;> omega
  unfold putNibbles
  rw [tochar_hex]
  refine putNibble_spec (by omega) ?_
  unfold putNibbles
  rw [tochar_hex]
  have e : ((a.set i (a.getD i 0 >>> 4)).getD i 0) = a.getD i 0 >>> 4 := by
    simp [List.getD_eq_getElem?_getD, hi]
  rw [e, (shr4 _).2]
  refine putNibble_spec (by rw [put_plen]; omega) ?_
  unfold putNibbles
  refine Triple.pure (entails_pand_r (entails_refl _) ⟨rfl, by simp, ?_⟩)
  intro j hj
  simp only [List.getD_eq_getElem?_getD, List.getElem?_set_ne (Ne.symm hj)]

/-- the characters written by the outer loop -/
def putAll (out bs : List UInt8) : List UInt8 :=
  bs.foldl (fun o b => put (put o (hexDigit (b.toNat % 16))) (hexDigit (b.toNat / 16))) out

theorem putAll_len (out bs : List UInt8) : (putAll out bs).length ≤ out.length + 4 * bs.length := by
  induction bs generalizing out with
  | nil => simp [putAll]
  | cons c bs ih =>
    have := ih (put (put out (hexDigit (c.toNat % 16))) (hexDigit (c.toNat / 16)))
    have h1 := put_len out (hexDigit (c.toNat % 16))
    have h2 := put_len (put out (hexDigit (c.toNat % 16))) (hexDigit (c.toNat / 16))
    simp only [putAll, List.foldl_cons, List.length_cons] at *
    omega

/-- the position after `i` bytes -/
def posOf : Nat → Nat
  | 0 => 0
  | i + 1 => plen (plen (posOf i))

theorem putAll_snoc (out bs : List UInt8) (b : UInt8) :
    putAll out (bs ++ [b]) = put (put (putAll out bs) (hexDigit (b.toNat % 16))) (hexDigit (b.toNat / 16)) := by
  simp [putAll]

theorem putAll_pos {bs : List UInt8} (i : Nat) (hi : i ≤ bs.length) : (putAll [] (bs.take i)).length = posOf i := by
  induction i with
  | zero => rfl
  | succ i ih =>
    have hi' : i < bs.length := by omega
    rw [List.take_add_one, List.getElem?_eq_getElem hi']
    simp only [Option.toList, putAll_snoc, put_plen, posOf, ih (by omega)]

theorem putAll_digits (out bs : List UInt8) : putAll out bs = (digits bs).foldl put out := by
  induction bs generalizing out with
  | nil => rfl
  | cons b bs ih =>
    simp only [putAll, digits, List.foldl_cons, List.flatMap_cons, List.foldl_append, List.foldl_nil] at *
    exact ih _

theorem put_run (cs : List UInt8) (out : List UInt8)
    (h : ∀ n, out.length ≤ n → n < out.length + cs.length → ¬ (n = 8 ∨ n = 13 ∨ n = 18 ∨ n = 23)) :
    cs.foldl put out = out ++ cs := by
  induction cs generalizing out with
  | nil => simp
  | cons c cs ih =>
    have h0 := h out.length (Nat.le_refl _) (by simp)
    have e : put out c = out ++ [c] := by simp only [put, if_neg h0]
    rw [List.foldl_cons, e, ih]
    · simp
    · intro n h1 h2
      simp at h1 h2
      exact h n (by omega) (by simp; omega)

theorem put_dash (cs : List UInt8) (out : List UInt8) (hc : cs ≠ []) (hd : out.length = 8 ∨ out.length = 13 ∨ out.length = 18 ∨ out.length = 23)
    (h : ∀ n, out.length < n → n < out.length + 1 + cs.length → ¬ (n = 8 ∨ n = 13 ∨ n = 18 ∨ n = 23)) :
    cs.foldl put out = out ++ [45] ++ cs := by
  obtain ⟨c, cs, rfl⟩ := List.exists_cons_of_ne_nil hc
  have e : put out c = out ++ [45] ++ [c] := by simp only [put, if_pos hd]
  rw [List.foldl_cons, e, put_run]
  · simp
  · intro n h1 h2
    simp at h1 h2
    exact h n (by omega) (by simp; omega)

theorem digits_len (xs : List UInt8) : (digits xs).length = 2 * xs.length := by
  induction xs with
  | nil => rfl
  | cons x xs ih => simp only [digits, List.flatMap_cons, List.length_append, List.length_cons, List.length_nil] at *; omega

theorem putAll_text {bs : List UInt8} (h : bs.length = 16) : putAll [] bs = text bs := by
  rw [putAll_digits]
  have hl := digits_len bs
  rw [h] at hl
  unfold text
  generalize digits bs = d at *
  have e : d = d.take 8 ++ ((d.drop 8).take 4 ++ ((d.drop 12).take 4 ++ ((d.drop 16).take 4 ++ d.drop 20))) := by
    have e1 : d.drop 8 = (d.drop 8).take 4 ++ d.drop 12 := by rw [← List.drop_drop (i := 4) (j := 8), List.take_append_drop]
    have e2 : d.drop 12 = (d.drop 12).take 4 ++ d.drop 16 := by rw [← List.drop_drop (i := 4) (j := 12), List.take_append_drop]
    have e3 : d.drop 16 = (d.drop 16).take 4 ++ d.drop 20 := by rw [← List.drop_drop (i := 4) (j := 16), List.take_append_drop]
    rw [← e3, ← e2, ← e1, List.take_append_drop]
  have l1 : (d.take 8).length = 8 := by simp; omega
  have l2 : ((d.drop 8).take 4).length = 4 := by simp; omega
  have l3 : ((d.drop 12).take 4).length = 4 := by simp; omega
  have l4 : ((d.drop 16).take 4).length = 4 := by simp; omega
  have l5 : (d.drop 20).length = 12 := by simp; omega
  have ne : ∀ {l : List UInt8} {n : Nat}, l.length = n + 1 → l ≠ [] := by
    rintro l n h rfl; simp at h
  dsimp only
  generalize d.take 8 = x1 at *
  generalize (d.drop 8).take 4 = x2 at *
  generalize (d.drop 12).take 4 = x3 at *
  generalize (d.drop 16).take 4 = x4 at *
  generalize d.drop 20 = x5 at *
  rw [e, List.foldl_append, put_run x1 [] (by simp; omega)]
  simp only [List.nil_append]
  rw [List.foldl_append, put_dash x2 x1 (ne l2) (by omega) (by omega)]
  rw [List.foldl_append, put_dash x3 _ (ne l3) (by simp; omega) (by simp; omega)]
  rw [List.foldl_append, put_dash x4 _ (ne l4) (by simp; omega) (by simp; omega)]
  rw [put_dash x5 _ (ne l5) (by simp; omega) (by simp; omega)]

theorem text_len {bs : List UInt8} (h : bs.length = 16) : (text bs).length = 36 := by
  rw [← putAll_text h, ← List.take_of_length_le (Nat.le_of_eq h), putAll_pos 16 (by omega)]
  decide

theorem putBytes_spec {p : Ptr} {b : Block} (bs : List UInt8) (hb : 37 ≤ b.length) (hbs : bs.length = 16) (n i : Nat) (hn : n + i = 16)
    (a : List UInt8) (ha : a.length = 16) (haa : ∀ j, i ≤ j → a.getD j 0 = bs.getD j 0) :
    Triple rel (Part p b (putAll [] (bs.take i))) (putBytes p n i a (putAll [] (bs.take i)).length)
      (fun r => (r = (putAll [] bs).length) ⋏ Part p b (putAll [] bs)) := by
  induction n generalizing i a with
  | zero =>
    unfold putBytes
    have : bs.take i = bs := by rw [List.take_of_length_le]; omega
    rw [this]
    exact Triple.pure (entails_pand_r (entails_refl _) rfl)
  | succ n ih =>
    unfold putBytes
    have hi : i < bs.length := by omega
    have e : putAll [] (bs.take (i + 1)) = put (put (putAll [] (bs.take i)) (hexDigit ((a.getD i 0).toNat % 16))) (hexDigit ((a.getD i 0).toNat / 16)) := by
      rw [haa i (Nat.le_refl _), List.take_add_one, List.getElem?_eq_getElem hi]
      simp only [Option.toList, putAll_snoc, List.getD_eq_getElem?_getD, List.getElem?_eq_getElem hi, Option.getD_some]
    have hl : plen (plen (putAll [] (bs.take i)).length) ≤ b.length := by
      rw [putAll_pos i (by omega)]
      have : ∀ i : Fin 16, plen (plen (posOf i)) ≤ 37 := by decide
      have := this ⟨i, by omega⟩
      simp at this
      omega
    refine Triple.bind' (putNibbles_spec (by omega) (by omega)) fun x => ?_
    hoist
    intro h1 h2 h3
    rw [h1, ← e]
    refine ih (i + 1) (by omega) x.1 (by omega) fun j hj => ?_
    rw [h3 j (by omega)]
    exact haa j (by omega)

theorem fillRand_spec (H : Honours rel rand Net) (n i : Nat) (rs : List Nat) (a : List UInt8) (ha : a.length = i + n) :
    Triple rel (Net rs) (fillRand rand n i a)
      (fun r => ∃∃ new : List Nat, (new.length = n ∧ r = a.take i ++ new.map UInt8.ofNat) ⋏ Net (rs ++ new)) := by
  induction n generalizing i rs a with
  | zero =>
    unfold fillRand
    refine Triple.pure (entails_ex_r [] (entails_pand_r (by rw [List.append_nil]; exact entails_refl _) ⟨rfl, ?_⟩))
    rw [List.take_of_length_le (by omega)]; simp
  | succ n ih =>
    unfold fillRand
    refine Triple.bind' (H rs) fun r => ?_
    refine (ih (i + 1) (rs ++ [r]) (a.set i (UInt8.ofNat r)) (by simp; omega)).conseq (entails_refl _) fun x =>
      entails_ex_l fun new => entails_pand_l fun h => ?_
    refine entails_ex_r (r :: new) (entails_pand_r (by simp; exact entails_refl _) ⟨by simp [h.1], ?_⟩)
    rw [h.2, List.take_add_one, List.getElem?_set_self (by omega)]
    rw [List.take_set_of_le (by omega)]
    simp

theorem mask7 (b : UInt8) : (b &&& 0x0f) ||| 0x40 = UInt8.ofNat (64 + b.toNat % 16) := by
  revert b; apply u8_all; decide +kernel
theorem mask8 (b : UInt8) : (b &&& 0xf3) ||| 0x08 = UInt8.ofNat (b.toNat / 16 * 16 + 8 + b.toNat % 4) := by
  revert b; apply u8_all; decide +kernel

theorem generate128BitUUID_spec (H : Honours rel rand Net) (rs : List Nat) (a : List UInt8) (ha : a.length = 16) :
    Triple rel (Net rs) (generate128BitUUID rand a)
      (fun r => ∃∃ new : List Nat, (new.length = 16 ∧ r = uuid new) ⋏ Net (rs ++ new)) := by
  unfold generate128BitUUID
  refine Triple.bind' (fillRand_spec H 16 0 rs a (by omega)) fun x => ?_
  hoist
  intro new hn hx
  refine Triple.pure (entails_ex_r new (entails_pand_r (entails_refl _) ⟨hn, ?_⟩))
  subst hx
  match new, hn with
  | [r0, r1, r2, r3, r4, r5, r6, r7, r8, r9, r10, r11, r12, r13, r14, r15], _ =>
    have of256 : ∀ r : Nat, UInt8.ofNat r = UInt8.ofNat (r % 256) := fun r => by
      apply UInt8.toNat.inj; simp
    have e7 := mask7 (UInt8.ofNat r7)
    have e8 := mask8 (UInt8.ofNat r8)
    have t7 : (UInt8.ofNat r7).toNat = r7 % 256 := by simp
    have t8 : (UInt8.ofNat r8).toNat = r8 % 256 := by simp
    rw [t7] at e7
    rw [t8] at e8
    simp only [List.take_zero, List.nil_append, List.map_cons, List.map_nil, List.getD_eq_getElem?_getD,
      List.set_cons_succ, List.set_cons_zero, List.getElem?_cons_succ, List.getElem?_cons_zero, Option.getD_some, e7, e8]
    simp [uuid, List.range, List.range.loop, ← of256]

/-- C53: `UniqueId_Generate` with a buffer of at least `len` bytes.  `rs` are the values the random source returned before. -/
theorem UniqueId_Generate_spec (H : Honours rel rand Net) (rs : List Nat) (a : List UInt8) (ha : a.length = 16)
    (uid : Ptr) (b : Block) (len : Nat) (hlen : len ≤ b.length) :
    Triple rel (Net rs ∗ uid ↦ b) (UniqueId_Generate rand a uid len)
      (fun r => if len < 37 then (r = .invalid_arg) ⋏ Net rs ∗ uid ↦ b
        else ∃∃ new : List Nat, (r = .ok ∧ new.length = 16) ⋏ Net (rs ++ new) ∗ uid ↦ bytesV (text (uuid new) ++ [0]) ++ b.drop 37) := by
  unfold UniqueId_Generate
  refine Triple.know (know_pts (p := uid) (φ := uid ≠ 0) (by pick) fun h1 _ => h1) fun hp => ?_
  by_cases h37 : len < 37
  · rw [if_pos (Or.inr h37)]
    refine Triple.pure ?_
    rw [if_pos h37]
    exact entails_pand_r (entails_refl _) rfl
  · rw [if_neg (by simp [hp]; omega)]
    simp only [if_neg h37]
    step (generate128BitUUID_spec H rs a ha) into x
    intro new hn hx
    subst hx
    have hu : (uuid new).length = 16 := by simp [uuid]
    have hpre : (uid ↦ b) = Part uid b (putAll [] ((uuid new).take 0)) := by simp [Part, putAll, bytesV]
    have ht : (text (uuid new)).length = 36 := text_len hu
    have hput := putBytes_spec (rel := rel) (p := uid) (b := b) (uuid new) (by omega) hu 16 0 rfl (uuid new) hu (fun _ _ => rfl)
    rw [hpre]
    rw [putAll_text hu] at hput
    generalize htx : text (uuid new) = tx at *
    step hput into r
    intro hr
    rw [hr]
    have hst := store_part (rel := rel) (p := uid) (b := b) (out := tx) (c := 0) (by omega)
    step hst
    refine Triple.pure (entails_ex_r new (entails_pand_r ?_ ⟨rfl, hn⟩))
    have : (tx ++ [0]).length = 37 := by simp [ht]
    rw [htx]
    unfold Part
    rw [this]
    sep_cancel

theorem UniqueId_Generate_null (a : List UInt8) (len : Nat) :
    Triple rel emp (UniqueId_Generate rand a 0 len) (fun r => (r = .invalid_arg) ⋏ emp) := by
  unfold UniqueId_Generate
  rw [if_pos (Or.inl rfl)]
  exact Triple.ret

/-! ## The text -/

theorem hexDigit_inj {m n : Nat} (hm : m < 16) (hn : n < 16) (h : hexDigit m = hexDigit n) : m = n := by
  have : ∀ m n : Fin 16, hexDigit m = hexDigit n → m = n := by decide +kernel
  exact congrArg Fin.val (this ⟨m, hm⟩ ⟨n, hn⟩ h)

theorem pair_inj {x y : UInt8} (h1 : hexDigit (x.toNat % 16) = hexDigit (y.toNat % 16)) (h2 : hexDigit (x.toNat / 16) = hexDigit (y.toNat / 16)) : x = y := by
  have hx := x.toNat_lt
  have hy := y.toNat_lt
  have e1 := hexDigit_inj (by omega) (by omega) h1
  have e2 := hexDigit_inj (by omega) (by omega) h2
  apply UInt8.toNat.inj; omega

theorem digits_inj {xs ys : List UInt8} (h : digits xs = digits ys) : xs = ys := by
  induction xs generalizing ys with
  | nil => cases ys with
    | nil => rfl
    | cons y ys => simp [digits] at h
  | cons x xs ih => cases ys with
    | nil => simp [digits] at h
    | cons y ys =>
      simp only [digits, List.flatMap_cons, List.cons_append, List.nil_append, List.cons.injEq] at h
      rw [pair_inj h.1 h.2.1, ih h.2.2]

/-- removing the dashes gives the digits back -/
def undash (t : List UInt8) : List UInt8 := t.take 8 ++ (t.drop 9).take 4 ++ (t.drop 14).take 4 ++ (t.drop 19).take 4 ++ t.drop 24

theorem undash_text {bs : List UInt8} (h : bs.length = 16) : undash (text bs) = digits bs := by
  match bs, h with
  | [b0, b1, b2, b3, b4, b5, b6, b7, b8, b9, b10, b11, b12, b13, b14, b15], _ => rfl

/-- distinct identifiers have distinct texts -/
theorem text_injective {xs ys : List UInt8} (hx : xs.length = 16) (hy : ys.length = 16) (h : text xs = text ys) : xs = ys := by
  apply digits_inj
  rw [← undash_text hx, ← undash_text hy, h]

theorem text16 (b0 b1 b2 b3 b4 b5 b6 b7 b8 b9 b10 b11 b12 b13 b14 b15 : UInt8) :
    text [b0, b1, b2, b3, b4, b5, b6, b7, b8, b9, b10, b11, b12, b13, b14, b15] =
      [hexDigit (b0.toNat % 16), hexDigit (b0.toNat / 16), hexDigit (b1.toNat % 16), hexDigit (b1.toNat / 16),
       hexDigit (b2.toNat % 16), hexDigit (b2.toNat / 16), hexDigit (b3.toNat % 16), hexDigit (b3.toNat / 16), 45,
       hexDigit (b4.toNat % 16), hexDigit (b4.toNat / 16), hexDigit (b5.toNat % 16), hexDigit (b5.toNat / 16), 45,
       hexDigit (b6.toNat % 16), hexDigit (b6.toNat / 16), hexDigit (b7.toNat % 16), hexDigit (b7.toNat / 16), 45,
       hexDigit (b8.toNat % 16), hexDigit (b8.toNat / 16), hexDigit (b9.toNat % 16), hexDigit (b9.toNat / 16), 45,
       hexDigit (b10.toNat % 16), hexDigit (b10.toNat / 16), hexDigit (b11.toNat % 16), hexDigit (b11.toNat / 16),
       hexDigit (b12.toNat % 16), hexDigit (b12.toNat / 16), hexDigit (b13.toNat % 16), hexDigit (b13.toNat / 16),
       hexDigit (b14.toNat % 16), hexDigit (b14.toNat / 16), hexDigit (b15.toNat % 16), hexDigit (b15.toNat / 16)] := rfl

/-- the layout: 36 characters, dashes exactly at positions 8, 13, 18, 23, upper-case hexadecimal digits elsewhere -/
theorem text_layout {bs : List UInt8} (h : bs.length = 16) : (text bs).length = 36 ∧
    ∀ (i : Nat) (c : UInt8), (text bs)[i]? = some c →
      (c = 45 ↔ i = 8 ∨ i = 13 ∨ i = 18 ∨ i = 23) ∧
      (c ≠ 45 → (48 ≤ c.toNat ∧ c.toNat ≤ 57) ∨ (65 ≤ c.toNat ∧ c.toNat ≤ 70)) := by
  have hd : ∀ n : Fin 16, hexDigit n ≠ 45 ∧ ((48 ≤ (hexDigit n).toNat ∧ (hexDigit n).toNat ≤ 57) ∨ (65 ≤ (hexDigit n).toNat ∧ (hexDigit n).toNat ≤ 70)) := by
    decide +kernel
  have lo : ∀ b : UInt8, hexDigit (b.toNat % 16) ≠ 45 ∧ ((48 ≤ (hexDigit (b.toNat % 16)).toNat ∧ (hexDigit (b.toNat % 16)).toNat ≤ 57) ∨ (65 ≤ (hexDigit (b.toNat % 16)).toNat ∧ (hexDigit (b.toNat % 16)).toNat ≤ 70)) :=
    fun b => hd ⟨b.toNat % 16, by omega⟩
  have hi : ∀ b : UInt8, hexDigit (b.toNat / 16) ≠ 45 ∧ ((48 ≤ (hexDigit (b.toNat / 16)).toNat ∧ (hexDigit (b.toNat / 16)).toNat ≤ 57) ∨ (65 ≤ (hexDigit (b.toNat / 16)).toNat ∧ (hexDigit (b.toNat / 16)).toNat ≤ 70)) :=
    fun b => hd ⟨b.toNat / 16, by have := b.toNat_lt; omega⟩
  match bs, h with
  | [b0, b1, b2, b3, b4, b5, b6, b7, b8, b9, b10, b11, b12, b13, b14, b15], _ =>
    refine ⟨rfl, fun i c hc => ?_⟩
    have hlt : i < 36 := by
      rcases Nat.lt_or_ge i 36 with h | h
      · exact h
      · rw [List.getElem?_eq_none (by exact h)] at hc; simp at hc
    have dig : ∀ d : UInt8, d = c → ¬ (i = 8 ∨ i = 13 ∨ i = 18 ∨ i = 23) → (d ≠ 45 ∧ ((48 ≤ d.toNat ∧ d.toNat ≤ 57) ∨ (65 ≤ d.toNat ∧ d.toNat ≤ 70))) →
        (c = 45 ↔ i = 8 ∨ i = 13 ∨ i = 18 ∨ i = 23) ∧ (c ≠ 45 → (48 ≤ c.toNat ∧ c.toNat ≤ 57) ∨ (65 ≤ c.toNat ∧ c.toNat ≤ 70)) := by
      rintro d rfl hn ⟨h1, h2⟩
      exact ⟨⟨fun h => absurd h h1, fun h => absurd h hn⟩, fun _ => h2⟩
    rcases i with _ | _ | _ | _ | _ | _ | _ | _ | _ | _ | _ | _ | _ | _ | _ | _ | _ | _ | _ | _ | _ | _ | _ | _ | _ | _ | _ | _ | _ | _ | _ | _ | _ | _ | _ | _ | i
    all_goals first
      | omega
      | (simp only [text16, List.getElem?_cons_succ, List.getElem?_cons_zero, Option.some.injEq] at hc
         first
           | exact dig _ hc (by omega) (lo _)
           | exact dig _ hc (by omega) (hi _)
           | (subst hc; simp))

/-- The variant digit (position 19 of the text) is always one of 8, 9, A, B, as RFC 4122 requires; a digit 4 is always
at position 17. -/
theorem variant_digit_partial (rs : List Nat) : (∃ k < 4, (text (uuid rs))[19]? = some (hexDigit (8 + k))) ∧ (text (uuid rs))[17]? = some 52 := by
  have h7 : ∀ r : Nat, (UInt8.ofNat (64 + r % 256 % 16)).toNat / 16 = 4 := by
    intro r; simp; omega
  have h8 : ∀ r : Nat, (UInt8.ofNat (r % 256 / 16 * 16 + 8 + r % 256 % 4)).toNat % 16 = 8 + r % 4 := by
    intro r; simp; omega
  have e : uuid rs = (List.range 16).map (fun i => (uuid rs).getD i 0) := by
    simp [uuid, List.range, List.range.loop]
  have e7 : (uuid rs).getD 7 0 = UInt8.ofNat (64 + rs.getD 7 0 % 256 % 16) := by simp [uuid, List.range, List.range.loop]
  have e8 : (uuid rs).getD 8 0 = UInt8.ofNat (rs.getD 8 0 % 256 / 16 * 16 + 8 + rs.getD 8 0 % 256 % 4) := by simp [uuid, List.range, List.range.loop]
  rw [e]
  simp only [List.range, List.range.loop, List.map_cons, List.map_nil, text16, List.getElem?_cons_succ, List.getElem?_cons_zero]
  rw [e7, e8, h7, h8]
  exact ⟨⟨rs.getD 8 0 % 4, Nat.mod_lt _ (by decide), rfl⟩, rfl⟩

/-- but the version digit (position 14 in RFC 4122) is arbitrary: every digit occurs there -/
theorem version_digit_arbitrary (v : Nat) (hv : v < 16) :
    (text (uuid (List.replicate 16 v)))[14]? = some (hexDigit v) := by
  have : ∀ v : Fin 16, (text (uuid (List.replicate 16 v.val)))[14]? = some (hexDigit v) := by decide +kernel
  exact this ⟨v, hv⟩

/-- A concrete run: random values 0, 17, 34, …; 40 bytes of room, the rest of the buffer untouched.  The version digit 4
is at position 17 of the text: the digits of each byte are swapped with respect to RFC 4122 (position 14). -/
def demoRand : M Nat := do
  let n ← loadInt 1000 0
  store 1000 0 (.int (n + 17))
  pure n

def demoSt : St := { heap := fun p => if p = 1000 then some [.int 0] else if p = 1 then some (List.replicate 40 (.byte 7)) else none, alloc := bump, tick := 0 }

example : outcome (do let r ← UniqueId_Generate demoRand (List.replicate 16 9) 1 40; let l ← loadN 1 0 40; pure (r, l)) demoSt
    = some (.ok (.ok, bytesV ("00112233-4455-6674-8899-AABBCCDDEEFF".toUTF8.toList ++ [0, 7, 7, 7]))) := by decide +kernel

example : outcome (do let r ← UniqueId_Generate demoRand (List.replicate 16 9) 1 36; let l ← loadN 1 0 40; pure (r, l)) demoSt
    = some (.ok (.invalid_arg, List.replicate 40 (.byte 7))) := by decide +kernel

theorem demo_honours : Honours rel demoRand (fun _ => ∃∃ n : Nat, (True) ⋏ 1000 ↦ [.int n]) := by
  intro rs
  unfold demoRand
  hoist
  intro n
  stepd (loadInt_spec (n := n) ?_)
  stepd (store_spec ?_)
  exact Triple.pure (entails_ex_r (n + 17) (entails_pand_r (entails_refl _) trivial))

end Verif.Uid
