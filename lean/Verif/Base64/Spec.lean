import Verif.Mem
/-!
# RFC 4648 base64 (section 4), written independently of the code

Three bytes are a 24-bit number, written as four 6-bit digits; a final group of two (one) bytes is extended with zero bits to three
(two) digits and padded with one (two) `=`.
-/
namespace Verif.Base64

/-- Table 1 of RFC 4648: the character of a 6-bit value -/
def alphabet (v : Nat) : UInt8 :=
  if v < 26 then UInt8.ofNat ('A'.toNat + v)
  else if v < 52 then UInt8.ofNat ('a'.toNat + (v - 26))
  else if v < 62 then UInt8.ofNat ('0'.toNat + (v - 52))
  else if v = 62 then UInt8.ofNat '+'.toNat
  else UInt8.ofNat '/'.toNat

/-- `=` -/
def pad : UInt8 := UInt8.ofNat '='.toNat

/-- digit `i` (0 is the least significant) of `n` in base 64, as a character -/
def digit (n i : Nat) : UInt8 := alphabet (n / 64 ^ i % 64)

/-- The RFC 4648 encoding of a byte string. -/
def rfc4648 : List UInt8 → List UInt8
  | a :: b :: c :: rest =>
    let n := a.toNat * 65536 + b.toNat * 256 + c.toNat
    [digit n 3, digit n 2, digit n 1, digit n 0] ++ rfc4648 rest
  | [a, b] =>
    let n := (a.toNat * 256 + b.toNat) * 4
    [digit n 2, digit n 1, digit n 0, pad]
  | [a] =>
    let n := a.toNat * 16
    [digit n 1, digit n 0, pad, pad]
  | [] => []

/-- `c` is the character of the value `v` -/
def IsDigit (c : UInt8) (v : Nat) : Prop := v < 64 ∧ alphabet v = c

/-- byte `i` of the number `n` -/
def byteOf (n i : Nat) : UInt8 := UInt8.ofNat (n / 256 ^ i % 256)

/-- `Decodes t bs`: `t` is a base64 text and `bs` the bytes it stands for.  (Unused bits of the last digit are not required to be 0.) -/
inductive Decodes : List UInt8 → List UInt8 → Prop
  | nil : Decodes [] []
  | four {c1 c2 c3 c4 v1 v2 v3 v4 t bs} : IsDigit c1 v1 → IsDigit c2 v2 → IsDigit c3 v3 → IsDigit c4 v4 → Decodes t bs →
      Decodes (c1 :: c2 :: c3 :: c4 :: t)
        (let n := v1 * 64 ^ 3 + v2 * 64 ^ 2 + v3 * 64 + v4; byteOf n 2 :: byteOf n 1 :: byteOf n 0 :: bs)
  | three {c1 c2 c3 v1 v2 v3} : IsDigit c1 v1 → IsDigit c2 v2 → IsDigit c3 v3 →
      Decodes [c1, c2, c3, pad] (let n := (v1 * 64 ^ 2 + v2 * 64 + v3) / 4; [byteOf n 1, byteOf n 0])
  | two {c1 c2 v1 v2} : IsDigit c1 v1 → IsDigit c2 v2 →
      Decodes [c1, c2, pad, pad] (let n := (v1 * 64 + v2) / 16; [byteOf n 0])

/-! The RFC's test vectors (section 10). -/
private def ascii (s : String) : List UInt8 := s.toList.map fun c => UInt8.ofNat c.toNat
example : rfc4648 (ascii "") = ascii "" := by decide
example : rfc4648 (ascii "f") = ascii "Zg==" := by decide
example : rfc4648 (ascii "fo") = ascii "Zm8=" := by decide
example : rfc4648 (ascii "foo") = ascii "Zm9v" := by decide
example : rfc4648 (ascii "foob") = ascii "Zm9vYg==" := by decide
example : rfc4648 (ascii "fooba") = ascii "Zm9vYmE=" := by decide
example : rfc4648 (ascii "foobar") = ascii "Zm9vYmFy" := by decide

/-- length `4 * ⌈n/3⌉` -/
theorem rfc4648_length : ∀ bs : List UInt8, (rfc4648 bs).length = (bs.length + 2) / 3 * 4
  | a :: b :: c :: rest => by
    simp only [rfc4648, List.length_append, List.length_cons, List.length_nil, rfc4648_length rest]; omega
  | [a, b] => by simp [rfc4648]
  | [a] => by simp [rfc4648]
  | [] => by simp [rfc4648]

theorem IsDigit.unique {c : UInt8} {v w : Nat} (h1 : IsDigit c v) (h2 : IsDigit c w) : v = w := by
  obtain ⟨a, rfl⟩ := h1
  obtain ⟨b, h⟩ := h2
  have key : ∀ x y : Fin 64, alphabet x.val = alphabet y.val → x = y := by decide +kernel
  have := key ⟨w, b⟩ ⟨v, a⟩ h
  simpa using (congrArg Fin.val this).symm

theorem not_pad {v : Nat} (h : IsDigit pad v) : False := by
  have key : ∀ x : Fin 64, alphabet x.val ≠ pad := by decide
  exact key ⟨v, h.1⟩ h.2

/-- a text stands for at most one byte string -/
theorem Decodes.unique {t bs cs : List UInt8} (h1 : Decodes t bs) (h2 : Decodes t cs) : bs = cs := by
  induction h1 generalizing cs with
  | nil => cases h2; rfl
  | four a1 a2 a3 a4 _ ih =>
    cases h2 with
    | four b1 b2 b3 b4 h => rw [a1.unique b1, a2.unique b2, a3.unique b3, a4.unique b4, ih h]
    | three => exact (not_pad a4).elim
    | two => exact (not_pad a4).elim
  | three a1 a2 a3 =>
    cases h2 with
    | four b1 b2 b3 b4 h => exact (not_pad b4).elim
    | three b1 b2 b3 => rw [a1.unique b1, a2.unique b2, a3.unique b3]
    | two => exact (not_pad a3).elim
  | two a1 a2 =>
    cases h2 with
    | four b1 b2 b3 b4 h => exact (not_pad b4).elim
    | three b1 b2 b3 => exact (not_pad b3).elim
    | two b1 b2 => rw [a1.unique b1, a2.unique b2]

theorem digit_is (n i : Nat) : IsDigit (digit n i) (n / 64 ^ i % 64) := ⟨Nat.mod_lt _ (by omega), rfl⟩

/-- C21 (specification side): the encoding of a byte string stands for that byte string. -/
theorem Decodes_rfc4648 : ∀ bs : List UInt8, Decodes (rfc4648 bs) bs
  | a :: b :: c :: rest => by
    have ha := a.toNat_lt; have hb := b.toNat_lt; have hc := c.toNat_lt
    have e : ∀ n, n = a.toNat * 65536 + b.toNat * 256 + c.toNat →
        a :: b :: c :: rest = (let m := (n / 64 ^ 3 % 64) * 64 ^ 3 + (n / 64 ^ 2 % 64) * 64 ^ 2 + (n / 64 ^ 1 % 64) * 64 + n / 64 ^ 0 % 64
          byteOf m 2 :: byteOf m 1 :: byteOf m 0 :: rest) := by
      intro n hn
      dsimp only
      have hm : (n / 64 ^ 3 % 64) * 64 ^ 3 + (n / 64 ^ 2 % 64) * 64 ^ 2 + (n / 64 ^ 1 % 64) * 64 + n / 64 ^ 0 % 64 = n := by
        simp only [Nat.reducePow, Nat.pow_one, Nat.pow_zero, Nat.div_one]; omega
      rw [hm]
      have e2 : n / 256 ^ 2 % 256 = a.toNat := by simp only [Nat.reducePow]; omega
      have e1 : n / 256 ^ 1 % 256 = b.toNat := by simp only [Nat.pow_one]; omega
      have e0 : n / 256 ^ 0 % 256 = c.toNat := by simp only [Nat.pow_zero, Nat.div_one]; omega
      simp only [byteOf, e2, e1, e0, UInt8.ofNat_toNat]
    obtain ⟨n, hn⟩ : ∃ n, n = a.toNat * 65536 + b.toNat * 256 + c.toNat := ⟨_, rfl⟩
    have := Decodes.four (digit_is n 3) (digit_is n 2) (digit_is n 1) (digit_is n 0) (Decodes_rfc4648 rest)
    rw [← e n hn] at this
    simp only [rfc4648, List.cons_append, List.nil_append]
    rw [← hn]
    exact this
  | [a, b] => by
    have ha := a.toNat_lt; have hb := b.toNat_lt
    have e : ∀ n, n = (a.toNat * 256 + b.toNat) * 4 →
        [a, b] = (let m := ((n / 64 ^ 2 % 64) * 64 ^ 2 + (n / 64 ^ 1 % 64) * 64 + n / 64 ^ 0 % 64) / 4; [byteOf m 1, byteOf m 0]) := by
      intro n hn
      dsimp only
      have hm : ((n / 64 ^ 2 % 64) * 64 ^ 2 + (n / 64 ^ 1 % 64) * 64 + n / 64 ^ 0 % 64) / 4 = a.toNat * 256 + b.toNat := by
        simp only [Nat.reducePow, Nat.pow_one, Nat.pow_zero, Nat.div_one]; omega
      rw [hm]
      have e1 : (a.toNat * 256 + b.toNat) / 256 ^ 1 % 256 = a.toNat := by simp only [Nat.pow_one]; omega
      have e0 : (a.toNat * 256 + b.toNat) / 256 ^ 0 % 256 = b.toNat := by simp only [Nat.pow_zero, Nat.div_one]; omega
      simp only [byteOf, e1, e0, UInt8.ofNat_toNat]
    obtain ⟨n, hn⟩ : ∃ n, n = (a.toNat * 256 + b.toNat) * 4 := ⟨_, rfl⟩
    have := Decodes.three (digit_is n 2) (digit_is n 1) (digit_is n 0)
    rw [← e n hn] at this
    simp only [rfc4648]
    rw [← hn]
    exact this
  | [a] => by
    have ha := a.toNat_lt
    have e : ∀ n, n = a.toNat * 16 → [a] = (let m := ((n / 64 ^ 1 % 64) * 64 + n / 64 ^ 0 % 64) / 16; [byteOf m 0]) := by
      intro n hn
      dsimp only
      have hm : ((n / 64 ^ 1 % 64) * 64 + n / 64 ^ 0 % 64) / 16 = a.toNat := by
        simp only [Nat.pow_one, Nat.pow_zero, Nat.div_one]; omega
      rw [hm]
      have e0 : a.toNat / 256 ^ 0 % 256 = a.toNat := by simp only [Nat.pow_zero, Nat.div_one]; omega
      simp only [byteOf, e0, UInt8.ofNat_toNat]
    obtain ⟨n, hn⟩ : ∃ n, n = a.toNat * 16 := ⟨_, rfl⟩
    have := Decodes.two (digit_is n 1) (digit_is n 0)
    rw [← e n hn] at this
    simp only [rfc4648]
    rw [← hn]
    exact this
  | [] => Decodes.nil

/-! ## Texts that are not well formed

What the decoder does on any text: the leading base64 characters are decoded in groups of four. -/

/-- the value of a base64 character -/
def valOf (c : UInt8) : Option Nat := (List.range 64).find? fun v => alphabet v = c

/-- the leading base64 characters of a text -/
def digits (t : List UInt8) : List UInt8 := t.takeWhile fun c => (valOf c).isSome

/-- the bytes a string of base64 characters stands for (an incomplete last group gives the bytes it completely determines) -/
def decBytes : List UInt8 → List UInt8
  | c1 :: c2 :: c3 :: c4 :: rest =>
    let n := (valOf c1).getD 0 * 64 ^ 3 + (valOf c2).getD 0 * 64 ^ 2 + (valOf c3).getD 0 * 64 + (valOf c4).getD 0
    byteOf n 2 :: byteOf n 1 :: byteOf n 0 :: decBytes rest
  | [c1, c2, c3] =>
    let n := ((valOf c1).getD 0 * 64 ^ 2 + (valOf c2).getD 0 * 64 + (valOf c3).getD 0) / 4
    [byteOf n 1, byteOf n 0]
  | [c1, c2] =>
    let n := ((valOf c1).getD 0 * 64 + (valOf c2).getD 0) / 16
    [byteOf n 0]
  | _ => []

/-- the size allotted to the result: computed from the length of the text and its final `=` characters only -/
def room (t : List UInt8) : Nat :=
  if t.getLast? = some pad then
    if t.dropLast.getLast? = some pad then (t.length - 2) / 4 * 3 + 1 else (t.length - 1) / 4 * 3 + 2
  else t.length / 4 * 3

theorem IsDigit.valOf {c : UInt8} {v : Nat} (h : IsDigit c v) : valOf c = some v := by
  cases e : Base64.valOf c with
  | none =>
    have := List.find?_eq_none.mp e v (by simpa using h.1)
    simp [h.2] at this
  | some w =>
    have h1 := List.find?_some e
    have h2 := List.mem_of_find?_eq_some e
    have : IsDigit c w := ⟨by simpa using h2, by simpa using h1⟩
    rw [h.unique this]

theorem valOf_pad : valOf pad = none := by decide +kernel
theorem valOf_zero : valOf 0 = none := by decide +kernel

theorem room_pad2 {t : List UInt8} {a b : UInt8} : room (t ++ [a, b, pad, pad]) = (t.length + 2) / 4 * 3 + 1 := by
  have e : t ++ [a, b, pad, pad] = (t ++ [a, b, pad]) ++ [pad] := by simp
  have e' : t ++ [a, b, pad] = (t ++ [a, b]) ++ [pad] := by simp
  rw [room, if_pos (by rw [e, List.getLast?_concat]), if_pos (by rw [e, List.dropLast_concat, e', List.getLast?_concat])]
  simp
theorem room_pad1 {t : List UInt8} {a b c : UInt8} (hc : c ≠ pad) : room (t ++ [a, b, c, pad]) = (t.length + 3) / 4 * 3 + 2 := by
  have e : t ++ [a, b, c, pad] = (t ++ [a, b, c]) ++ [pad] := by simp
  have e' : t ++ [a, b, c] = (t ++ [a, b]) ++ [c] := by simp
  rw [room, if_pos (by rw [e, List.getLast?_concat]), if_neg (by rw [e, List.dropLast_concat, e', List.getLast?_concat]; simpa using hc)]
  simp
theorem room_pad0 {t : List UInt8} {c : UInt8} (hc : c ≠ pad) : room (t ++ [c]) = (t.length + 1) / 4 * 3 := by
  rw [room, if_neg (by rw [List.getLast?_concat]; simpa using hc)]
  simp

theorem room_cons4 {c1 c2 c3 c4 : UInt8} {t : List UInt8} (h : IsDigit c4 v4) (hd : t = [] ∨ 4 ≤ t.length) :
    room (c1 :: c2 :: c3 :: c4 :: t) = room t + 3 := by
  rcases hd with rfl | hd
  · rw [show [c1, c2, c3, c4] = [c1, c2, c3] ++ [c4] from rfl, room_pad0 (by rintro rfl; exact not_pad h)]
    simp [room]
  · unfold room
    have hne : t ≠ [] := by rintro rfl; simp at hd
    have hne2 : t.dropLast ≠ [] := by
      intro h; have := congrArg List.length h; simp at this; omega
    have e1 : (c1 :: c2 :: c3 :: c4 :: t).getLast? = t.getLast? := by
      rw [show c1 :: c2 :: c3 :: c4 :: t = [c1, c2, c3, c4] ++ t from rfl, List.getLast?_append]
      cases e : t.getLast? with
      | none => rw [List.getLast?_eq_none_iff] at e; exact (hne e).elim
      | some x => rfl
    have e2 : (c1 :: c2 :: c3 :: c4 :: t).dropLast.getLast? = t.dropLast.getLast? := by
      rw [show c1 :: c2 :: c3 :: c4 :: t = [c1, c2, c3, c4] ++ t from rfl, List.dropLast_append_of_ne_nil hne, List.getLast?_append]
      cases e : t.dropLast.getLast? with
      | none => rw [List.getLast?_eq_none_iff] at e; exact (hne2 e).elim
      | some x => rfl
    rw [e1, e2]
    simp only [List.length_cons]
    split
    · split <;> omega
    · omega

theorem Decodes.long {t bs : List UInt8} (h : Decodes t bs) : t = [] ∨ 4 ≤ t.length := by
  cases h <;> simp

/-- On a well formed text the three notions agree. -/
theorem Decodes.facts {t bs : List UInt8} (h : Decodes t bs) :
    decBytes (digits t) = bs ∧ room t = bs.length ∧ (digits t).length % 4 ≠ 1 := by
  induction h with
  | nil => decide
  | @four c1 c2 c3 c4 v1 v2 v3 v4 t bs h1 h2 h3 h4 hd ih =>
    obtain ⟨i1, i2, i3⟩ := ih
    have e : digits (c1 :: c2 :: c3 :: c4 :: t) = c1 :: c2 :: c3 :: c4 :: digits t := by
      simp [digits, h1.valOf, h2.valOf, h3.valOf, h4.valOf]
    rw [e, room_cons4 h4 hd.long, i2]
    refine ⟨?_, by simp, by simp; omega⟩
    simp only [decBytes, h1.valOf, h2.valOf, h3.valOf, h4.valOf, Option.getD_some, i1]
  | @three c1 c2 c3 v1 v2 v3 h1 h2 h3 =>
    have e : digits [c1, c2, c3, pad] = [c1, c2, c3] := by
      simp [digits, h1.valOf, h2.valOf, h3.valOf, valOf_pad]
    rw [e]
    refine ⟨by simp only [decBytes, h1.valOf, h2.valOf, h3.valOf, Option.getD_some], ?_, by simp⟩
    exact room_pad1 (t := []) (by rintro rfl; exact not_pad h3)
  | @two c1 c2 v1 v2 h1 h2 =>
    have e : digits [c1, c2, pad, pad] = [c1, c2] := by
      simp [digits, h1.valOf, h2.valOf, valOf_pad]
    rw [e]
    exact ⟨by simp only [decBytes, h1.valOf, h2.valOf, Option.getD_some], room_pad2 (t := []), by simp⟩

theorem room_le (t : List UInt8) : room t ≤ t.length + 1 := by
  unfold room
  split
  · rename_i h
    have : t ≠ [] := by rintro rfl; simp at h
    have : 0 < t.length := by cases t <;> simp_all
    split
    · rename_i h2
      have : t.dropLast ≠ [] := by intro h; rw [h] at h2; simp at h2
      have : 0 < t.dropLast.length := by cases h : t.dropLast <;> simp_all
      simp at this; omega
    · omega
  · omega

end Verif.Base64
