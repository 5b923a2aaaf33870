import Verif.Mem
/-!
# Percent-encoding, written independently of the code
-/
namespace Verif.Url

/-- the characters that stand for themselves: letters, digits and `! ( ) * - . _` -/
def unreserved (b : UInt8) : Bool :=
  ('A'.toNat ≤ b.toNat ∧ b.toNat ≤ 'Z'.toNat) ∨ ('a'.toNat ≤ b.toNat ∧ b.toNat ≤ 'z'.toNat) ∨ ('0'.toNat ≤ b.toNat ∧ b.toNat ≤ '9'.toNat) ∨
    ['!', '(', ')', '*', '-', '.', '_'].any fun c => c.toNat = b.toNat

/-- a lower-case hexadecimal digit -/
def hex (n : Nat) : UInt8 := if n < 10 then UInt8.ofNat ('0'.toNat + n) else UInt8.ofNat ('a'.toNat + (n - 10))

def percent : UInt8 := UInt8.ofNat '%'.toNat

/-- `%xx` -/
def pct (b : Nat) : List UInt8 := [percent, hex (b / 16), hex (b % 16)]

/-- UTF-8 of a code point below 256 -/
def utf8 (b : UInt8) : List UInt8 :=
  if b.toNat < 128 then [b] else [UInt8.ofNat (192 + b.toNat / 64), UInt8.ofNat (128 + b.toNat % 64)]

/-- the encoding of one byte -/
def enc1 (b : UInt8) : List UInt8 := if unreserved b then [b] else (utf8 b).flatMap fun x => pct x.toNat

/-- the encoding of a text -/
def encode (t : List UInt8) : List UInt8 := t.flatMap enc1

/-- the value of a hexadecimal digit (RFC 3986: upper or lower case) -/
def unhex (c : UInt8) : Option Nat :=
  let n := c.toNat
  if '0'.toNat ≤ n ∧ n ≤ '9'.toNat then some (n - '0'.toNat)
  else if 'a'.toNat ≤ n ∧ n ≤ 'f'.toNat then some (n - 'a'.toNat + 10)
  else if 'A'.toNat ≤ n ∧ n ≤ 'F'.toNat then some (n - 'A'.toNat + 10)
  else none

/-- percent-decoding (RFC 3986): `%` must be followed by two hexadecimal digits -/
def decode : List UInt8 → Option (List UInt8)
  | [] => some []
  | c :: h :: l :: rest =>
    if c = percent then
      match unhex h, unhex l with
      | some a, some b => (decode rest).map (UInt8.ofNat (a * 16 + b) :: ·)
      | _, _ => none
    else (decode (h :: l :: rest)).map (c :: ·)
  | [c, h] => if c = percent then none else (decode [h]).map (c :: ·)
  | [c] => if c = percent then none else some [c]

theorem decode_plain {c : UInt8} (h : c ≠ percent) (t : List UInt8) : decode (c :: t) = (decode t).map (c :: ·) := by
  match t with
  | [] => simp [decode, h]
  | [a] => simp [decode, h]
  | a :: b :: r => rw [decode, if_neg h]

theorem hex_unhex : ∀ x : Fin 16, unhex (hex x.val) = some x.val := by decide

theorem decode_pct (b : UInt8) (t : List UInt8) : decode (pct b.toNat ++ t) = (decode t).map (b :: ·) := by
  have hb := b.toNat_lt
  have e1 := hex_unhex ⟨b.toNat / 16, by omega⟩
  have e2 := hex_unhex ⟨b.toNat % 16, by omega⟩
  simp only at e1 e2
  simp only [pct, List.cons_append, List.nil_append, decode, if_true, e1, e2]
  rw [show b.toNat / 16 * 16 + b.toNat % 16 = b.toNat by omega]
  simp

/-- C23: percent-decoding the encoding gives the UTF-8 form of the (Latin-1) text. -/
theorem decode_encode : ∀ t : List UInt8, decode (encode t) = some (t.flatMap utf8)
  | [] => rfl
  | b :: t => by
    have ih := decode_encode t
    have hpc : ∀ b : UInt8, unreserved b = true → b ≠ percent ∧ utf8 b = [b] := by
      intro b
      have key : ∀ x : Fin 256, unreserved (UInt8.ofNat x.val) = true → UInt8.ofNat x.val ≠ percent ∧ utf8 (UInt8.ofNat x.val) = [UInt8.ofNat x.val] := by
        decide +kernel
      have := key ⟨b.toNat, b.toNat_lt⟩
      simpa using this
    show decode (enc1 b ++ encode t) = _
    unfold enc1
    by_cases hu : unreserved b = true
    · obtain ⟨h1, h2⟩ := hpc b hu
      rw [if_pos hu, List.singleton_append, decode_plain h1, ih, List.flatMap_cons, h2]
      rfl
    · rw [if_neg hu, List.flatMap_cons]
      have : ∀ (l r : List UInt8), decode ((l.flatMap fun x => pct x.toNat) ++ r) = (decode r).map (l ++ ·) := by
        intro l r
        induction l with
        | nil => simp
        | cons a l ih =>
          rw [List.flatMap_cons, List.append_assoc, decode_pct, ih]
          cases decode r <;> simp
      rw [this, ih]
      rfl

theorem utf8_injective : ∀ (a b : List UInt8), a.flatMap utf8 = b.flatMap utf8 → a = b
  | [], [], _ => rfl
  | [], b :: bs, h => by
    simp only [List.flatMap_nil, List.flatMap_cons, utf8] at h
    split at h <;> simp at h
  | a :: as, [], h => by
    simp only [List.flatMap_nil, List.flatMap_cons, utf8] at h
    split at h <;> simp at h
  | a :: as, b :: bs, h => by
    have ha := a.toNat_lt; have hb := b.toNat_lt
    simp only [List.flatMap_cons, utf8] at h
    have inj : ∀ x y : Nat, x < 256 → y < 256 → UInt8.ofNat x = UInt8.ofNat y → x = y := by
      intro x y hx hy e
      have := congrArg UInt8.toNat e
      simpa [Nat.mod_eq_of_lt, hx, hy] using this
    have lift : ∀ x : UInt8, x = UInt8.ofNat x.toNat := by intro x; simp
    split at h <;> split at h
    · simp only [List.cons_append, List.nil_append, List.cons.injEq] at h
      rw [h.1, utf8_injective as bs h.2]
    · simp only [List.cons_append, List.nil_append, List.cons.injEq] at h
      have := h.1; rw [lift a] at this
      have := inj _ _ (by omega) (by omega) this; omega
    · simp only [List.cons_append, List.nil_append, List.cons.injEq] at h
      have := h.1; rw [lift b] at this
      have := inj _ _ (by omega) (by omega) this; omega
    · simp only [List.cons_append, List.nil_append, List.cons.injEq] at h
      have h1 := inj _ _ (by omega) (by omega) h.1
      have h2 := inj _ _ (by omega) (by omega) h.2.1
      rw [utf8_injective as bs h.2.2]
      congr 1
      apply UInt8.toNat_inj.mp; omega

/-- C23: different texts have different encodings. -/
theorem encode_injective {a b : List UInt8} (h : encode a = encode b) : a = b := by
  have := decode_encode a
  rw [h, decode_encode b] at this
  exact (utf8_injective _ _ (Option.some.inj this)).symm

/-- C23: the output consists of unreserved characters and `%`. -/
theorem encode_chars (t : List UInt8) : ∀ c ∈ encode t, unreserved c = true ∨ c = percent := by
  intro c hc
  obtain ⟨b, -, hb⟩ := List.mem_flatMap.mp hc
  have key : ∀ x : Fin 256, ∀ c ∈ enc1 (UInt8.ofNat x.val), unreserved c = true ∨ c = percent := by decide +kernel
  have := key ⟨b.toNat, b.toNat_lt⟩ c
  simp only [UInt8.ofNat_toNat] at this
  exact this hb

private def ascii (s : String) : List UInt8 := s.toList.map fun c => UInt8.ofNat c.toNat
example : encode (ascii "a b/c?d=e%") = ascii "a%20b%2fc%3fd%3de%25" := by decide +kernel
example : encode [233] = ascii "%c3%a9" := by decide +kernel

end Verif.Url
