/-!
# RFC 8259 §7 strings (7-bit subset), independent of the code

`jsonString s` reads one JSON string literal at the front of `s` and returns its value (a list of code
units) together with the rest of the text; `none` if there is no well-formed literal.
Bytes ≥ 128 (UTF-8 sequences) are outside the subset and rejected.
-/
namespace Verif.Json

/-- one hexadecimal digit (either case), RFC 8259 §7 / RFC 5234 HEXDIG -/
def hexVal (c : UInt8) : Option Nat :=
  if 48 ≤ c ∧ c ≤ 57 then some (c.toNat - 48)
  else if 65 ≤ c ∧ c ≤ 70 then some (c.toNat - 55)
  else if 97 ≤ c ∧ c ≤ 102 then some (c.toNat - 87)
  else none

/-- the two-character escapes of RFC 8259 §7 -/
def escVal (c : UInt8) : Option Nat :=
  if c = 34 then some 34          -- \"
  else if c = 92 then some 92     -- \\
  else if c = 47 then some 47     -- \/
  else if c = 98 then some 8      -- \b
  else if c = 102 then some 12    -- \f
  else if c = 110 then some 10    -- \n
  else if c = 114 then some 13    -- \r
  else if c = 116 then some 9     -- \t
  else none

/-- one character of the body (`char` in RFC 8259 §7): its value and the rest; none for the closing quote -/
def jsonChar : List UInt8 → Option (Nat × List UInt8)
  | [] => none
  | c :: rest =>
    if c = 92 then
      match rest with
      | e :: rest' =>
        if e = 117 then
          match rest' with
          | a :: b :: c :: d :: rest'' => do
            let a ← hexVal a; let b ← hexVal b; let c ← hexVal c; let d ← hexVal d
            pure (((a * 16 + b) * 16 + c) * 16 + d, rest'')
          | _ => none
        else (escVal e).map (·, rest')
      | [] => none
    else if 0x20 ≤ c ∧ c < 0x80 ∧ c ≠ 34 then some (c.toNat, rest)
    else none

/-- body and closing quote -/
inductive JBody : List UInt8 → List Nat → List UInt8 → Prop
  | close (rest) : JBody (34 :: rest) [] rest
  | char {s v s' vs rest} : jsonChar s = some (v, s') → JBody s' vs rest → JBody s (v :: vs) rest

/-- `s` starts with a JSON string literal of value `v`; `rest` follows it. -/
def JString (s : List UInt8) (v : List Nat) (rest : List UInt8) : Prop := ∃ b, s = 34 :: b ∧ JBody b v rest

theorem jsonChar_quote (rest : List UInt8) : jsonChar (34 :: rest) = none := by simp [jsonChar]

/-- The reading is unique: a text has at most one value. -/
theorem JBody.unique {s v r v' r'} (h : JBody s v r) (h' : JBody s v' r') : v = v' ∧ r = r' := by
  induction h generalizing v' r' with
  | close rest =>
    cases h' with
    | close => exact ⟨rfl, rfl⟩
    | char hc _ => rw [jsonChar_quote] at hc; simp at hc
  | char hc _ ih =>
    cases h' with
    | close => rw [jsonChar_quote] at hc; simp at hc
    | char hc' hb' =>
      rw [hc] at hc'; simp at hc'; obtain ⟨rfl, rfl⟩ := hc'
      obtain ⟨rfl, rfl⟩ := ih hb'
      exact ⟨rfl, rfl⟩

theorem JString.unique {s v r v' r'} (h : JString s v r) (h' : JString s v' r') : v = v' ∧ r = r' := by
  obtain ⟨b, rfl, hb⟩ := h
  obtain ⟨b', e, hb'⟩ := h'
  simp at e; subst e
  exact hb.unique hb'

end Verif.Json
