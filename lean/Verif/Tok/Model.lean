import Verif.Strings.Model
import Verif.Crt.Model
/-!
# Model of `/repo/src/string_tokenizer.c`

`STRING_TOKEN` is a block of three slots `inputString`, `currentPos`, `sizeOfinputString`; `currentPos` is kept as an offset into
`inputString` (the code only ever compares, adds to and subtracts it within that string).
-/
namespace Verif.Tok
open Verif Verif.Strings Verif.Crt

abbrev fInput : Nat := 0
abbrev fPos : Nat := 1
abbrev fSize : Nat := 2

/-- string_tokenizer.c:48-76 -/
def STRING_TOKENIZER_create_from_char (input : CharPtr) : M Ptr := do
  if input = .null then pure 0
  else
    let result ← mallocS 3
    if result = 0 then pure 0
    else
      let r ← mallocAndStrcpy input
      if r.1 ≠ 0 then
        free result
        pure 0
      else
        store result fInput (.ptr r.2)
        store result fPos (.int 0)
        let n ← strlen (.ofPtr r.2)
        store result fSize (.int n)
        pure result

/-- string_tokenizer.c:28-46 -/
def STRING_TOKENIZER_create (handle : Ptr) : M Ptr := do
  if handle = 0 then pure 0
  else
    let s ← STRING_c_str handle
    STRING_TOKENIZER_create_from_char (.ofPtr s)

/-- `strchr(s, c)`: the offset of the first `c` (the terminating NUL counts), or `none` for NULL -/
def strchr (s : CharPtr) (c : UInt8) : M (Option Nat) := do
  let t ← cstr s
  pure ((t ++ [0]).findIdx? (· = c))

/-- string_tokenizer.c:113-120: `for (j …) if (currentPos[i] == delimiters[j]) { found; break; }`; the arguments are
`delimitterSize - j` and `j` -/
def isDelimiter (currentPos : CharPtr) (i : Nat) (delimiters : CharPtr) : Nat → Nat → M Bool
  | 0, _ => pure false
  | n + 1, j => do
    let a ← charAt currentPos i
    let b ← charAt delimiters j
    if a = b then pure true else isDelimiter currentPos i delimiters n (j + 1)

/-- string_tokenizer.c:110-127: the value of `i` at loop exit; the arguments are `remainingInputStringSize - i` and `i` -/
def skipLoop (currentPos delimiters : CharPtr) (delimitterSize : Nat) : Nat → Nat → M Nat
  | 0, i => pure i
  | n + 1, i => do
    let found ← isDelimiter currentPos i delimiters delimitterSize 0
    if found then skipLoop currentPos delimiters delimitterSize n (i + 1) else pure i

/-- string_tokenizer.c:150-157: `endOfTokenPosition` (as an offset from `currentPos`) at loop exit -/
def endLoop (currentPos delimiters : CharPtr) : Nat → Nat → M (Option Nat)
  | 0, _ => pure none
  | n + 1, j => do
    let d ← charAt delimiters j
    let e ← strchr currentPos d
    match e with
    | some k => pure (some k)
    | none => endLoop currentPos delimiters n (j + 1)

/-- string_tokenizer.c:78-196 -/
def STRING_TOKENIZER_get_next_token (tokenizer output : Ptr) (delimiters : CharPtr) : M Nat := do
  if tokenizer = 0 ∨ output = 0 ∨ delimiters = .null then pure 84
  else
    let size ← loadInt tokenizer fSize
    let pos ← loadInt tokenizer fPos
    let remaining := size - pos
    let delimitterSize ← strlen delimiters
    if remaining = 0 then pure 97
    else if delimitterSize = 0 then pure 102
    else
      let inp ← loadPtr tokenizer fInput
      let i ← skipLoop (.heap inp pos) delimiters delimitterSize remaining 0
      let pos := pos + i
      store tokenizer fPos (.int pos)
      let remaining := remaining - i
      if remaining = 0 then pure 138
      else
        let e ← endLoop (.heap inp pos) delimiters delimitterSize 0
        let amount := e.getD remaining
        let r ← STRING_copy_n output (.heap inp pos) amount
        if r ≠ 0 then pure 173
        else
          store tokenizer fPos (.int (if e.isSome then pos + (amount + 1) else pos + amount))
          pure 0

/-- string_tokenizer.c:199-209 -/
def STRING_TOKENIZER_destroy (t : Ptr) : M Unit := do
  if t ≠ 0 then
    let s ← loadPtr t fInput
    free s
    store t fInput (.ptr 0)
    free t
  else pure ()

end Verif.Tok
