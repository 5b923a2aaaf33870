import Verif.Strings.Model
import Verif.Buffer.Model
/-!
# Model of `/repo/src/base64.c`

Characters are bytes; a `while` loop that scans a string is structural recursion over the storage the pointer designates (running off
the end, or reading an indeterminate byte, is undefined behaviour).
-/
namespace Verif.Base64
open Verif Verif.Strings Verif.Buffer

/-- base64.c:21-29 -/
def base64char : List UInt8 :=
  [65, 66, 67, 68, 69, 70, 71, 72, 73, 74,
   75, 76, 77, 78, 79, 80, 81, 82, 83, 84,
   85, 86, 87, 88, 89, 90, 97, 98, 99, 100,
   101, 102, 103, 104, 105, 106, 107, 108, 109, 110,
   111, 112, 113, 114, 115, 116, 117, 118, 119, 120,
   121, 122, 48, 49, 50, 51, 52, 53, 54, 55,
   56, 57, 43, 47]

/-- base64.c:31-34 -/
def base64b16 : List UInt8 := [65, 69, 73, 77, 81, 85, 89, 99, 103, 107, 111, 115, 119, 48, 52, 56]

/-- base64.c:36-38 -/
def base64b8 : List UInt8 := [65, 81, 103, 119]

/-- `table[i]` -/
def tab (t : List UInt8) (i : UInt8) : M UInt8 :=
  match t[i.toNat]? with
  | some c => pure c
  | none => ub "table index out of bounds"

/-- base64.c:40-69; `none` is the result -1 (then `*value` is 0) -/
def base64toValue (c : UInt8) : Option UInt8 :=
  if 65 ≤ c ∧ c ≤ 90 then some (c - 65)
  else if 97 ≤ c ∧ c ≤ 122 then some (25 + 1 + (c - 97))
  else if 48 ≤ c ∧ c ≤ 57 then some (25 + 1 + 25 + 1 + (c - 48))
  else if c = 43 then some 62
  else if c = 47 then some 63
  else none

/-- base64.c:75-78: the loop of `numberOfBase64Characters` over the storage of the string -/
def countLoop : List Val → Nat → M Nat
  | .byte b :: vs, length => if base64toValue b ≠ none then countLoop vs (length + 1) else pure length
  | _, _ => ub "read past the end of the string"

/-- base64.c:71-80 -/
def numberOfBase64Characters (encodedString : CharPtr) : M Nat := do
  let vs ← storage encodedString
  countLoop vs 0

/-- base64.c:81-112 -/
def Base64decode_len (encodedString : CharPtr) : M Nat := do
  let n ← strlen encodedString
  if n ≠ 0 then
    let c ← charAt encodedString (n - 1)
    if c = 61 then
      if n - 1 ≠ 0 then
        let c' ← charAt encodedString (n - 1 - 1)
        if c' = 61 then pure ((n - 1 - 1) / 4 * 3 + 1)
        else pure ((n - 1) / 4 * 3 + 2)
      else pure ((n - 1) / 4 * 3 + 2)
    else pure (n / 4 * 3)
  else pure (n / 4 * 3)

/-- `(void)base64toValue(s[i], &c)` -/
def valueAt (s : CharPtr) (i : Nat) : M UInt8 := do
  let c ← charAt s i
  pure ((base64toValue c).getD 0)

/-- base64.c:130-170: the loop of `Base64decode` and what follows it; the arguments are `numberOfEncodedChars`,
`indexOfFirstEncodedChar`, `decodedIndex` -/
def decodeLoop (decodedString : Ptr) (base64String : CharPtr) : Nat → Nat → Nat → M Unit
  | n + 4, i, d => do
    let c1 ← valueAt base64String i
    let c2 ← valueAt base64String (i + 1)
    let c3 ← valueAt base64String (i + 2)
    let c4 ← valueAt base64String (i + 3)
    store decodedString d (.byte ((c1 <<< 2) ||| (c2 >>> 4)))
    store decodedString (d + 1) (.byte (((c2 &&& 0x0f) <<< 4) ||| (c3 >>> 2)))
    store decodedString (d + 2) (.byte (((c3 &&& 0x03) <<< 6) ||| c4))
    decodeLoop decodedString base64String n (i + 4) (d + 3)
  | 2, i, d => do
    let c1 ← valueAt base64String i
    let c2 ← valueAt base64String (i + 1)
    store decodedString d (.byte ((c1 <<< 2) ||| (c2 >>> 4)))
  | 3, i, d => do
    let c1 ← valueAt base64String i
    let c2 ← valueAt base64String (i + 1)
    let c3 ← valueAt base64String (i + 2)
    store decodedString d (.byte ((c1 <<< 2) ||| (c2 >>> 4)))
    store decodedString (d + 1) (.byte (((c2 &&& 0x0f) <<< 4) ||| (c3 >>> 2)))
  | _, _, _ => pure ()

/-- base64.c:114-171 -/
def Base64decode (decodedString : Ptr) (base64String : CharPtr) : M Unit := do
  let numberOfEncodedChars ← numberOfBase64Characters base64String
  decodeLoop decodedString base64String numberOfEncodedChars 0 0

/-- base64.c:173-214 -/
def Base64_Decoder (source : CharPtr) : M Ptr := do
  if source ≠ .null then
    let lengthOfSource ← numberOfBase64Characters source
    if lengthOfSource % 4 = 1 then pure 0
    else
      let result ← BUFFER_new
      if result = 0 then pure 0
      else
        let sizeOfOutputBuffer ← Base64decode_len source
        if sizeOfOutputBuffer > 0 then
          let r ← BUFFER_pre_build result sizeOfOutputBuffer
          if r ≠ 0 then
            BUFFER_delete result
            pure 0
          else
            let u ← BUFFER_u_char result
            Base64decode u source
            pure result
        else pure result
  else pure 0

/-- base64.c:240-285: the loop of `Base64_Encode_Internal` and what follows it; the arguments are `size - currentPosition`,
`currentPosition`, `destinationPosition` -/
def encodeLoop (encoded : Ptr) (source : CharPtr) : Nat → Nat → Nat → M Unit
  | r + 3, p, d => do
    let s0 ← charAt source p
    let c1 ← tab base64char (s0 >>> 2)
    let s1 ← charAt source (p + 1)
    let c2 ← tab base64char (((s0 &&& 3) <<< 4) ||| (s1 >>> 4))
    let s2 ← charAt source (p + 2)
    let c3 ← tab base64char (((s1 &&& 0x0F) <<< 2) ||| ((s2 >>> 6) &&& 3))
    let c4 ← tab base64char (s2 &&& 0x3F)
    store encoded d (.byte c1)
    store encoded (d + 1) (.byte c2)
    store encoded (d + 2) (.byte c3)
    store encoded (d + 3) (.byte c4)
    encodeLoop encoded source r (p + 3) (d + 4)
  | 2, p, d => do
    let s0 ← charAt source p
    let c1 ← tab base64char (s0 >>> 2)
    let s1 ← charAt source (p + 1)
    let c2 ← tab base64char (((s0 &&& 0x03) <<< 4) ||| (s1 >>> 4))
    let c3 ← tab base64b16 (s1 &&& 0x0F)
    store encoded d (.byte c1)
    store encoded (d + 1) (.byte c2)
    store encoded (d + 2) (.byte c3)
    store encoded (d + 3) (.byte 61)
    store encoded (d + 4) (.byte 0)
  | 1, p, d => do
    let s0 ← charAt source p
    let c1 ← tab base64char (s0 >>> 2)
    let c2 ← tab base64b8 (s0 &&& 0x03)
    store encoded d (.byte c1)
    store encoded (d + 1) (.byte c2)
    store encoded (d + 2) (.byte 61)
    store encoded (d + 3) (.byte 61)
    store encoded (d + 4) (.byte 0)
  | 0, _, d => store encoded d (.byte 0)

/-- base64.c:217-295 -/
def Base64_Encode_Internal (source : CharPtr) (size : Nat) : M Ptr := do
  let neededSize := ((if size = 0 then 0 else ((size - 1) / 3 + 1) * 4) + 1) % szMod
  let encoded ← malloc neededSize
  if encoded = 0 then pure 0
  else
    encodeLoop encoded source size 0 0
    let result ← STRING_new_with_memory encoded
    if result = 0 then
      free encoded
      pure 0
    else pure result

/-- base64.c:297-315 -/
def Base64_Encode_Bytes (source : CharPtr) (size : Nat) : M Ptr := do
  if source = .null then pure 0
  else if size = 0 then STRING_new
  else Base64_Encode_Internal source size

/-- base64.c:317-349 -/
def Base64_Encode (input : Ptr) : M Ptr := do
  if input = 0 then pure 0
  else
    let r1 ← BUFFER_content input true
    if r1.1 ≠ 0 then pure 0
    else
      let r2 ← BUFFER_size input true
      if r2.1 ≠ 0 then pure 0
      else Base64_Encode_Internal (.ofPtr (r1.2.getD 0)) (r2.2.getD 0)

end Verif.Base64
