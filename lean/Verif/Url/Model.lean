import Verif.Strings.Model
/-!
# Model of `/repo/src/urlencode.c`

The loops over the input are structural recursion over the storage of the input string as it is when the loop starts (the loop body
writes only to the block it allocated); running off its end or reading an indeterminate byte is undefined behaviour.
-/
namespace Verif.Url
open Verif Verif.Strings

/-- urlencode.c:22-282 (generated from the source: number of characters, bytes of the literal without its terminator) -/
def urlEncoding : List (Nat × List UInt8) :=
  [(1, [0]), (3, [37, 48, 49]), (3, [37, 48, 50]), (3, [37, 48, 51]),
   (3, [37, 48, 52]), (3, [37, 48, 53]), (3, [37, 48, 54]), (3, [37, 48, 55]),
   (3, [37, 48, 56]), (3, [37, 48, 57]), (3, [37, 48, 97]), (3, [37, 48, 98]),
   (3, [37, 48, 99]), (3, [37, 48, 100]), (3, [37, 48, 101]), (3, [37, 48, 102]),
   (3, [37, 49, 48]), (3, [37, 49, 49]), (3, [37, 49, 50]), (3, [37, 49, 51]),
   (3, [37, 49, 52]), (3, [37, 49, 53]), (3, [37, 49, 54]), (3, [37, 49, 55]),
   (3, [37, 49, 56]), (3, [37, 49, 57]), (3, [37, 49, 97]), (3, [37, 49, 98]),
   (3, [37, 49, 99]), (3, [37, 49, 100]), (3, [37, 49, 101]), (3, [37, 49, 102]),
   (3, [37, 50, 48]), (1, [33]), (3, [37, 50, 50]), (3, [37, 50, 51]),
   (3, [37, 50, 52]), (3, [37, 50, 53]), (3, [37, 50, 54]), (3, [37, 50, 55]),
   (1, [40]), (1, [41]), (1, [42]), (3, [37, 50, 98]),
   (3, [37, 50, 99]), (1, [45]), (1, [46]), (3, [37, 50, 102]),
   (1, [48]), (1, [49]), (1, [50]), (1, [51]),
   (1, [52]), (1, [53]), (1, [54]), (1, [55]),
   (1, [56]), (1, [57]), (3, [37, 51, 97]), (3, [37, 51, 98]),
   (3, [37, 51, 99]), (3, [37, 51, 100]), (3, [37, 51, 101]), (3, [37, 51, 102]),
   (3, [37, 52, 48]), (1, [65]), (1, [66]), (1, [67]),
   (1, [68]), (1, [69]), (1, [70]), (1, [71]),
   (1, [72]), (1, [73]), (1, [74]), (1, [75]),
   (1, [76]), (1, [77]), (1, [78]), (1, [79]),
   (1, [80]), (1, [81]), (1, [82]), (1, [83]),
   (1, [84]), (1, [85]), (1, [86]), (1, [87]),
   (1, [88]), (1, [89]), (1, [90]), (3, [37, 53, 98]),
   (3, [37, 53, 99]), (3, [37, 53, 100]), (3, [37, 53, 101]), (1, [95]),
   (3, [37, 54, 48]), (1, [97]), (1, [98]), (1, [99]),
   (1, [100]), (1, [101]), (1, [102]), (1, [103]),
   (1, [104]), (1, [105]), (1, [106]), (1, [107]),
   (1, [108]), (1, [109]), (1, [110]), (1, [111]),
   (1, [112]), (1, [113]), (1, [114]), (1, [115]),
   (1, [116]), (1, [117]), (1, [118]), (1, [119]),
   (1, [120]), (1, [121]), (1, [122]), (3, [37, 55, 98]),
   (3, [37, 55, 99]), (3, [37, 55, 100]), (3, [37, 55, 101]), (3, [37, 55, 102]),
   (6, [37, 99, 50, 37, 56, 48]), (6, [37, 99, 50, 37, 56, 49]), (6, [37, 99, 50, 37, 56, 50]), (6, [37, 99, 50, 37, 56, 51]),
   (6, [37, 99, 50, 37, 56, 52]), (6, [37, 99, 50, 37, 56, 53]), (6, [37, 99, 50, 37, 56, 54]), (6, [37, 99, 50, 37, 56, 55]),
   (6, [37, 99, 50, 37, 56, 56]), (6, [37, 99, 50, 37, 56, 57]), (6, [37, 99, 50, 37, 56, 97]), (6, [37, 99, 50, 37, 56, 98]),
   (6, [37, 99, 50, 37, 56, 99]), (6, [37, 99, 50, 37, 56, 100]), (6, [37, 99, 50, 37, 56, 101]), (6, [37, 99, 50, 37, 56, 102]),
   (6, [37, 99, 50, 37, 57, 48]), (6, [37, 99, 50, 37, 57, 49]), (6, [37, 99, 50, 37, 57, 50]), (6, [37, 99, 50, 37, 57, 51]),
   (6, [37, 99, 50, 37, 57, 52]), (6, [37, 99, 50, 37, 57, 53]), (6, [37, 99, 50, 37, 57, 54]), (6, [37, 99, 50, 37, 57, 55]),
   (6, [37, 99, 50, 37, 57, 56]), (6, [37, 99, 50, 37, 57, 57]), (6, [37, 99, 50, 37, 57, 97]), (6, [37, 99, 50, 37, 57, 98]),
   (6, [37, 99, 50, 37, 57, 99]), (6, [37, 99, 50, 37, 57, 100]), (6, [37, 99, 50, 37, 57, 101]), (6, [37, 99, 50, 37, 57, 102]),
   (6, [37, 99, 50, 37, 97, 48]), (6, [37, 99, 50, 37, 97, 49]), (6, [37, 99, 50, 37, 97, 50]), (6, [37, 99, 50, 37, 97, 51]),
   (6, [37, 99, 50, 37, 97, 52]), (6, [37, 99, 50, 37, 97, 53]), (6, [37, 99, 50, 37, 97, 54]), (6, [37, 99, 50, 37, 97, 55]),
   (6, [37, 99, 50, 37, 97, 56]), (6, [37, 99, 50, 37, 97, 57]), (6, [37, 99, 50, 37, 97, 97]), (6, [37, 99, 50, 37, 97, 98]),
   (6, [37, 99, 50, 37, 97, 99]), (6, [37, 99, 50, 37, 97, 100]), (6, [37, 99, 50, 37, 97, 101]), (6, [37, 99, 50, 37, 97, 102]),
   (6, [37, 99, 50, 37, 98, 48]), (6, [37, 99, 50, 37, 98, 49]), (6, [37, 99, 50, 37, 98, 50]), (6, [37, 99, 50, 37, 98, 51]),
   (6, [37, 99, 50, 37, 98, 52]), (6, [37, 99, 50, 37, 98, 53]), (6, [37, 99, 50, 37, 98, 54]), (6, [37, 99, 50, 37, 98, 55]),
   (6, [37, 99, 50, 37, 98, 56]), (6, [37, 99, 50, 37, 98, 57]), (6, [37, 99, 50, 37, 98, 97]), (6, [37, 99, 50, 37, 98, 98]),
   (6, [37, 99, 50, 37, 98, 99]), (6, [37, 99, 50, 37, 98, 100]), (6, [37, 99, 50, 37, 98, 101]), (6, [37, 99, 50, 37, 98, 102]),
   (6, [37, 99, 51, 37, 56, 48]), (6, [37, 99, 51, 37, 56, 49]), (6, [37, 99, 51, 37, 56, 50]), (6, [37, 99, 51, 37, 56, 51]),
   (6, [37, 99, 51, 37, 56, 52]), (6, [37, 99, 51, 37, 56, 53]), (6, [37, 99, 51, 37, 56, 54]), (6, [37, 99, 51, 37, 56, 55]),
   (6, [37, 99, 51, 37, 56, 56]), (6, [37, 99, 51, 37, 56, 57]), (6, [37, 99, 51, 37, 56, 97]), (6, [37, 99, 51, 37, 56, 98]),
   (6, [37, 99, 51, 37, 56, 99]), (6, [37, 99, 51, 37, 56, 100]), (6, [37, 99, 51, 37, 56, 101]), (6, [37, 99, 51, 37, 56, 102]),
   (6, [37, 99, 51, 37, 57, 48]), (6, [37, 99, 51, 37, 57, 49]), (6, [37, 99, 51, 37, 57, 50]), (6, [37, 99, 51, 37, 57, 51]),
   (6, [37, 99, 51, 37, 57, 52]), (6, [37, 99, 51, 37, 57, 53]), (6, [37, 99, 51, 37, 57, 54]), (6, [37, 99, 51, 37, 57, 55]),
   (6, [37, 99, 51, 37, 57, 56]), (6, [37, 99, 51, 37, 57, 57]), (6, [37, 99, 51, 37, 57, 97]), (6, [37, 99, 51, 37, 57, 98]),
   (6, [37, 99, 51, 37, 57, 99]), (6, [37, 99, 51, 37, 57, 100]), (6, [37, 99, 51, 37, 57, 101]), (6, [37, 99, 51, 37, 57, 102]),
   (6, [37, 99, 51, 37, 97, 48]), (6, [37, 99, 51, 37, 97, 49]), (6, [37, 99, 51, 37, 97, 50]), (6, [37, 99, 51, 37, 97, 51]),
   (6, [37, 99, 51, 37, 97, 52]), (6, [37, 99, 51, 37, 97, 53]), (6, [37, 99, 51, 37, 97, 54]), (6, [37, 99, 51, 37, 97, 55]),
   (6, [37, 99, 51, 37, 97, 56]), (6, [37, 99, 51, 37, 97, 57]), (6, [37, 99, 51, 37, 97, 97]), (6, [37, 99, 51, 37, 97, 98]),
   (6, [37, 99, 51, 37, 97, 99]), (6, [37, 99, 51, 37, 97, 100]), (6, [37, 99, 51, 37, 97, 101]), (6, [37, 99, 51, 37, 97, 102]),
   (6, [37, 99, 51, 37, 98, 48]), (6, [37, 99, 51, 37, 98, 49]), (6, [37, 99, 51, 37, 98, 50]), (6, [37, 99, 51, 37, 98, 51]),
   (6, [37, 99, 51, 37, 98, 52]), (6, [37, 99, 51, 37, 98, 53]), (6, [37, 99, 51, 37, 98, 54]), (6, [37, 99, 51, 37, 98, 55]),
   (6, [37, 99, 51, 37, 98, 56]), (6, [37, 99, 51, 37, 98, 57]), (6, [37, 99, 51, 37, 98, 97]), (6, [37, 99, 51, 37, 98, 98]),
   (6, [37, 99, 51, 37, 98, 99]), (6, [37, 99, 51, 37, 98, 100]), (6, [37, 99, 51, 37, 98, 101]), (6, [37, 99, 51, 37, 98, 102])]

/-- `urlEncoding[c]` -/
def entry (c : UInt8) : M (Nat × List UInt8) :=
  match urlEncoding[c.toNat]? with
  | some e => pure e
  | none => ub "table index out of bounds"

/-- urlencode.c:324-328 -/
def lengthLoop : List Val → Nat → M Nat
  | .byte c :: vs, lengthOfResult => do
    let e ← entry c
    if c ≠ 0 then lengthLoop vs ((lengthOfResult + e.1) % szMod) else pure ((lengthOfResult + e.1) % szMod)
  | _, _ => ub "read past the end of the string"

/-- urlencode.c:339-351 -/
def encodeLoop (encodedURL : Ptr) : List Val → Nat → M Unit
  | .byte c :: vs, pos => do
    let e ← entry c
    if e.1 = 1 then
      let b ← charAt (.str e.2) 0
      store encodedURL pos (.byte b)
      if c ≠ 0 then encodeLoop encodedURL vs (pos + 1) else pure ()
    else
      memcpy encodedURL pos (.str e.2) e.1
      if c ≠ 0 then encodeLoop encodedURL vs (pos + e.1) else pure ()
  | _, _ => ub "read past the end of the string"

/-- urlencode.c:306-356 -/
def URL_Encode (input : Ptr) : M Ptr := do
  if input = 0 then pure 0
  else
    let currentInput ← STRING_c_str input
    let vs ← storage (.ofPtr currentInput)
    let lengthOfResult ← lengthLoop vs 0
    let encodedURL ← malloc lengthOfResult
    if encodedURL = 0 then pure 0
    else
      let currentInput ← STRING_c_str input
      let vs ← storage (.ofPtr currentInput)
      encodeLoop encodedURL vs 0
      STRING_new_with_memory encodedURL

/-- urlencode.c:284-304 -/
def URL_EncodeString (textEncode : CharPtr) : M Ptr := do
  if textEncode = .null then pure 0
  else
    let tempString ← STRING_construct textEncode
    if tempString = 0 then pure 0
    else
      let result ← URL_Encode tempString
      STRING_delete tempString
      pure result

end Verif.Url
