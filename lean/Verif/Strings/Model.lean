import Verif.Mem
/-!
# Model of `/repo/src/strings.c`

A `STRING_HANDLE` is the address of a block with one slot, the field `s` (strings.c:24-27).  A `char*` result is
returned as the address of the block it points to.  Nonzero results are the `__LINE__` of the source.
`size_t` sums are taken modulo `2^64`.  `char` is read as an unsigned byte (the code compares `source[i] <= 0x1F` only
after rejecting bytes ≥ 128, so signedness does not matter).  Logging is omitted.
-/
namespace Verif.Strings
open Verif

/-- strings.c:24-27, field `s` -/
abbrev fS : Nat := 0
/-- `size_t` value of a sum -/
def sz (n : Nat) : Nat := n % szMod

/-- strings.c:22 -/
def hexToASCII : List UInt8 := [48, 49, 50, 51, 52, 53, 54, 55, 56, 57, 65, 66, 67, 68, 69, 70]

/-- reading the table `hexToASCII[i]` -/
def hexAt (i : UInt8) : M UInt8 :=
  match hexToASCII[i.toNat]? with
  | some c => pure c
  | none => ub "table read out of bounds"

/-- strings.c:32-49 -/
def STRING_new : M Ptr := do
  let result ← mallocS 1
  if result ≠ 0 then
    let s ← malloc 1
    store result fS (.ptr s)
    if s ≠ 0 then
      store s 0 (.byte 0)
      pure result
    else
      free result
      pure 0
  else pure result

/-- strings.c:52-84 -/
def STRING_clone (handle : Ptr) : M Ptr := do
  if handle = 0 then pure 0
  else
    let result ← mallocS 1
    if result ≠ 0 then
      let src ← loadPtr handle fS
      let sourceLen ← strlen (.ofPtr src)
      let s ← malloc (sz (sourceLen + 1))
      store result fS (.ptr s)
      if s = 0 then
        free result
        pure 0
      else
        let src ← loadPtr handle fS
        memcpy s 0 (.ofPtr src) (sz (sourceLen + 1))
        pure result
    else pure result

/-- strings.c:87-120 -/
def STRING_construct (psz : CharPtr) : M Ptr := do
  if psz = .null then pure 0
  else
    let str ← mallocS 1
    if str ≠ 0 then
      let l ← strlen psz
      let nLen := sz (l + 1)
      let s ← malloc nLen
      store str fS (.ptr s)
      if s ≠ 0 then
        memcpy s 0 psz nLen
        pure str
      else
        free str
        pure 0
    else pure 0

/-- strings.c:126-142 (the argument is memory obtained from malloc, so a plain address) -/
def STRING_new_with_memory (memory : Ptr) : M Ptr := do
  if memory = 0 then pure 0
  else
    let result ← mallocS 1
    if result ≠ 0 then
      store result fS (.ptr memory)
      pure result
    else pure result

/-- strings.c:145-171 -/
def STRING_new_quoted (source : CharPtr) : M Ptr := do
  if source = .null then pure 0
  else
    let result ← mallocS 1
    if result ≠ 0 then
      let sourceLength ← strlen source
      let s ← malloc (sz (sourceLength + 3))
      store result fS (.ptr s)
      if s ≠ 0 then
        store s 0 (.byte 34)
        memcpy s 1 source sourceLength
        store s (sourceLength + 1) (.byte 34)
        store s (sourceLength + 2) (.byte 0)
        pure result
      else
        free result
        pure 0
    else pure result

/-- strings.c:192-214, the counting loop from index `i` with `fuel` characters left; returns
`(i, nControlCharacters, nEscapeCharacters)` at loop exit. -/
def countLoop (source : CharPtr) : Nat → Nat → Nat → Nat → M (Nat × Nat × Nat)
  | 0, i, nC, nE => pure (i, nC, nE)
  | fuel + 1, i, nC, nE => do
    let c ← charAt source i
    if c ≥ 128 then pure (i, nC, nE)
    else if c ≤ 0x1F then countLoop source fuel (i + 1) (nC + 1) nE
    else if c = 34 ∨ c = 92 ∨ c = 47 then countLoop source fuel (i + 1) nC (nE + 1)
    else countLoop source fuel (i + 1) nC nE

/-- strings.c:240-275, the writing loop; returns the final `pos`. -/
def writeLoop (source : CharPtr) (s : Ptr) : Nat → Nat → Nat → M Nat
  | 0, _, pos => pure pos
  | fuel + 1, i, pos => do
    let c ← charAt source i
    if c ≤ 0x1F then
      store s pos (.byte 92)
      store s (pos + 1) (.byte 117)
      store s (pos + 2) (.byte 48)
      store s (pos + 3) (.byte 48)
      let hi ← hexAt ((c &&& 0xF0) >>> 4)
      store s (pos + 4) (.byte hi)
      let lo ← hexAt (c &&& 0x0F)
      store s (pos + 5) (.byte lo)
      writeLoop source s fuel (i + 1) (pos + 6)
    else if c = 34 then
      store s pos (.byte 92)
      store s (pos + 1) (.byte 34)
      writeLoop source s fuel (i + 1) (pos + 2)
    else if c = 92 then
      store s pos (.byte 92)
      store s (pos + 1) (.byte 92)
      writeLoop source s fuel (i + 1) (pos + 2)
    else if c = 47 then
      store s pos (.byte 92)
      store s (pos + 1) (.byte 47)
      writeLoop source s fuel (i + 1) (pos + 2)
    else
      store s pos (.byte c)
      writeLoop source s fuel (i + 1) (pos + 1)

/-- strings.c:176-285 -/
def STRING_new_JSON (source : CharPtr) : M Ptr := do
  if source = .null then pure 0
  else
    let vlen ← strlen source
    let r ← countLoop source vlen 0 0 0
    if r.1 < vlen then pure 0
    else
      let result ← mallocS 1
      if result = 0 then pure result
      else
        let s ← malloc (sz (vlen + 5 * r.2.1 + r.2.2 + 3))
        store result fS (.ptr s)
        if s = 0 then
          free result
          pure 0
        else
          store s 0 (.byte 34)
          let pos ← writeLoop source s vlen 0 1
          store s pos (.byte 34)
          store s (pos + 1) (.byte 0)
          pure result

/-- strings.c:291-318 -/
def STRING_concat (handle : Ptr) (s2 : CharPtr) : M Nat := do
  if handle = 0 ∨ s2 = .null then pure 297
  else
    let s ← loadPtr handle fS
    let s1Length ← strlen (.ofPtr s)
    let s2Length ← strlen s2
    let temp ← realloc s (sz (s1Length + s2Length + 1))
    if temp = 0 then pure 308
    else
      store handle fS (.ptr temp)
      memcpy temp s1Length s2 (sz (s2Length + 1))
      pure 0

/-- strings.c:324-354 -/
def STRING_concat_with_STRING (s1 s2 : Ptr) : M Nat := do
  if s1 = 0 ∨ s2 = 0 then pure 330
  else
    let d ← loadPtr s1 fS
    let s1Length ← strlen (.ofPtr d)
    let e ← loadPtr s2 fS
    let s2Length ← strlen (.ofPtr e)
    let temp ← realloc d (sz (s1Length + s2Length + 1))
    if temp = 0 then pure 343
    else
      store s1 fS (.ptr temp)
      let e ← loadPtr s2 fS
      memcpy temp s1Length (.ofPtr e) (sz (s2Length + 1))
      pure 0

/-- strings.c:360-395 (`memmove` is modelled as `memcpy`: a source inside the just reallocated block is
declared undefined by strings.c:390, and is undefined in the model) -/
def STRING_copy (handle : Ptr) (s2 : CharPtr) : M Nat := do
  if handle = 0 ∨ s2 = .null then pure 366
  else
    let s ← loadPtr handle fS
    if CharPtr.ofPtr s ≠ s2 then
      let s2Length ← strlen s2
      let temp ← realloc s (sz (s2Length + 1))
      if temp = 0 then pure 379
      else
        store handle fS (.ptr temp)
        memcpy temp 0 s2 (sz (s2Length + 1))
        pure 0
    else pure 0

/-- strings.c:401-435 -/
def STRING_copy_n (handle : Ptr) (s2 : CharPtr) (n : Nat) : M Nat := do
  if handle = 0 ∨ s2 = .null then pure 407
  else
    let l ← strlen s2
    let s2Length := if l > n then n else l
    let s ← loadPtr handle fS
    let temp ← realloc s (sz (s2Length + 1))
    if temp = 0 then pure 423
    else
      store handle fS (.ptr temp)
      memcpy temp 0 s2 s2Length
      store temp s2Length (.byte 0)
      pure 0

/-- strings.c:441-470 -/
def STRING_quote (handle : Ptr) : M Nat := do
  if handle = 0 then pure 447
  else
    let s ← loadPtr handle fS
    let s1Length ← strlen (.ofPtr s)
    let temp ← realloc s (sz (s1Length + 2 + 1))
    if temp = 0 then pure 457
    else
      store handle fS (.ptr temp)
      memmove temp 1 0 s1Length
      store temp 0 (.byte 34)
      store temp (s1Length + 1) (.byte 34)
      store temp (s1Length + 2) (.byte 0)
      pure 0

/-- strings.c:474-499 -/
def STRING_empty (handle : Ptr) : M Nat := do
  if handle = 0 then pure 480
  else
    let s ← loadPtr handle fS
    let temp ← realloc s 1
    if temp = 0 then pure 489
    else
      store handle fS (.ptr temp)
      store temp 0 (.byte 0)
      pure 0

/-- strings.c:503-513 -/
def STRING_delete (handle : Ptr) : M Unit := do
  if handle ≠ 0 then
    let s ← loadPtr handle fS
    free s
    store handle fS (.ptr 0)
    free handle
  else pure ()

/-- strings.c:516-529 -/
def STRING_c_str (handle : Ptr) : M Ptr := do
  if handle ≠ 0 then loadPtr handle fS
  else pure 0

/-- strings.c:532-542 -/
def STRING_length (handle : Ptr) : M Nat := do
  if handle ≠ 0 then
    let s ← loadPtr handle fS
    strlen (.ofPtr s)
  else pure 0

/-- strings.c:545-589 -/
def STRING_construct_n (psz : CharPtr) (n : Nat) : M Ptr := do
  if psz = .null then pure 0
  else
    let len ← strlen psz
    if n > len then pure 0
    else
      let str ← mallocS 1
      if str ≠ 0 then
        let s ← malloc (sz (len + 1))
        store str fS (.ptr s)
        if s ≠ 0 then
          memcpy s 0 psz n
          store s n (.byte 0)
          pure str
        else
          free str
          pure 0
      else pure 0

/-- strings.c:592-618 -/
def STRING_compare (s1 s2 : Ptr) : M Int := do
  if s1 = 0 ∧ s2 = 0 then pure 0
  else if s1 = 0 then pure 1
  else if s2 = 0 then pure (-1)
  else
    let a ← loadPtr s1 fS
    let b ← loadPtr s2 fS
    strcmp (.ofPtr a) (.ofPtr b)

end Verif.Strings
