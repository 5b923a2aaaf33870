import Verif.Mem
/-!
# Model of `/repo/src/crt_abstractions.c`

`dst` is the address of the caller's buffer (`0` = NULL), a byte block.  `size_t` sums here are of the form
`strlen(x) + 1`, which cannot wrap because the string and its terminator are one object.  `sprintf_s` is modelled
with the text `vsnprintf` would produce as an input.
-/
namespace Verif.Crt
open Verif

abbrev EINVAL : Int := 22
abbrev ERANGE : Int := 34
abbrev ENOMEM : Int := 12
/-- crt_abstractions.h:86 -/
abbrev STRUNCATE : Int := 80
/-- crt_abstractions.h:82: `((size_t)-1)` -/
abbrev TRUNCATE : Nat := szMod - 1

/-- C `strncpy(dst + off, src, n)`: the characters of `src` up to its NUL, then NULs, `n` in all.
(C does not need `src` to be terminated when it has `n` characters; every caller here passes a C string.) -/
def strncpy (dst : Ptr) (off : Nat) (src : CharPtr) (n : Nat) : M Unit := do
  let t ← cstr src
  if (match src with | .heap p _ => decide (p = dst) | _ => false) then ub "overlapping strncpy"
  else storeN dst off (bytesV ((t ++ List.replicate n 0).take n))

/-- crt_abstractions.c:52-55: the scanning loop (`fuel` = `dstSizeInBytes - i`), result the final `i` -/
def scanLoop (dst : Ptr) : Nat → Nat → M Nat
  | 0, i => pure i
  | fuel + 1, i => do
    let c ← loadByte dst i
    if c ≠ 0 then scanLoop dst fuel (i + 1) else pure i

/-- crt_abstractions.c:23-82 -/
def strcat_s (dst : Ptr) (size : Nat) (src : CharPtr) : M Int := do
  if dst = 0 then pure EINVAL
  else if src = .null then
    store dst 0 (.byte 0)
    pure EINVAL
  else if size = 0 then
    store dst 0 (.byte 0)
    pure ERANGE
  else
    let dstStrLen ← scanLoop dst size 0
    if size = dstStrLen then pure EINVAL
    else
      strncpy dst dstStrLen src (size - dstStrLen)
      let c ← loadByte dst (size - 1)
      if c ≠ 0 then
        store dst 0 (.byte 0)
        pure ERANGE
      else pure 0

/-- crt_abstractions.c:85-151 -/
def strncpy_s (dst : Ptr) (size : Nat) (src : CharPtr) (maxCount : Nat) : M Int := do
  if dst = 0 then pure EINVAL
  else if src = .null then
    store dst 0 (.byte 0)
    pure EINVAL
  else if size = 0 then pure EINVAL
  else
    let l ← strlen src
    if maxCount ≠ TRUNCATE then
      let srcLength := if l > maxCount then maxCount else l
      if srcLength + 1 > size then
        store dst 0 (.byte 0)
        pure ERANGE
      else
        strncpy dst 0 src srcLength
        store dst srcLength (.byte 0)
        pure 0
    else if l + 1 > size then
      strncpy dst 0 src (size - 1)
      store dst (size - 1) (.byte 0)
      pure STRUNCATE
    else
      strncpy dst 0 src l
      store dst l (.byte 0)
      pure 0

/-- crt_abstractions.c:154-193 -/
def strcpy_s (dst : Ptr) (size : Nat) (src : CharPtr) : M Int := do
  if dst = 0 then pure EINVAL
  else if src = .null then
    store dst 0 (.byte 0)
    pure EINVAL
  else if size = 0 then
    store dst 0 (.byte 0)
    pure ERANGE
  else
    let neededBuffer ← strlen src
    if neededBuffer + 1 > size then
      store dst 0 (.byte 0)
      pure ERANGE
    else
      memcpy dst 0 src (neededBuffer + 1)
      pure 0

/-- crt_abstractions.c:197-251.  `text` is what `vsnprintf` would print (`none`: it reports an error);
`fmtNull` tells whether `format` is NULL; on success `vsnprintf(dst, n, …)` writes the first `n-1` characters and a NUL. -/
def sprintf_s (dst : Ptr) (size : Nat) (fmtNull : Bool) (text : Option (List UInt8)) : M Int := do
  if dst = 0 ∨ fmtNull = true then pure (-1)
  else match text with
  | none => pure (-1)
  | some t =>
    if size ≠ 0 then storeN dst 0 (bytesV (t.take (size - 1) ++ [0])) else pure ()
    if t.length ≥ size then
      store dst 0 (.byte 0)
      pure (-1)
    else pure (t.length : Int)

/-- crt_abstractions.c:255-291 with a destination that is not NULL: the result code and, unless the code is
`EINVAL`, the value written to `*destination`. -/
def mallocAndStrcpy (source : CharPtr) : M (Int × Ptr) := do
  if source = .null then pure (EINVAL, 0)
  else
    let l ← strlen source
    let d ← malloc (l + 1)
    if d = 0 then pure (ENOMEM, 0)
    else
      let temp ← strcpy_s d (l + 1) source
      if temp < 0 then
        free d
        pure (temp, 0)
      else pure (0, d)

/-- the same with the destination being slot `off` of block `p` -/
def mallocAndStrcpy_s (p : Ptr) (off : Nat) (source : CharPtr) : M Int := do
  if source = .null then pure EINVAL
  else
    let r ← mallocAndStrcpy source
    store p off (.ptr r.2)
    pure r.1

/-- crt_abstractions.c:314-318 / 365-369: the digit loop; `fuel` bounds the number of rounds (there are at most
`destinationSize` of them); result `(value, pos)` at exit. -/
def digitLoop (dst : Ptr) (size : Nat) : Nat → Nat → Nat → M (Nat × Nat)
  | 0, value, pos => pure (value, pos)
  | fuel + 1, value, pos => do
    store dst pos (.byte (48 + UInt8.ofNat (value % 10)))
    if value / 10 > 0 ∧ pos + 1 < size - 1 then digitLoop dst size fuel (value / 10) (pos + 1)
    else pure (value / 10, pos + 1)

/-- crt_abstractions.c:325-331 / 376-382: the reversal loop, `fuel` rounds starting at `w` -/
def reverseLoop (dst : Ptr) (pos : Nat) : Nat → Nat → M Unit
  | 0, _ => pure ()
  | fuel + 1, w => do
    let temp ← loadByte dst w
    let other ← loadByte dst (pos - 1 - w)
    store dst w (.byte other)
    store dst (pos - 1 - w) (.byte temp)
    reverseLoop dst pos fuel (w + 1)

/-- The body shared by the two conversions (their text differs only in the type of `value` and in `__LINE__`). -/
def toString_ (l1 l2 : Nat) (dst : Ptr) (size : Nat) (value : Nat) : M Nat := do
  if dst = 0 ∨ size < 2 then pure l1
  else
    let r ← digitLoop dst size size value 0
    if r.1 = 0 then
      store dst r.2 (.byte 0)
      reverseLoop dst r.2 ((r.2 - 1) / 2 + 1) 0
      pure 0
    else pure l2

/-- crt_abstractions.c:297-342; `value` is an `unsigned int` -/
def unsignedIntToString (dst : Ptr) (size : Nat) (value : UInt32) : M Nat := toString_ 309 338 dst size value.toNat
/-- crt_abstractions.c:348-393; `value` is a `size_t` -/
def size_tToString (dst : Ptr) (size : Nat) (value : UInt64) : M Nat := toString_ 360 389 dst size value.toNat

end Verif.Crt
