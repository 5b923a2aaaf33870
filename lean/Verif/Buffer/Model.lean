import Verif.Mem
/-!
# Model of `/repo/src/buffer.c`

Each definition follows the C function statement by statement.  `BUFFER_HANDLE` is the address of a block with
two slots: `buffer` (slot 0) and `size` (slot 1) (buffer.c:22-26).  Nonzero results are the `__LINE__` of the source.
`size_t` additions are taken modulo `2^64`.  Logging is omitted.
-/
namespace Verif.Buffer
open Verif

/-- buffer.c:22-26, field `buffer` -/
abbrev fBuffer : Nat := 0
/-- buffer.c:22-26, field `size` -/
abbrev fSize : Nat := 1
/-- `size_t` addition -/
def szAdd (a b : Nat) : Nat := (a + b) % szMod

/-- buffer.c:29-39 -/
def BUFFER_new : M Ptr := do
  let temp ← mallocS 2
  if temp ≠ 0 then
    store temp fBuffer (.ptr 0)
    store temp fSize (.int 0)
    pure temp
  else pure temp

/-- buffer.c:41-76 -/
def BUFFER_create (source : CharPtr) (size : Nat) : M Ptr := do
  if source = .null then pure 0
  else
    let result ← mallocS 2
    if result = 0 then pure 0
    else
      let buf ← malloc size
      store result fBuffer (.ptr buf)
      if buf = 0 then
        free result
        pure 0
      else
        memcpy buf 0 source size
        store result fSize (.int size)
        pure result

/-- buffer.c:79-92 -/
def BUFFER_delete (handle : Ptr) : M Unit := do
  if handle ≠ 0 then
    let buf ← loadPtr handle fBuffer
    if buf ≠ 0 then
      free buf
      free handle
    else free handle
  else pure ()

/-- buffer.c:97-146 -/
def BUFFER_build (handle : Ptr) (source : CharPtr) (size : Nat) : M Nat := do
  if handle = 0 then pure 103
  else if size = 0 then
    let buf ← loadPtr handle fBuffer
    free buf
    store handle fBuffer (.ptr 0)
    store handle fSize (.int 0)
    pure 0
  else if source = .null then pure 121
  else
    let buf ← loadPtr handle fBuffer
    let newBuffer ← realloc buf size
    if newBuffer = 0 then pure 131
    else
      store handle fBuffer (.ptr newBuffer)
      store handle fSize (.int size)
      memcpy newBuffer 0 source size
      pure 0

/-- buffer.c:151-187 -/
def BUFFER_pre_build (handle : Ptr) (size : Nat) : M Nat := do
  if handle = 0 then pure 157
  else if size = 0 then pure 162
  else
    let buf ← loadPtr handle fBuffer
    if buf ≠ 0 then pure 170
    else
      let nb ← malloc size
      store handle fBuffer (.ptr nb)
      if nb = 0 then pure 177
      else
        store handle fSize (.int size)
        pure 0

/-- buffer.c:190-205; `contentOk` is `content != NULL`, the second component is `*content` if written -/
def BUFFER_content (handle : Ptr) (contentOk : Bool) : M (Nat × Option Ptr) := do
  if handle = 0 ∨ contentOk = false then pure (196, none)
  else
    let buf ← loadPtr handle fBuffer
    pure (0, some buf)

/-- buffer.c:209-234 -/
def BUFFER_unbuild (handle : Ptr) : M Nat := do
  if handle = 0 then pure 215
  else
    let buf ← loadPtr handle fBuffer
    if buf ≠ 0 then
      free buf
      store handle fBuffer (.ptr 0)
      store handle fSize (.int 0)
      pure 0
    else pure 230

/-- buffer.c:237-267 -/
def BUFFER_enlarge (handle : Ptr) (enlargeSize : Nat) : M Nat := do
  if handle = 0 then pure 243
  else if enlargeSize = 0 then pure 248
  else
    let buf ← loadPtr handle fBuffer
    let size ← loadInt handle fSize
    let temp ← realloc buf (szAdd size enlargeSize)
    if temp = 0 then pure 257
    else
      store handle fBuffer (.ptr temp)
      store handle fSize (.int (szAdd size enlargeSize))
      pure 0

/-- buffer.c:270-285; `sizeOk` is `size != NULL`, the second component is `*size` if written -/
def BUFFER_size (handle : Ptr) (sizeOk : Bool) : M (Nat × Option Nat) := do
  if handle = 0 ∨ sizeOk = false then pure (276, none)
  else
    let size ← loadInt handle fSize
    pure (0, some size)

/-- buffer.c:288-329 -/
def BUFFER_append (handle1 handle2 : Ptr) : M Nat := do
  if handle1 = 0 ∨ handle2 = 0 ∨ handle1 = handle2 then pure 294
  else
    let buf1 ← loadPtr handle1 fBuffer
    if buf1 = 0 then pure 303
    else
      let buf2 ← loadPtr handle2 fBuffer
      if buf2 = 0 then pure 308
      else
        let size1 ← loadInt handle1 fSize
        let size2 ← loadInt handle2 fSize
        let temp ← realloc buf1 (szAdd size1 size2)
        if temp = 0 then pure 316
        else
          store handle1 fBuffer (.ptr temp)
          memcpy temp size1 (.heap buf2 0) size2
          store handle1 fSize (.int (szAdd size1 size2))
          pure 0

/-- buffer.c:331-374 -/
def BUFFER_prepend (handle1 handle2 : Ptr) : M Nat := do
  if handle1 = 0 ∨ handle2 = 0 ∨ handle1 = handle2 then pure 337
  else
    let buf1 ← loadPtr handle1 fBuffer
    if buf1 = 0 then pure 346
    else
      let buf2 ← loadPtr handle2 fBuffer
      if buf2 = 0 then pure 351
      else
        let size1 ← loadInt handle1 fSize
        let size2 ← loadInt handle2 fSize
        let temp ← malloc (szAdd size1 size2)
        if temp = 0 then pure 359
        else
          memcpy temp 0 (.heap buf2 0) size2
          memcpy temp size2 (.heap buf1 0) size1
          free buf1
          store handle1 fBuffer (.ptr temp)
          store handle1 fSize (.int (szAdd size1 size2))
          pure 0

/-- buffer.c:378-392 -/
def BUFFER_u_char (handle : Ptr) : M Ptr := do
  if handle = 0 then pure 0
  else loadPtr handle fBuffer

/-- buffer.c:395-409 -/
def BUFFER_length (handle : Ptr) : M Nat := do
  if handle = 0 then pure 0
  else loadInt handle fSize

/-- buffer.c:411-442 -/
def BUFFER_clone (handle : Ptr) : M Ptr := do
  if handle = 0 then pure 0
  else
    let b ← mallocS 2
    if b ≠ 0 then
      let size ← loadInt handle fSize
      let nb ← malloc size
      store b fBuffer (.ptr nb)
      if nb = 0 then
        free b
        pure 0
      else
        let src ← loadPtr handle fBuffer
        memcpy nb 0 (CharPtr.ofPtr src) size
        store b fSize (.int size)
        pure b
    else pure 0

end Verif.Buffer
