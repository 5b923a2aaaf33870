import Verif.Map.Model
/-!
# Model of `/repo/src/httpheaders.c`

A `HTTP_HEADERS_HANDLE_DATA` (httpheaders.c:24-27) is a block with one slot, the map.  The map is created without filter, so the
`Map_*` calls get an arbitrary (never called) filter.
-/
namespace Verif.Headers
open Verif Verif.Map

/-- httpheaders.h:34-43 -/
inductive Res where
  | ok | invalidArg | allocFailed | insufficientBuffer | error
  deriving DecidableEq, Repr

/-- client filters; never called here -/
def noFilt : Filt := fun _ _ _ => 0

/-- `p + n` for a `const char*` -/
def addPtr : CharPtr → Nat → CharPtr
  | .null, _ => .null
  | .lit l, n => .lit (l.drop n)
  | .heap p off, n => .heap p (off + n)

/-- C library `strcat(dst, src)` -/
def strcat (dst : Ptr) (src : CharPtr) : M Unit := do
  let n ← strlen (.heap dst 0)
  strcpy dst n src

/-- httpheaders.c:16 -/
def COLON_AND_SPACE : CharPtr := .str [58, 32]
/-- httpheaders.c:19 -/
def COMMA_AND_SPACE : CharPtr := .str [44, 32]

/-- httpheaders.c:29-57 -/
def HTTPHeaders_Alloc : M Ptr := do
  let result ← mallocS 1
  if result = 0 then pure 0
  else
    let m ← Map_Create 0
    store result 0 (.ptr m)
    if m = 0 then
      free result
      pure 0
    else pure result

/-- httpheaders.c:60-75 -/
def HTTPHeaders_Free (handle : Ptr) : M Unit := do
  if handle = 0 then pure ()
  else
    let m ← loadPtr handle 0
    Map_Destroy m
    free handle

/-- httpheaders.c:97-103: the value of `i` at loop exit; the arguments are `nameLen - i` and `i`.  For a signed `char`, a byte over 127
is negative, hence less than 33; for an unsigned one it is over 126: `126 < c` covers both. -/
def nameLoop (name : CharPtr) : Nat → Nat → M Nat
  | 0, i => pure i
  | n + 1, i => do
    let c ← charAt name i
    if c < 33 ∨ 126 < c ∨ c = 58 then pure i else nameLoop name n (i + 1)

/-- httpheaders.c:115-118: the value of `value` at loop exit (running off the end of the storage is undefined behaviour); the first
argument is the storage from `value` on, the last the number of characters skipped -/
def skipLoop (value : CharPtr) : List Val → Nat → M CharPtr
  | .byte c :: vs, n => if c = 32 ∨ c = 9 ∨ c = 13 ∨ c = 10 then skipLoop value vs (n + 1) else pure (addPtr value n)
  | _, _ => ub "read past the end of the string"

/-- httpheaders.c:78-170 -/
def headers_ReplaceHeaderNameValuePair (handle : Ptr) (name value : CharPtr) (replace : Bool) : M Res := do
  if handle = 0 ∨ name = .null ∨ value = .null then pure .invalidArg
  else
    let nameLen ← strlen name
    let i ← nameLoop name nameLen 0
    if i < nameLen then pure .invalidArg
    else
      let m ← loadPtr handle 0
      let existingValue ← Map_GetValueFromKey m name
      let vs ← storage value
      let value ← skipLoop value vs 0
      if replace = false ∧ existingValue ≠ 0 then
        let n1 ← strlen (.ofPtr existingValue)
        let n2 ← strlen value
        let newValue ← malloc ((n1 + 2 + n2 + 1) % szMod)
        if newValue = 0 then pure .allocFailed
        else
          strcpy newValue 0 (.ofPtr existingValue)
          strcat newValue COMMA_AND_SPACE
          strcat newValue value
          let r ← Map_AddOrUpdate noFilt m name (.heap newValue 0)
          if r ≠ .ok then
            free newValue
            pure .error
          else
            free newValue
            pure .ok
      else
        let r ← Map_AddOrUpdate noFilt m name value
        if r ≠ .ok then pure .allocFailed else pure .ok

/-- httpheaders.c:172-175 -/
def HTTPHeaders_AddHeaderNameValuePair (handle : Ptr) (name value : CharPtr) : M Res :=
  headers_ReplaceHeaderNameValuePair handle name value false

/-- httpheaders.c:178-181 -/
def HTTPHeaders_ReplaceHeaderNameValuePair (handle : Ptr) (name value : CharPtr) : M Res :=
  headers_ReplaceHeaderNameValuePair handle name value true

/-- httpheaders.c:184-205 -/
def HTTPHeaders_FindHeaderValue (handle : Ptr) (name : CharPtr) : M Ptr := do
  if handle = 0 ∨ name = .null then pure 0
  else
    let m ← loadPtr handle 0
    Map_GetValueFromKey m name

/-- httpheaders.c:207-238; `out` says whether `headerCount` is not NULL; the second result is what is stored in `*headerCount` -/
def HTTPHeaders_GetHeaderCount (handle : Ptr) (out : Bool) : M (Res × Option Nat) := do
  if handle = 0 ∨ out = false then pure (.invalidArg, none)
  else
    let m ← loadPtr handle 0
    let r ← Map_GetInternals m true
    match r with
    | (.ok, some (_, _, n)) => pure (.ok, some n)
    | _ => pure (.error, none)

/-- httpheaders.c:241-300; `out` says whether `destination` is not NULL; the second result is what is stored in `*destination` -/
def HTTPHeaders_GetHeader (handle : Ptr) (index : Nat) (out : Bool) : M (Res × Option Ptr) := do
  if handle = 0 ∨ out = false then pure (.invalidArg, none)
  else
    let m ← loadPtr handle 0
    let r ← Map_GetInternals m true
    match r with
    | (.ok, some (keys, values, headerCount)) =>
      if index ≥ headerCount then pure (.invalidArg, none)
      else
        let k ← loadPtr keys index
        let n1 ← strlen (.ofPtr k)
        let v ← loadPtr values index
        let n2 ← strlen (.ofPtr v)
        let destination ← malloc ((n1 + 2 + n2 + 1) % szMod)
        if destination = 0 then pure (.error, some 0)
        else
          strcpy destination 0 (.ofPtr k)
          strcat destination COLON_AND_SPACE
          strcat destination (.ofPtr v)
          pure (.ok, some destination)
    | _ => pure (.error, none)

/-- httpheaders.c:302-335 -/
def HTTPHeaders_Clone (handle : Ptr) : M Ptr := do
  if handle = 0 then pure 0
  else
    let result ← mallocS 1
    if result = 0 then pure 0
    else
      let m ← loadPtr handle 0
      let m' ← Map_Clone m
      store result 0 (.ptr m')
      if m' = 0 then
        free result
        pure 0
      else pure result

end Verif.Headers
