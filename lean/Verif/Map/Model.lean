import Verif.Crt.Model
import Verif.Strings.Model
/-!
# Model of `/repo/src/map.c`

A `MAP_HANDLE` is the address of a block with the slots `keys, values, count, mapFilterCallback` (map.c:16-22).
`keys` and `values` point to blocks with one pointer slot per element.  A filter callback is a number (`0` = NULL) whose
behaviour is given by the environment `flt` as a function of the two texts it is called with (filters are assumed to be
deterministic and to leave the memory alone).  A pointer into the `keys` array (`char**` result of `findKey`) is
represented by its index.  A `for` loop over `count` elements reads `count` once (no loop changes it).
Products `n * sizeof(char*)` cannot wrap because `n` elements exist in memory.  Output parameters are results.
-/
namespace Verif.Map
open Verif Verif.Crt Verif.Strings

/-- Behaviour of filter callbacks: callback number, key, value (nonzero = reject). -/
abbrev Filt := Nat → List UInt8 → List UInt8 → Int

abbrev fKeys : Nat := 0
abbrev fValues : Nat := 1
abbrev fCount : Nat := 2
abbrev fFilter : Nat := 3

/-- map.h:25-31 -/
inductive MapResult where
  | ok | error | invalidArg | keyExists | keyNotFound | filterReject
  deriving DecidableEq, Repr

/-- map.c:26-40 -/
def Map_Create (mapFilterFunc : Nat) : M Ptr := do
  let result ← mallocS 4
  if result ≠ 0 then
    store result fKeys (.ptr 0)
    store result fValues (.ptr 0)
    store result fCount (.int 0)
    store result fFilter (.int mapFilterFunc)
    pure result
  else pure result

/-- map.c:51-55 -/
def destroyLoop (h : Ptr) : Nat → Nat → M Unit
  | 0, _ => pure ()
  | fuel + 1, i => do
    let keys ← loadPtr h fKeys
    let k ← loadPtr keys i
    free k
    let values ← loadPtr h fValues
    let v ← loadPtr values i
    free v
    destroyLoop h fuel (i + 1)

/-- map.c:42-60 -/
def Map_Destroy (handle : Ptr) : M Unit := do
  if handle ≠ 0 then
    let count ← loadInt handle fCount
    destroyLoop handle count 0
    let keys ← loadPtr handle fKeys
    free keys
    let values ← loadPtr handle fValues
    free values
    free handle
  else pure ()

/-- map.c:75-81: the copying loop; result the final `i` -/
def cloneLoop (source result : Ptr) : Nat → Nat → M Nat
  | 0, i => pure i
  | fuel + 1, i => do
    let s ← loadPtr source i
    let r ← mallocAndStrcpy_s result i (.ofPtr s)
    if r ≠ 0 then pure i
    else cloneLoop source result fuel (i + 1)

/-- map.c:90-93 and 140-143: `for (j = 0; j < n; j++) free(p[j]);` -/
def freeLoop (p : Ptr) : Nat → Nat → M Unit
  | 0, _ => pure ()
  | fuel + 1, j => do
    let s ← loadPtr p j
    free s
    freeLoop p fuel (j + 1)

/-- map.c:64-99 -/
def Map_CloneVector (source : Ptr) (count : Nat) : M Ptr := do
  let result ← mallocS count
  if result = 0 then pure result
  else
    let i ← cloneLoop source result count 0
    if i = count then pure result
    else
      freeLoop result i 0
      free result
      pure 0

/-- map.c:102-162 -/
def Map_Clone (handle : Ptr) : M Ptr := do
  if handle = 0 then pure 0
  else
    let result ← mallocS 4
    if result = 0 then pure result
    else
      let count ← loadInt handle fCount
      if count = 0 then
        store result fCount (.int 0)
        store result fKeys (.ptr 0)
        store result fValues (.ptr 0)
        store result fFilter (.int 0)
        pure result
      else
        let f ← loadInt handle fFilter
        store result fFilter (.int f)
        let count ← loadInt handle fCount
        store result fCount (.int count)
        let hk ← loadPtr handle fKeys
        let ks ← Map_CloneVector hk count
        store result fKeys (.ptr ks)
        if ks = 0 then
          free result
          pure 0
        else
          let hv ← loadPtr handle fValues
          let vs ← Map_CloneVector hv count
          store result fValues (.ptr vs)
          if vs = 0 then
            let n ← loadInt result fCount
            let ks ← loadPtr result fKeys
            freeLoop ks n 0
            let ks ← loadPtr result fKeys
            free ks
            free result
            pure 0
          else pure result

/-- map.c:164-210; the nonzero results are `__LINE__` -/
def Map_IncreaseStorageKeysValues (h : Ptr) : M Nat := do
  let keys ← loadPtr h fKeys
  let count ← loadInt h fCount
  let newKeys ← reallocS keys (count + 1)
  if newKeys = 0 then pure 171
  else
    store h fKeys (.ptr newKeys)
    store newKeys count (.ptr 0)
    let values ← loadPtr h fValues
    let newValues ← reallocS values (count + 1)
    if newValues = 0 then
      if count = 0 then
        let keys ← loadPtr h fKeys
        free keys
        store h fKeys (.ptr 0)
        pure 199
      else
        let keys ← loadPtr h fKeys
        let undoneKeys ← reallocS keys count
        if undoneKeys = 0 then pure 199
        else
          store h fKeys (.ptr undoneKeys)
          pure 199
    else
      store h fValues (.ptr newValues)
      store newValues count (.ptr 0)
      store h fCount (.int (count + 1))
      pure 0

/-- map.c:212-249 -/
def Map_DecreaseStorageKeysValues (h : Ptr) : M Unit := do
  let count ← loadInt h fCount
  if count = 1 then
    let keys ← loadPtr h fKeys
    free keys
    store h fKeys (.ptr 0)
    let values ← loadPtr h fValues
    free values
    store h fValues (.ptr 0)
    store h fCount (.int 0)
    store h fFilter (.int 0)
  else
    let keys ← loadPtr h fKeys
    let undoneKeys ← reallocS keys (count - 1)
    if undoneKeys = 0 then pure ()
    else store h fKeys (.ptr undoneKeys)
    let values ← loadPtr h fValues
    let undoneValues ← reallocS values (count - 1)
    if undoneValues = 0 then pure ()
    else store h fValues (.ptr undoneValues)
    store h fCount (.int (count - 1))

/-- map.c:262-269, 285-292: the searching loop over the array in field `fld` -/
def findLoop (h : Ptr) (fld : Nat) (key : CharPtr) : Nat → Nat → M (Option Nat)
  | 0, _ => pure none
  | fuel + 1, i => do
    let a ← loadPtr h fld
    let s ← loadPtr a i
    let c ← strcmp (.ofPtr s) key
    if c = 0 then pure (some i)
    else findLoop h fld key fuel (i + 1)

/-- map.c:251-272 -/
def findKey (h : Ptr) (key : CharPtr) : M (Option Nat) := do
  let keys ← loadPtr h fKeys
  if keys = 0 then pure none
  else
    let count ← loadInt h fCount
    findLoop h fKeys key count 0

/-- map.c:274-295 -/
def findValue (h : Ptr) (value : CharPtr) : M (Option Nat) := do
  let values ← loadPtr h fValues
  if values = 0 then pure none
  else
    let count ← loadInt h fCount
    findLoop h fValues value count 0

/-- map.c:297-328 -/
def insertNewKeyValue (h : Ptr) (key value : CharPtr) : M Nat := do
  let r ← Map_IncreaseStorageKeysValues h
  if r ≠ 0 then pure 302
  else
    let keys ← loadPtr h fKeys
    let count ← loadInt h fCount
    let r ← mallocAndStrcpy_s keys (count - 1) key
    if r ≠ 0 then
      Map_DecreaseStorageKeysValues h
      pure 310
    else
      let values ← loadPtr h fValues
      let count ← loadInt h fCount
      let r ← mallocAndStrcpy_s values (count - 1) value
      if r ≠ 0 then
        let keys ← loadPtr h fKeys
        let count ← loadInt h fCount
        let k ← loadPtr keys (count - 1)
        free k
        Map_DecreaseStorageKeysValues h
        pure 319
      else pure 0

/-- the call `mapFilterCallback(key, value)` -/
def callFilter (flt : Filt) (f : Nat) (key value : CharPtr) : M Int := do
  let k ← cstr key
  let v ← cstr value
  pure (flt f k v)

/-- map.c:359 / 403: `(mapFilterCallback != NULL) && (mapFilterCallback(key, value) != 0)` -/
def rejected (flt : Filt) (h : Ptr) (key value : CharPtr) : M Bool := do
  let f ← loadInt h fFilter
  if f ≠ 0 then
    let f ← loadInt h fFilter
    let r ← callFilter flt f key value
    pure (decide (r ≠ 0))
  else pure false

/-- map.c:330-378 -/
def Map_Add (flt : Filt) (handle : Ptr) (key value : CharPtr) : M MapResult := do
  if handle = 0 ∨ key = .null ∨ value = .null then pure .invalidArg
  else
    let w ← findKey handle key
    if w ≠ none then pure .keyExists
    else
      let rej ← rejected flt handle key value
      if rej then pure .filterReject
      else
        let r ← insertNewKeyValue handle key value
        if r ≠ 0 then pure .error
        else pure .ok

/-- map.c:380-443 -/
def Map_AddOrUpdate (flt : Filt) (handle : Ptr) (key value : CharPtr) : M MapResult := do
  if handle = 0 ∨ key = .null ∨ value = .null then pure .invalidArg
  else
    let rej ← rejected flt handle key value
    if rej then pure .filterReject
    else
      let whereIsIt ← findKey handle key
      match whereIsIt with
      | none =>
        let r ← insertNewKeyValue handle key value
        if r ≠ 0 then pure .error
        else pure .ok
      | some index =>
        let valueLength ← strlen value
        let values ← loadPtr handle fValues
        let old ← loadPtr values index
        let newValue ← realloc old (valueLength + 1)
        if newValue = 0 then pure .error
        else
          memcpy newValue 0 value (valueLength + 1)
          let values ← loadPtr handle fValues
          store values index (.ptr newValue)
          pure .ok

/-- map.c:445-481 -/
def Map_Delete (handle : Ptr) (key : CharPtr) : M MapResult := do
  if handle = 0 ∨ key = .null then pure .invalidArg
  else
    let whereIsIt ← findKey handle key
    match whereIsIt with
    | none => pure .keyNotFound
    | some index =>
      let keys ← loadPtr handle fKeys
      let k ← loadPtr keys index
      free k
      let values ← loadPtr handle fValues
      let v ← loadPtr values index
      free v
      let count ← loadInt handle fCount
      let keys ← loadPtr handle fKeys
      memmove keys index (index + 1) (count - index - 1)
      let values ← loadPtr handle fValues
      memmove values index (index + 1) (count - index - 1)
      Map_DecreaseStorageKeysValues handle
      pure .ok

/-- map.c:483-505; the boolean is what is written to `*keyExists` (`out = false`: that pointer is NULL) -/
def Map_ContainsKey (handle : Ptr) (key : CharPtr) (out : Bool) : M (MapResult × Option Bool) := do
  if handle = 0 ∨ key = .null ∨ out = false then pure (.invalidArg, none)
  else
    let w ← findKey handle key
    pure (.ok, some (decide (w ≠ none)))

/-- map.c:507-529 -/
def Map_ContainsValue (handle : Ptr) (value : CharPtr) (out : Bool) : M (MapResult × Option Bool) := do
  if handle = 0 ∨ value = .null ∨ out = false then pure (.invalidArg, none)
  else
    let w ← findValue handle value
    pure (.ok, some (decide (w ≠ none)))

/-- map.c:531-560 -/
def Map_GetValueFromKey (handle : Ptr) (key : CharPtr) : M Ptr := do
  if handle = 0 ∨ key = .null then pure 0
  else
    let whereIsIt ← findKey handle key
    match whereIsIt with
    | none => pure 0
    | some index =>
      let values ← loadPtr handle fValues
      loadPtr values index

/-- map.c:562-588; the triple is what is written to `*keys, *values, *count` (`out = false`: one of them is NULL) -/
def Map_GetInternals (handle : Ptr) (out : Bool) : M (MapResult × Option (Ptr × Ptr × Nat)) := do
  if handle = 0 ∨ out = false then pure (.invalidArg, none)
  else
    let keys ← loadPtr handle fKeys
    let values ← loadPtr handle fValues
    let count ← loadInt handle fCount
    pure (.ok, some (keys, values, count))

/-- map.c:637-642: `((i>0) ? (STRING_concat(result, ",") == 0) : 1) && … && …` -/
def addEntry (result key value : Ptr) (i : Nat) : M Bool := do
  let c ← (if i > 0 then (do let r ← STRING_concat result (.str [44]); pure (decide (r = 0))) else pure true)
  if c = false then pure false
  else
    let r ← STRING_concat_with_STRING result key
    if r ≠ 0 then pure false
    else
      let r ← STRING_concat result (.str [58])
      if r ≠ 0 then pure false
      else
        let r ← STRING_concat_with_STRING result value
        pure (decide (r = 0))

/-- map.c:612-661: the loop; the result is the value of `result` (`0`: `breakFor` was set) -/
def jsonLoop (h result : Ptr) : Nat → Nat → M Ptr
  | 0, _ => pure result
  | fuel + 1, i => do
    let keys ← loadPtr h fKeys
    let k ← loadPtr keys i
    let key ← STRING_new_JSON (.ofPtr k)
    if key = 0 then
      STRING_delete result
      pure 0
    else
      let values ← loadPtr h fValues
      let v ← loadPtr values i
      let value ← STRING_new_JSON (.ofPtr v)
      if value = 0 then
        STRING_delete result
        STRING_delete key
        pure 0
      else
        let good ← addEntry result key value i
        if good = false then
          STRING_delete result
          STRING_delete value
          STRING_delete key
          pure 0
        else
          STRING_delete value
          STRING_delete key
          jsonLoop h result fuel (i + 1)

/-- map.c:590-680 -/
def Map_ToJSON (handle : Ptr) : M Ptr := do
  if handle = 0 then pure 0
  else
    let result ← STRING_construct (.str [123])
    if result = 0 then pure 0
    else
      let count ← loadInt handle fCount
      let result ← jsonLoop handle result count 0
      if result = 0 then pure 0
      else
        let r ← STRING_concat result (.str [125])
        if r ≠ 0 then
          STRING_delete result
          pure 0
        else pure result

end Verif.Map
