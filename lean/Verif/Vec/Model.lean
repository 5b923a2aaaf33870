import Verif.Mem
/-!
# Model of `/repo/src/vector.c`

A `VECTOR` (vector.c:14-19) is a block with the slots `storage`, `count`, `elementSize`.  Elements are byte strings
(simplification: their representation bytes; no typed access).  `size_t` arithmetic wraps at `szMod`.
-/
namespace Verif.Vec
open Verif

abbrev fStorage : Nat := 0
abbrev fCount : Nat := 1
abbrev fSize : Nat := 2

/-- a `void*` result: NULL, a position in a block, or an address made by arithmetic on NULL -/
inductive VPtr where
  | null
  | at (p : Nat) (off : Nat)
  | wild (n : Nat)
  deriving DecidableEq, Repr

/-- `(unsigned char*)p + n` -/
def padd (p : Ptr) (n : Nat) : VPtr := if p = 0 then (if n = 0 then .null else .wild n) else .at p n

/-- vector.c:21-38 -/
def VECTOR_create (elementSize : Nat) : M Ptr := do
  let vec ← mallocS 3
  if vec = 0 then pure 0
  else
    store vec fStorage (.ptr 0)
    store vec fCount (.int 0)
    store vec fSize (.int elementSize)
    pure vec

/-- vector.c:40-48 -/
def internal_VECTOR_clear (vec : Ptr) : M Unit := do
  let storage ← loadPtr vec fStorage
  if storage ≠ 0 then
    free storage
    store vec fStorage (.ptr 0)
    store vec fCount (.int 0)
  else store vec fCount (.int 0)

/-- vector.c:50-58 -/
def VECTOR_destroy (handle : Ptr) : M Unit := do
  if handle ≠ 0 then
    internal_VECTOR_clear handle
    free handle
  else pure ()

/-- vector.c:61-88 -/
def VECTOR_push_back (handle : Ptr) (elements : CharPtr) (numElements : Nat) : M Nat := do
  if handle = 0 ∨ elements = .null ∨ numElements = 0 then pure 66
  else
    let es ← loadInt handle fSize
    let count ← loadInt handle fCount
    let curSize := (es * count) % szMod
    let appendSize := (es * numElements) % szMod
    let storage ← loadPtr handle fStorage
    let temp ← realloc storage ((curSize + appendSize) % szMod)
    if temp = 0 then pure 77
    else
      memcpy temp curSize elements appendSize
      store handle fStorage (.ptr temp)
      store handle fCount (.int ((count + numElements) % szMod))
      pure 0

/-- vector.c:91-110.  `srcEnd - src` is defined only inside one object (C11 §6.5.6); the result of `realloc` is not checked. -/
def VECTOR_erase (handle : Ptr) (elements : VPtr) (numElements : Nat) : M Unit := do
  if handle ≠ 0 ∧ elements ≠ .null ∧ numElements > 0 then
    let es ← loadInt handle fSize
    let storage ← loadPtr handle fStorage
    let count ← loadInt handle fCount
    match elements with
    | .at p off =>
      let src := off + (es * numElements) % szMod
      let srcEnd := (es * count) % szMod
      if p ≠ storage then ub "difference of pointers to different objects"
      else if srcEnd < src then ub "memmove of a negative length"
      else
        memmove p off src (srcEnd - src)
        let count' := (count + szMod - numElements) % szMod
        store handle fCount (.int count')
        if count' = 0 then
          free storage
          store handle fStorage (.ptr 0)
        else
          let q ← realloc storage ((es * count') % szMod)
          store handle fStorage (.ptr q)
    | _ => ub "difference of pointers to different objects"
  else pure ()

/-- vector.c:112-119 -/
def VECTOR_clear (handle : Ptr) : M Unit := do
  if handle ≠ 0 then internal_VECTOR_clear handle else pure ()

/-- vector.c:123-135 -/
def VECTOR_element (handle : Ptr) (index : Nat) : M VPtr := do
  if handle ≠ 0 then
    let count ← loadInt handle fCount
    if index ≤ count then
      let storage ← loadPtr handle fStorage
      let es ← loadInt handle fSize
      pure (padd storage ((es * index) % szMod))
    else pure .null
  else pure .null

/-- vector.c:137-146 -/
def VECTOR_front (handle : Ptr) : M VPtr := do
  if handle ≠ 0 then
    let storage ← loadPtr handle fStorage
    pure (padd storage 0)
  else pure .null

/-- vector.c:148-157 -/
def VECTOR_back (handle : Ptr) : M VPtr := do
  if handle ≠ 0 then
    let storage ← loadPtr handle fStorage
    let es ← loadInt handle fSize
    let count ← loadInt handle fCount
    pure (padd storage ((es * ((count + szMod - 1) % szMod)) % szMod))
  else pure .null

/-- vector.c:166-174: the loop of `VECTOR_find_if`; `pred` is client code (its `value` argument is part of it) -/
def findLoop (handle : Ptr) (pred : VPtr → M Bool) (i : Nat) : M VPtr := do
  let count ← loadInt handle fCount
  if i < count then
    let storage ← loadPtr handle fStorage
    let es ← loadInt handle fSize
    let b ← pred (padd storage ((es * i) % szMod))
    if b = true then pure (padd storage ((es * i) % szMod))
    else findLoop handle pred (i + 1)
  else pure .null
partial_fixpoint

/-- vector.c:159-177; `none` is a NULL function pointer, `valueNull` says that `value` is NULL -/
def VECTOR_find_if (handle : Ptr) (pred : Option (VPtr → M Bool)) (valueNull : Bool) : M VPtr := do
  match pred with
  | none => pure .null
  | some f => if handle ≠ 0 ∧ valueNull = false then findLoop handle f 0 else pure .null

/-- vector.c:181-190 -/
def VECTOR_size (handle : Ptr) : M Nat := do
  if handle ≠ 0 then loadInt handle fCount else pure 0

end Verif.Vec
