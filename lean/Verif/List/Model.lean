import Verif.Mem
/-!
# Model of `/repo/src/list.c`

A `LIST_HANDLE` is the address of a block with one slot, `head` (list.c:19-22); a `LIST_ITEM_HANDLE` is the address of a block with
the slots `item`, `next` (list.c:13-17).  Items are opaque pointers, represented by their addresses.  Nonzero `int` results are the
`__LINE__` of the source.  `while` loops are partial: a loop that does not end has no result (`none`).
-/
namespace Verif.List
open Verif

abbrev fHead : Nat := 0
abbrev fItem : Nat := 0
abbrev fNext : Nat := 1

/-- list.c:24-37 -/
def list_create : M Ptr := do
  let result ← mallocS 1
  if result ≠ 0 then
    store result fHead (.ptr 0)
    pure result
  else pure result

/-- list.c:46-51: the loop of `list_destroy` -/
def destroyLoop (list : Ptr) : M Unit := do
  let current_item ← loadPtr list fHead
  if current_item ≠ 0 then
    let next ← loadPtr current_item fNext
    store list fHead (.ptr next)
    free current_item
    destroyLoop list
  else pure ()
partial_fixpoint

/-- list.c:39-56 -/
def list_destroy (list : Ptr) : M Unit := do
  if list ≠ 0 then
    destroyLoop list
    free list
  else pure ()

/-- list.c:89-92: `while (current->next != NULL) current = current->next;` -/
def lastLoop (current : Ptr) : M Ptr := do
  let next ← loadPtr current fNext
  if next ≠ 0 then lastLoop next else pure current
partial_fixpoint

/-- list.c:58-102 -/
def list_add (list : Ptr) (item : Ptr) : M Ptr := do
  if list = 0 ∨ item = 0 then pure 0
  else
    let result ← mallocS 2
    if result = 0 then pure 0
    else
      store result fNext (.ptr 0)
      store result fItem (.ptr item)
      let head ← loadPtr list fHead
      if head = 0 then
        store list fHead (.ptr result)
        pure result
      else
        let current ← lastLoop head
        store current fNext (.ptr result)
        pure result

/-- list.c:120-139: the loop of `list_remove`; the result is `current_item` at loop exit (`NULL` unless the item was found) -/
def removeLoop (list item : Ptr) (current_item previous_item : Ptr) : M Ptr := do
  if current_item ≠ 0 then
    if current_item = item then
      let next ← loadPtr current_item fNext
      if previous_item ≠ 0 then
        store previous_item fNext (.ptr next)
        free current_item
        pure current_item
      else
        store list fHead (.ptr next)
        free current_item
        pure current_item
    else
      let next ← loadPtr current_item fNext
      removeLoop list item next current_item
  else pure 0
partial_fixpoint

/-- list.c:104-154 -/
def list_remove (list item : Ptr) : M Nat := do
  if list = 0 ∨ item = 0 then pure 112
  else
    let head ← loadPtr list fHead
    let current_item ← removeLoop list item head 0
    if current_item = 0 then pure 144 else pure 0

/-- list.c:156-175 -/
def list_get_head_item (list : Ptr) : M Ptr := do
  if list = 0 then pure 0 else loadPtr list fHead

/-- list.c:177-193 -/
def list_get_next_item (item_handle : Ptr) : M Ptr := do
  if item_handle = 0 then pure 0 else loadPtr item_handle fNext

/-- list.c:195-211 -/
def list_item_get_value (item_handle : Ptr) : M Ptr := do
  if item_handle = 0 then pure 0 else loadPtr item_handle fItem

/-- list.c:227-240: the loop of `list_find`; `match_function` is client code applied to the item handle (its context is part of it) -/
def findLoop (match_function : Ptr → M Bool) (current : Ptr) : M Ptr := do
  if current ≠ 0 then
    let m ← match_function current
    if m = true then pure current
    else
      let next ← loadPtr current fNext
      findLoop match_function next
  else pure 0
partial_fixpoint

/-- list.c:213-255; `none` is the NULL function pointer -/
def list_find (list : Ptr) (match_function : Option (Ptr → M Bool)) : M Ptr := do
  match match_function with
  | none => pure 0
  | some f =>
    if list = 0 then pure 0
    else
      let head ← loadPtr list fHead
      findLoop f head

/-- a client that walks the list with `list_get_head_item` / `list_get_next_item` and reads every value (not part of the library) -/
def walk (item : Ptr) : M (List (Nat × Nat)) := do
  if item = 0 then pure []
  else
    let v ← list_item_get_value item
    let next ← list_get_next_item item
    let rest ← walk next
    pure ((item, v) :: rest)
partial_fixpoint

def traverse (list : Ptr) : M (List (Nat × Nat)) := do
  let head ← list_get_head_item list
  walk head

end Verif.List
