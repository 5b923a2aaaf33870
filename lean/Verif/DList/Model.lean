import Verif.Mem
/-!
# Model of `/repo/src/doublylinkedlist.c`

A `DLIST_ENTRY` (doublylinkedlist.h:15-19) is the first two slots, `Flink` and `Blink`, of a block of the client (the client embeds
the entry in a larger structure; the slots after the second are the client's data).  Simplification: the entry is at the start of its
block (`containingRecord` of doublylinkedlist.h:33 with offset 0).
-/
namespace Verif.DList
open Verif

abbrev fFlink : Nat := 0
abbrev fBlink : Nat := 1

/-- doublylinkedlist.c:10-18 -/
def DList_InitializeListHead (ListHead : Ptr) : M Unit := do
  store ListHead fBlink (.ptr ListHead)
  store ListHead fFlink (.ptr ListHead)

/-- doublylinkedlist.c:20-28 -/
def DList_IsListEmpty (ListHead : Ptr) : M Nat := do
  let Flink ← loadPtr ListHead fFlink
  pure (if Flink = ListHead then 1 else 0)

/-- doublylinkedlist.c:30-47 -/
def DList_RemoveEntryList (Entry : Ptr) : M Nat := do
  let Flink ← loadPtr Entry fFlink
  let Blink ← loadPtr Entry fBlink
  store Blink fFlink (.ptr Flink)
  store Flink fBlink (.ptr Blink)
  pure (if Flink = Blink then 1 else 0)

/-- doublylinkedlist.c:49-65 -/
def DList_RemoveHeadList (ListHead : Ptr) : M Ptr := do
  let Entry ← loadPtr ListHead fFlink
  let Flink ← loadPtr Entry fFlink
  store ListHead fFlink (.ptr Flink)
  store Flink fBlink (.ptr ListHead)
  pure Entry

/-- doublylinkedlist.c:69-84 -/
def DList_InsertTailList (ListHead Entry : Ptr) : M Unit := do
  let Blink ← loadPtr ListHead fBlink
  store Entry fFlink (.ptr ListHead)
  store Entry fBlink (.ptr Blink)
  store Blink fFlink (.ptr Entry)
  store ListHead fBlink (.ptr Entry)

/-- doublylinkedlist.c:87-101 -/
def DList_AppendTailList (ListHead ListToAppend : Ptr) : M Unit := do
  let ListEnd ← loadPtr ListHead fBlink
  let b ← loadPtr ListHead fBlink
  store b fFlink (.ptr ListToAppend)
  let tb ← loadPtr ListToAppend fBlink
  store ListHead fBlink (.ptr tb)
  let tb' ← loadPtr ListToAppend fBlink
  store tb' fFlink (.ptr ListHead)
  store ListToAppend fBlink (.ptr ListEnd)

/-- doublylinkedlist.c:104-111 -/
def DList_InsertHeadList (listHead entry : Ptr) : M Unit := do
  store entry fBlink (.ptr listHead)
  let f ← loadPtr listHead fFlink
  store entry fFlink (.ptr f)
  let f' ← loadPtr listHead fFlink
  store f' fBlink (.ptr entry)
  store listHead fFlink (.ptr entry)

/-- a client that walks from `cur` along slot `dir` until it meets `ListHead` (not part of the library) -/
def walk (dir ListHead cur : Ptr) : M (List Ptr) := do
  if cur = ListHead then pure []
  else
    let next ← loadPtr cur dir
    let rest ← walk dir ListHead next
    pure (cur :: rest)
partial_fixpoint

/-- the entries seen by following `Flink` from the head -/
def forward (ListHead : Ptr) : M (List Ptr) := do
  let f ← loadPtr ListHead fFlink
  walk fFlink ListHead f

/-- the entries seen by following `Blink` from the head -/
def backward (ListHead : Ptr) : M (List Ptr) := do
  let b ← loadPtr ListHead fBlink
  walk fBlink ListHead b

end Verif.DList
