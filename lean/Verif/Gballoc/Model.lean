import Verif.Mem
/-!
# Model of `/repo/src/gballoc.c` and of `/repo/adapters/lock_pthreads.c`

The file-scope variables of gballoc.c (gballoc.c:30-35) are one block `g` with the slots `head`, `totalSize`, `maxSize`,
`gballocState`, `gballocThreadSafeLock`.  An `ALLOCATION` (gballoc.c:17-22) is a block with the slots `size`, `ptr`, `next`.
A mutex is a block with one slot, 1 while it is held; `pthread_mutex_init` and `pthread_mutex_lock` may fail for reasons outside
the program (`mutexOk`, `lockOk`), `pthread_mutex_destroy` fails on a held mutex (`EBUSY`).  Locking a mutex the caller holds is
undefined.  Nonzero `int` results are the `__LINE__` of the source.  Logging is not modelled.
-/
namespace Verif.Gballoc
open Verif

abbrev fHead : Nat := 0
abbrev fTotal : Nat := 1
abbrev fMax : Nat := 2
abbrev fState : Nat := 3
abbrev fLock : Nat := 4
abbrev aSize : Nat := 0
abbrev aPtr : Nat := 1
abbrev aNext : Nat := 2
/-- gballoc.c:26-27 -/
abbrev stInit : Nat := 0
abbrev stNotInit : Nat := 1
/-- gballoc.c:14 -/
def SIZE_MAX : Nat := szMod - 1

/-- The variables as they are when the program starts (gballoc.c:30-35), placed in a block. -/
def globals : M Ptr := do
  let g ← mallocS 5
  if g ≠ 0 then
    storeN g 0 [.ptr 0, .int 0, .int 0, .int stNotInit, .ptr 0]
    pure g
  else pure 0

/-- adapters/lock_pthreads.c:12-27 -/
def Lock_Init (mutexOk : Bool) : M Ptr := do
  let lock_mtx ← mallocS 1
  if lock_mtx ≠ 0 then
    if mutexOk then
      store lock_mtx 0 (.int 0)
      pure lock_mtx
    else
      free lock_mtx
      pure 0
  else pure 0

/-- adapters/lock_pthreads.c:30-54; `true` is `LOCK_OK` -/
def Lock (handle : Ptr) (lockOk : Bool) : M Bool := do
  if handle = 0 then pure false
  else
    let held ← loadInt handle 0
    if held ≠ 0 then ub "mutex locked twice"
    else if lockOk then
      store handle 0 (.int 1)
      pure true
    else pure false

/-- adapters/lock_pthreads.c:55-79 -/
def Unlock (handle : Ptr) : M Bool := do
  if handle = 0 then pure false
  else
    let held ← loadInt handle 0
    if held = 0 then ub "mutex not held"
    else
      store handle 0 (.int 0)
      pure true

/-- adapters/lock_pthreads.c:81-106 -/
def Lock_Deinit (handle : Ptr) : M Bool := do
  if handle = 0 then pure false
  else
    let held ← loadInt handle 0
    if held = 0 then
      free handle
      pure true
    else pure false

/-- gballoc.c:37-65 -/
def gballoc_init (g : Ptr) (mutexOk : Bool) : M Nat := do
  let st ← loadInt g fState
  if st ≠ stNotInit then pure 44
  else
    let lk ← Lock_Init mutexOk
    store g fLock (.ptr lk)
    if lk = 0 then pure 50
    else
      store g fState (.int stInit)
      store g fTotal (.int 0)
      store g fMax (.int 0)
      pure 0

/-- gballoc.c:67-76 -/
def gballoc_deinit (g : Ptr) : M Unit := do
  let st ← loadInt g fState
  if st = stInit then
    let lk ← loadPtr g fLock
    let _ ← Lock_Deinit lk
    store g fState (.int stNotInit)
  else
    store g fState (.int stNotInit)

/-- `if (maxSize < totalSize) maxSize = totalSize;` (gballoc.c:120-123, 175-178, 269-272) -/
def raiseMax (g : Ptr) : M Unit := do
  let m ← loadInt g fMax
  let t ← loadInt g fTotal
  if m < t then store g fMax (.int t) else pure ()

/-- `(void)Unlock(gballocThreadSafeLock); return result;` (gballoc.c:127-130, 182-185, 276-279) -/
def unlockRet (g : Ptr) (result : Nat) : M Nat := do
  let lk ← loadPtr g fLock
  let _ ← Unlock lk
  pure result

/-- gballoc.c:78-131 -/
def gballoc_malloc (g : Ptr) (lockOk : Bool) (size : Nat) : M Nat := do
  let st ← loadInt g fState
  if st ≠ stInit then malloc size
  else
    let lk ← loadPtr g fLock
    let ok ← Lock lk lockOk
    if ok = false then pure 0
    else
      let allocation ← mallocS 3
      if allocation = 0 then unlockRet g 0
      else
        let result ← malloc size
        if result = 0 then
          free allocation
          unlockRet g 0
        else
          store allocation aPtr (.ptr result)
          store allocation aSize (.int size)
          let head ← loadPtr g fHead
          store allocation aNext (.ptr head)
          store g fHead (.ptr allocation)
          let t ← loadInt g fTotal
          store g fTotal (.int ((t + size) % szMod))
          raiseMax g
          unlockRet g result

/-- C11 §7.22.3.2: `calloc`; a product that does not fit an object is refused -/
def calloc (nmemb size : Nat) : M Ptr := do
  let p ← malloc (nmemb * size)
  if p ≠ 0 then
    storeN p 0 (List.replicate (nmemb * size) (.byte 0))
    pure p
  else pure 0

/-- gballoc.c:133-186 -/
def gballoc_calloc (g : Ptr) (lockOk : Bool) (nmemb size : Nat) : M Nat := do
  let st ← loadInt g fState
  if st ≠ stInit then calloc nmemb size
  else
    let lk ← loadPtr g fLock
    let ok ← Lock lk lockOk
    if ok = false then pure 0
    else
      let allocation ← mallocS 3
      if allocation = 0 then unlockRet g 0
      else
        let result ← calloc nmemb size
        if result = 0 then
          free allocation
          unlockRet g 0
        else
          store allocation aPtr (.ptr result)
          store allocation aSize (.int ((nmemb * size) % szMod))
          let head ← loadPtr g fHead
          store allocation aNext (.ptr head)
          store g fHead (.ptr allocation)
          let t ← loadInt g fTotal
          let s ← loadInt allocation aSize
          store g fTotal (.int ((t + s) % szMod))
          raiseMax g
          unlockRet g result

/-- gballoc.c:215-227: the search loop of `gballoc_realloc`; the result is `allocation` -/
def findLoop (ptr curr : Ptr) : M Ptr := do
  if curr ≠ 0 then
    let p ← loadPtr curr aPtr
    if p = ptr then pure curr
    else
      let next ← loadPtr curr aNext
      findLoop ptr next
  else pure 0
partial_fixpoint

/-- gballoc.c:188-280 -/
def gballoc_realloc (g : Ptr) (lockOk : Bool) (ptr size : Nat) : M Nat := do
  let st ← loadInt g fState
  if st ≠ stInit then realloc ptr size
  else
    let lk ← loadPtr g fLock
    let ok ← Lock lk lockOk
    if ok = false then pure 0
    else
      let head ← loadPtr g fHead
      let allocation ← if ptr = 0 then mallocS 3 else findLoop ptr head
      if allocation = 0 then unlockRet g 0
      else
        let result ← realloc ptr size
        if result = 0 then
          if ptr = 0 then
            free allocation
            unlockRet g 0
          else unlockRet g 0
        else
          store allocation aPtr (.ptr result)
          if ptr ≠ 0 then
            let t ← loadInt g fTotal
            let s ← loadInt allocation aSize
            store g fTotal (.int ((t + szMod - s) % szMod))
            store allocation aSize (.int size)
          else
            store allocation aSize (.int size)
            let head ← loadPtr g fHead
            store allocation aNext (.ptr head)
            store g fHead (.ptr allocation)
          let t ← loadInt g fTotal
          store g fTotal (.int ((t + size) % szMod))
          raiseMax g
          unlockRet g result

/-- gballoc.c:301-323: the loop of `gballoc_free` -/
def freeLoop (g ptr : Ptr) (curr prev : Ptr) : M Unit := do
  if curr ≠ 0 then
    let p ← loadPtr curr aPtr
    if p = ptr then
      free ptr
      let t ← loadInt g fTotal
      let s ← loadInt curr aSize
      store g fTotal (.int ((t + szMod - s) % szMod))
      let next ← loadPtr curr aNext
      if prev ≠ 0 then
        store prev aNext (.ptr next)
        free curr
      else
        store g fHead (.ptr next)
        free curr
    else
      let next ← loadPtr curr aNext
      freeLoop g ptr next curr
  else pure ()
partial_fixpoint

/-- gballoc.c:287-333: `gballoc_free` after `ALLOCATION* curr = head;` (gballoc.c:284), which is executed without the lock -/
def freeFrom (g : Ptr) (lockOk : Bool) (ptr curr : Ptr) : M Nat := do
  let st ← loadInt g fState
  if st ≠ stInit then
    free ptr
    pure 0
  else
    let lk ← loadPtr g fLock
    let ok ← Lock lk lockOk
    if ok = false then pure 0
    else
      freeLoop g ptr curr 0
      unlockRet g 0

/-- gballoc.c:282-334 -/
def gballoc_free (g : Ptr) (lockOk : Bool) (ptr : Ptr) : M Nat := do
  let curr ← loadPtr g fHead
  freeFrom g lockOk ptr curr

/-- gballoc.c:336-361 -/
def gballoc_getMaximumMemoryUsed (g : Ptr) (lockOk : Bool) : M Nat := do
  let st ← loadInt g fState
  if st ≠ stInit then pure SIZE_MAX
  else
    let lk ← loadPtr g fLock
    let ok ← Lock lk lockOk
    if ok = false then pure SIZE_MAX
    else
      let m ← loadInt g fMax
      unlockRet g m

/-- gballoc.c:363-388 -/
def gballoc_getCurrentMemoryUsed (g : Ptr) (lockOk : Bool) : M Nat := do
  let st ← loadInt g fState
  if st ≠ stInit then pure SIZE_MAX
  else
    let lk ← loadPtr g fLock
    let ok ← Lock lk lockOk
    if ok = false then pure SIZE_MAX
    else
      let t ← loadInt g fTotal
      unlockRet g t

end Verif.Gballoc
