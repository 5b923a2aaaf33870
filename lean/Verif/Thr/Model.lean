import Verif.Mem
/-!
# Model of `adapters/threadapi_pthreads.c`

The operating system's part is an explicit machine (`Sys`): a list of threads, numbered in order of creation.  A thread
is `ready` until it first runs, then it executes `ThreadWrapper`: it reads the start function and its argument from the
instance (undefined behaviour if the instance is no longer live) and runs the function (`running`); when the function
returns or calls `ThreadAPI_Exit` the thread is `done`.  These steps happen at any time (see `Thr/Spec.lean`).
`pthread_create` may fail with any error code; `pthread_join` returns 0 only for a thread that is done; it may fail only
for a thread that has started (POSIX: a joinable thread can only be refused for a deadlock, which needs it to be running).

The out-parameters `threadHandle` and `res` are represented by a flag (not `NULL`) and the value written, if any.
Logging and the TI-RTOS variant are left out.
-/
namespace Verif.Thr

/-- `THREADAPI_RESULT`, inc/azure_c_shared_utility/threadapi.h:20-29 -/
inductive THREADAPI_RESULT | ok | invalid_arg | no_memory | error
  deriving DecidableEq, Repr

/-- `EAGAIN` (Linux) -/
def EAGAIN : Int := 11

inductive Phase where
  | ready
  | running (fn arg : Nat)
  | done (threadResult : Nat)
  deriving DecidableEq, Repr

/-- a thread of the operating system: the argument given to `pthread_create` and where it is -/
structure Thread where
  inst : Nat
  phase : Phase
  deriving DecidableEq, Repr

abbrev Sys := List Thread

/-- `(void*)(intptr_t)r` for an `int` -/
def toVoid (r : Int) : Nat := (r % 2 ^ 64).toNat
/-- `(int)(intptr_t)p` -/
def toInt (p : Nat) : Int := if p % 2 ^ 32 < 2 ^ 31 then ((p % 2 ^ 32 : Nat) : Int) else ((p % 2 ^ 32 : Nat) : Int) - 2 ^ 32

/-- `pthread_create`: `code` is its result; the new thread's number is its position -/
def pthread_create (sys : Sys) (code : Int) (inst : Nat) : Int × Nat × Sys :=
  if code = 0 then (0, sys.length, sys ++ [⟨inst, .ready⟩]) else (code, 0, sys)

/-- `ThreadWrapper` up to the call of the start function, adapters/threadapi_pthreads.c:31-34: thread number `t` starts.
Returns the function it calls and the argument it passes. -/
def ThreadWrapper_start (sys : Sys) (t : Nat) : M (Option (Nat × Nat) × Sys) :=
  match sys[t]? with
  | some ⟨inst, .ready⟩ => do
    let fn ← loadPtr inst 1
    let arg ← loadPtr inst 2
    pure (some (fn, arg), sys.set t ⟨inst, .running fn arg⟩)
  | _ => pure (none, sys)

/-- The start function of thread `t` returns `result`, adapters/threadapi_pthreads.c:34-36; or it calls
`ThreadAPI_Exit(result)`, adapters/threadapi_pthreads.c:122-125. -/
def ThreadWrapper_end (sys : Sys) (t : Nat) (result : Int) : Sys :=
  match sys[t]? with
  | some ⟨inst, .running _ _⟩ => sys.set t ⟨inst, .done (toVoid result)⟩
  | _ => sys

/-- `ThreadAPI_Create`, adapters/threadapi_pthreads.c:38-86; `code` is what `pthread_create` answers.
Instance fields: 0 `Pthread_handle`, 1 `ThreadStartFunc`, 2 `Arg` (24-29). -/
def ThreadAPI_Create (sys : Sys) (code : Int) (threadHandle : Bool) (func arg : Nat) :
    M (THREADAPI_RESULT × Option Ptr × Sys) := do
  if threadHandle = false ∨ func = 0 then pure (.invalid_arg, none, sys) else do
  let threadInstance ← mallocS 3
  if threadInstance = 0 then pure (.no_memory, none, sys) else do
  store threadInstance 1 (.ptr func)
  store threadInstance 2 (.ptr arg)
  let x := pthread_create sys code threadInstance
  if x.1 = 0 then do
    store threadInstance 0 (.int x.2.1)
    pure (.ok, some threadInstance, x.2.2)
  else if x.1 = EAGAIN then do
    free threadInstance
    pure (.no_memory, none, x.2.2)
  else do
    free threadInstance
    pure (.error, none, x.2.2)

/-- `pthread_join`: `none` while it cannot return (yet) with that result -/
def pthread_join (sys : Sys) (code : Int) (t : Nat) : Option (Int × Nat) :=
  match sys[t]? with
  | some ⟨_, .done v⟩ => some (code, v)
  | some ⟨_, .running _ _⟩ => if code = 0 then none else some (code, 0)
  | _ => none

/-- `ThreadAPI_Join`, adapters/threadapi_pthreads.c:88-120.  `none`: still blocked in `pthread_join`. -/
def ThreadAPI_Join (sys : Sys) (code : Int) (threadHandle : Ptr) (res : Bool) : M (Option (THREADAPI_RESULT × Option Int)) := do
  if threadHandle = 0 then pure (some (.invalid_arg, none)) else do
  let t ← loadInt threadHandle 0
  match pthread_join sys code t with
  | none => pure none
  | some (r, threadResult) => do
    let x := if r ≠ 0 then (THREADAPI_RESULT.error, none)
      else (THREADAPI_RESULT.ok, if res then some (toInt threadResult) else none)
    free threadHandle
    pure (some x)

/-- the argument given to `nanosleep` by `ThreadAPI_Sleep`, adapters/threadapi_pthreads.c:127-137;
`milliseconds` is an `unsigned int`; `(milliseconds % 1000) * 1000000` is computed in `unsigned int`. -/
def sleepTime (milliseconds : UInt32) : Int × Int :=
  (((milliseconds / 1000).toNat : Int), (((milliseconds % 1000) * 1000000).toNat : Int))

end Verif.Thr
