import Verif.Mem
/-!
# Model of `adapters/condition_pthreads.c`

The pthread and clock functions are parameters (`Os`).  `time_t` and `long` are 64-bit; signed overflow is
undefined behaviour.  `CLOCK_MONOTONIC` is defined (the code then takes it as `time_basis`,
adapters/condition_pthreads.c:16-26), so the branch for an unknown time basis (lines 32-38) is never taken.
`pthread_cond_t` occupies 48 bytes, kept as 6 slots.  Logging is left out.  `pthread_condattr_*` only fill a
local object that is then passed to `pthread_cond_init`; they are represented by the clock argument of `cond_init`.
-/
namespace Verif.Cond

/-- `struct timespec` -/
structure Timespec where
  sec : Int
  nsec : Int
  deriving DecidableEq, Repr

/-- The operating system functions used; `int` results as integers. -/
structure Os where
  cond_init : (cond : Nat) → (clock : Int) → M Int
  cond_destroy : (cond : Nat) → M Int
  cond_broadcast : (cond : Nat) → M Int
  cond_wait : (cond mutex : Nat) → M Int
  cond_timedwait : (cond mutex : Nat) → Timespec → M Int
  clock_gettime : (clock : Int) → M Timespec

/-- `COND_RESULT`, inc/azure_c_shared_utility/condition.h:16-25 -/
inductive COND_RESULT | ok | invalid_arg | error | timeout
  deriving DecidableEq, Repr

/-- `CLOCK_MONOTONIC` (Linux) -/
def time_basis : Int := 1
/-- `ETIMEDOUT` (Linux) -/
def ETIMEDOUT : Int := 110

/-- a signed 64-bit value; anything else is signed overflow -/
def long (v : Int) : M Int :=
  if -(2 ^ 63) ≤ v ∧ v < 2 ^ 63 then pure v else ub "signed overflow"

section
variable (os : Os)

/-- `Condition_Init`, adapters/condition_pthreads.c:29-53; the result of `pthread_cond_init` is ignored there. -/
def Condition_Init : M Ptr := do
  let cond ← mallocS 6
  if cond ≠ 0 then do
    let _ ← os.cond_init cond time_basis
    pure cond
  else pure cond

/-- `Condition_Post`, adapters/condition_pthreads.c:55-76 -/
def Condition_Post (handle : Ptr) : M COND_RESULT := do
  if handle = 0 then pure .invalid_arg else do
  let r ← os.cond_broadcast handle
  if r = 0 then pure .ok else pure .error

/-- `Condition_Wait`, adapters/condition_pthreads.c:79-136.  C division and remainder truncate (`Int.tdiv`, `Int.tmod`). -/
def Condition_Wait (handle lock : Ptr) (timeout_milliseconds : Int) : M COND_RESULT := do
  if handle = 0 ∨ lock = 0 then pure .invalid_arg else
  if timeout_milliseconds > 0 then do
    let tm ← os.clock_gettime time_basis
    let add ← long ((timeout_milliseconds.tmod 1000) * 1000000)
    let nsec ← long (tm.nsec + add)
    let sec ← long (tm.sec + timeout_milliseconds.tdiv 1000)
    let sec ← long (sec + nsec.tdiv 1000000000)
    let nsec := nsec.tmod 1000000000
    let wait_result ← os.cond_timedwait handle lock ⟨sec, nsec⟩
    if wait_result = ETIMEDOUT then pure .timeout
    else if wait_result = 0 then pure .ok
    else pure .error
  else do
    let r ← os.cond_wait handle lock
    if r ≠ 0 then pure .error else pure .ok

/-- `Condition_Deinit`, adapters/condition_pthreads.c:138-148 -/
def Condition_Deinit (handle : Ptr) : M Unit := do
  if handle ≠ 0 then do
    let _ ← os.cond_destroy handle
    free handle
  else pure ()

end
end Verif.Cond
