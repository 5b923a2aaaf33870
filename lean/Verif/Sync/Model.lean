/-!
# Model of `adapters/lock_pthreads.c` and `adapters/condition_pthreads.c` for any number of threads

The functions are programs that call the operating system (`Sys`); between two calls any other thread may run.  The operating
system is an explicit machine: memory blocks that are raw, a mutex with its owner, or a condition variable; threads that run, sleep
in `pthread_cond_wait` or `pthread_cond_timedwait`, or were woken and wait to own the mutex again.

The deadline given to `pthread_cond_timedwait` is not represented (its computation is modelled in `Cond/Model.lean`): a timed wait may
end at any time with `ETIMEDOUT`.  Waits may end without a reason (POSIX: spurious wakeups).  `pthread_cond_init` is assumed to
succeed (the code ignores its result: C56).  Mutex functions may fail with any code, and then have no effect.  Logging is left out.
-/
namespace Verif.Sync

abbrev Tid := Nat

/-- `LOCK_RESULT`, inc/azure_c_shared_utility/lock.h:17-23 -/
inductive LOCK_RESULT | ok | error
  deriving DecidableEq, Repr
/-- `COND_RESULT`, inc/azure_c_shared_utility/condition.h:16-25 -/
inductive COND_RESULT | ok | invalid_arg | error | timeout
  deriving DecidableEq, Repr

/-- the functions of lock.h and condition.h -/
inductive Op where
  | lockInit
  | lock (h : Nat)
  | unlock (h : Nat)
  | lockDeinit (h : Nat)
  | condInit
  | post (c : Nat)
  | wait (c h : Nat) (ms : Int)
  | condDeinit (c : Nat)
  deriving DecidableEq, Repr

/-- what they return -/
inductive Ret where
  | handle (p : Nat)
  | lock (r : LOCK_RESULT)
  | cond (r : COND_RESULT)
  | none
  deriving DecidableEq, Repr

/-- calls of the operating system -/
inductive Sys where
  | malloc
  | free (p : Nat)
  | mutexInit (p : Nat)
  | mutexLock (p : Nat)
  | mutexUnlock (p : Nat)
  | mutexDestroy (p : Nat)
  | condInit (p : Nat)
  | condBroadcast (p : Nat)
  | clock
  /-- `timed`: `pthread_cond_timedwait` -/
  | condWait (p m : Nat) (timed : Bool)
  | condDestroy (p : Nat)
  deriving DecidableEq, Repr

/-- a function that is being executed: it calls the operating system and goes on with the answer, or returns -/
inductive Prog where
  | ret (r : Ret)
  | call (s : Sys) (k : Nat → Prog)

def ETIMEDOUT : Nat := 110

/-- adapters/lock_pthreads.c:12-26 -/
def Lock_Init : Prog :=
  .call .malloc fun lock_mtx =>
    if lock_mtx ≠ 0 then
      .call (.mutexInit lock_mtx) fun r =>
        if r ≠ 0 then .call (.free lock_mtx) fun _ => .ret (.handle 0)
        else .ret (.handle lock_mtx)
    else .ret (.handle lock_mtx)

/-- adapters/lock_pthreads.c:29-53 -/
def Lock (handle : Nat) : Prog :=
  if handle = 0 then .ret (.lock .error)
  else .call (.mutexLock handle) fun r => if r = 0 then .ret (.lock .ok) else .ret (.lock .error)

/-- adapters/lock_pthreads.c:54-78 -/
def Unlock (handle : Nat) : Prog :=
  if handle = 0 then .ret (.lock .error)
  else .call (.mutexUnlock handle) fun r => if r = 0 then .ret (.lock .ok) else .ret (.lock .error)

/-- adapters/lock_pthreads.c:80-106 -/
def Lock_Deinit (handle : Nat) : Prog :=
  if handle = 0 then .ret (.lock .error)
  else .call (.mutexDestroy handle) fun r =>
    if r = 0 then .call (.free handle) fun _ => .ret (.lock .ok)
    else .ret (.lock .error)

/-- adapters/condition_pthreads.c:29-53 -/
def Condition_Init : Prog :=
  .call .malloc fun cond => if cond ≠ 0 then .call (.condInit cond) fun _ => .ret (.handle cond) else .ret (.handle cond)

/-- adapters/condition_pthreads.c:55-76 -/
def Condition_Post (handle : Nat) : Prog :=
  if handle = 0 then .ret (.cond .invalid_arg)
  else .call (.condBroadcast handle) fun r => if r = 0 then .ret (.cond .ok) else .ret (.cond .error)

/-- adapters/condition_pthreads.c:79-136 -/
def Condition_Wait (handle lock : Nat) (timeout_milliseconds : Int) : Prog :=
  if handle = 0 ∨ lock = 0 then .ret (.cond .invalid_arg)
  else if timeout_milliseconds > 0 then
    .call .clock fun _ => .call (.condWait handle lock true) fun wait_result =>
      if wait_result = ETIMEDOUT then .ret (.cond .timeout)
      else if wait_result = 0 then .ret (.cond .ok)
      else .ret (.cond .error)
  else .call (.condWait handle lock false) fun r => if r ≠ 0 then .ret (.cond .error) else .ret (.cond .ok)

/-- adapters/condition_pthreads.c:138-148 -/
def Condition_Deinit (handle : Nat) : Prog :=
  if handle ≠ 0 then .call (.condDestroy handle) fun _ => .call (.free handle) fun _ => .ret .none
  else .ret .none

def body : Op → Prog
  | .lockInit => Lock_Init
  | .lock h => Lock h
  | .unlock h => Unlock h
  | .lockDeinit h => Lock_Deinit h
  | .condInit => Condition_Init
  | .post c => Condition_Post c
  | .wait c h ms => Condition_Wait c h ms
  | .condDeinit c => Condition_Deinit c

/-! ## The operating system -/

/-- a memory block -/
inductive Cell where
  | free
  | raw
  | mutex (owner : Option Tid)
  | cond
  deriving DecidableEq, Repr

inductive Thr where
  | idle
  | run (op : Op) (p : Prog)
  /-- in a wait on the condition variable `c`; it has given up the mutex `m` -/
  | sleep (op : Op) (c m : Nat) (timed : Bool) (k : Nat → Prog)
  /-- its wait is over (with the result `code`) as soon as it owns `m` again -/
  | woken (op : Op) (m code : Nat) (k : Nat → Prog)

/-- the record: calls and returns of the functions -/
inductive Ev where
  | enter (t : Tid) (op : Op)
  | ret (t : Tid) (op : Op) (r : Ret)
  deriving DecidableEq, Repr

abbrev Log := List Ev

structure State where
  mem : Nat → Cell
  thr : Tid → Thr
  log : Log

def upd {α : Type} (f : Nat → α) (i : Nat) (a : α) : Nat → α := fun j => if j = i then a else f j

/-- a broadcast wakes all threads that sleep on `c` -/
def wakeAll (c : Nat) (thr : Tid → Thr) : Tid → Thr := fun t =>
  match thr t with
  | .sleep op c' m timed k => if c' = c then .woken op m 0 k else .sleep op c' m timed k
  | x => x

/-- the behaviour of the call `s` is defined in this state -/
def Defined (st : State) (t : Tid) : Sys → Prop
  | .malloc | .clock => True
  | .free p | .mutexInit p | .condInit p => st.mem p = .raw
  | .mutexLock p => ∃ o, st.mem p = .mutex o ∧ o ≠ some t
  | .mutexUnlock p => st.mem p = .mutex (some t)
  | .mutexDestroy p => st.mem p = .mutex none
  | .condBroadcast p => st.mem p = .cond
  | .condWait p m _ => st.mem p = .cond ∧ st.mem m = .mutex (some t) ∧ ∀ u op m' timed k, st.thr u = .sleep op p m' timed k → m' = m
  | .condDestroy p => st.mem p = .cond ∧ ∀ u op m' timed k, st.thr u ≠ .sleep op p m' timed k

/-- a call that does not put the thread to sleep: memory before, answer, memory after -/
inductive Answers (t : Tid) : (Nat → Cell) → Sys → Nat → (Nat → Cell) → Prop
  | refused {mem} : Answers t mem .malloc 0 mem
  | malloc {mem p} : p ≠ 0 → mem p = .free → Answers t mem .malloc p (upd mem p .raw)
  | free {mem p r} : Answers t mem (.free p) r (upd mem p .free)
  | mutexInit {mem p} : Answers t mem (.mutexInit p) 0 (upd mem p (.mutex none))
  | initFails {mem p r} : r ≠ 0 → Answers t mem (.mutexInit p) r mem
  | mutexLock {mem p} : mem p = .mutex none → Answers t mem (.mutexLock p) 0 (upd mem p (.mutex (some t)))
  | lockFails {mem p r} : r ≠ 0 → Answers t mem (.mutexLock p) r mem
  | mutexUnlock {mem p} : Answers t mem (.mutexUnlock p) 0 (upd mem p (.mutex none))
  | unlockFails {mem p r} : r ≠ 0 → Answers t mem (.mutexUnlock p) r mem
  | mutexDestroy {mem p} : Answers t mem (.mutexDestroy p) 0 (upd mem p .raw)
  | destroyFails {mem p r} : r ≠ 0 → Answers t mem (.mutexDestroy p) r mem
  | condInit {mem p} : Answers t mem (.condInit p) 0 (upd mem p .cond)
  | broadcastFails {mem p r} : r ≠ 0 → Answers t mem (.condBroadcast p) r mem
  | clock {mem r} : Answers t mem .clock r mem
  | waitFails {mem p m timed r} : r ≠ 0 → (r = ETIMEDOUT → timed = true) → Answers t mem (.condWait p m timed) r mem
  | condDestroy {mem p r} : Answers t mem (.condDestroy p) r (upd mem p .raw)

/-- One step; `allowed` says which calls the threads make. -/
inductive Step (allowed : Log → Tid → Op → Prop) : State → State → Prop
  | enter {s t op} : s.thr t = .idle → allowed s.log t op →
      Step allowed s { s with thr := upd s.thr t (.run op (body op)), log := s.log ++ [.enter t op] }
  | ret {s t op r} : s.thr t = .run op (.ret r) → Step allowed s { s with thr := upd s.thr t .idle, log := s.log ++ [.ret t op r] }
  | call {s t op c k r mem'} : s.thr t = .run op (.call c k) → Answers t s.mem c r mem' →
      Step allowed s { s with mem := mem', thr := upd s.thr t (.run op (k r)) }
  | broadcast {s t op c k} : s.thr t = .run op (.call (.condBroadcast c) k) →
      Step allowed s { s with thr := upd (wakeAll c s.thr) t (.run op (k 0)) }
  | sleep {s t op c m timed k} : s.thr t = .run op (.call (.condWait c m timed) k) →
      Step allowed s { s with mem := upd s.mem m (.mutex none), thr := upd s.thr t (.sleep op c m timed k) }
  | wake {s t op c m timed k code} : s.thr t = .sleep op c m timed k → (code = 0 ∨ (timed = true ∧ code = ETIMEDOUT)) →
      Step allowed s { s with thr := upd s.thr t (.woken op m code k) }
  | acquire {s t op m code k} : s.thr t = .woken op m code k → s.mem m = .mutex none →
      Step allowed s { s with mem := upd s.mem m (.mutex (some t)), thr := upd s.thr t (.run op (k code)) }

/-- nothing allocated, no thread inside a function -/
def State.init : State := ⟨fun _ => .free, fun _ => .idle, []⟩

inductive Reach (allowed : Log → Tid → Op → Prop) : State → Prop
  | init : Reach allowed .init
  | step {s s'} : Reach allowed s → Step allowed s s' → Reach allowed s'

end Verif.Sync
