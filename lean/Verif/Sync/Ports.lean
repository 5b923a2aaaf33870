import Verif.Sync.Demo
/-!
# The other implementations of the same interface

`adapters/lock_c11.c` with `adapters/condition_c11.c`, `adapters/lock_win32.c` and `adapters/lock_rtx_mbed.cpp` run on the same machine.
Operating systems differ in which calls can fail (`may`).  The results of C11 functions are represented by 0 for `thrd_success` and
`ETIMEDOUT` for `thrd_timedout`; those of mbed by 0 for `osOK`.  A critical section of Windows may be entered again by the thread that
owns it; callers that observe `Allowed` do not do that, so it is a mutex here.  `InitializeCriticalSection` is assumed not to raise an
exception, `new` not to fail (mbed stops then).  The conditions of mbed (`adapters/condition_rtx_mbed.cpp`) are stubs and left out.
-/
namespace Verif.Sync

/-- an implementation of the interface -/
structure Port where
  /-- the functions it has -/
  has : Op → Bool
  body : Op → Prog
  /-- the answers its operating system gives -/
  may : Sys → Nat → Prop

/-! ## C11 -/
namespace C11

/-- adapters/lock_c11.c:17-32 -/
def Lock_Init : Prog :=
  .call .malloc fun lock_mtx =>
    if lock_mtx ≠ 0 then
      .call (.mutexInit lock_mtx) fun r =>
        if r ≠ 0 then .call (.free lock_mtx) fun _ => .ret (.handle 0)
        else .ret (.handle lock_mtx)
    else .ret (.handle lock_mtx)
/-- adapters/lock_c11.c:35-59 -/
def Lock (handle : Nat) : Prog :=
  if handle = 0 then .ret (.lock .error)
  else .call (.mutexLock handle) fun r => if r = 0 then .ret (.lock .ok) else .ret (.lock .error)
/-- adapters/lock_c11.c:61-85 -/
def Unlock (handle : Nat) : Prog :=
  if handle = 0 then .ret (.lock .error)
  else .call (.mutexUnlock handle) fun r => if r = 0 then .ret (.lock .ok) else .ret (.lock .error)
/-- adapters/lock_c11.c:87-105 (`mtx_destroy` has no result) -/
def Lock_Deinit (handle : Nat) : Prog :=
  if handle = 0 then .ret (.lock .error)
  else .call (.mutexDestroy handle) fun _ => .call (.free handle) fun _ => .ret (.lock .ok)
/-- adapters/condition_c11.c:17-27 -/
def Condition_Init : Prog :=
  .call .malloc fun cond => if cond ≠ 0 then .call (.condInit cond) fun _ => .ret (.handle cond) else .ret (.handle cond)
/-- adapters/condition_c11.c:29-51 -/
def Condition_Post (handle : Nat) : Prog :=
  if handle = 0 then .ret (.cond .invalid_arg)
  else .call (.condBroadcast handle) fun r => if r = 0 then .ret (.cond .ok) else .ret (.cond .error)
/-- adapters/condition_c11.c:53-106 -/
def Condition_Wait (handle lock : Nat) (timeout_milliseconds : Int) : Prog :=
  if handle = 0 ∨ lock = 0 then .ret (.cond .invalid_arg)
  else if timeout_milliseconds > 0 then
    .call .clock fun _ => .call (.condWait handle lock true) fun wait_result =>
      if wait_result = ETIMEDOUT then .ret (.cond .timeout)
      else if wait_result = 0 then .ret (.cond .ok)
      else .ret (.cond .error)
  else .call (.condWait handle lock false) fun r => if r ≠ 0 then .ret (.cond .error) else .ret (.cond .ok)
/-- adapters/condition_c11.c:108-118 -/
def Condition_Deinit (handle : Nat) : Prog :=
  if handle ≠ 0 then .call (.condDestroy handle) fun _ => .call (.free handle) fun _ => .ret .none
  else .ret .none

def body : Op → Prog
  | .lockInit => Lock_Init
  | .lock h => Lock h
  | .unlock h => Unlock h
  | .lockDeinit h => Lock_Deinit h
  | .condInit => Condition_Init
  | .post c => Condition_Post c
  | .wait c h ms => Condition_Wait c h ms
  | .condDeinit c => Condition_Deinit c

end C11

def Op.onLocks : Op → Bool
  | .lockInit | .lock _ | .unlock _ | .lockDeinit _ => true
  | _ => false

/-! ## Windows -/
namespace Win32

/-- adapters/lock_win32.c:16-29 -/
def Lock_Init : Prog :=
  .call .malloc fun lpCriticalSection =>
    if lpCriticalSection = 0 then .ret (.handle lpCriticalSection)
    else .call (.mutexInit lpCriticalSection) fun _ => .ret (.handle lpCriticalSection)
/-- adapters/lock_win32.c:32-46 -/
def Lock (handle : Nat) : Prog :=
  if handle = 0 then .ret (.lock .error) else .call (.mutexLock handle) fun _ => .ret (.lock .ok)
/-- adapters/lock_win32.c:48-63 -/
def Unlock (handle : Nat) : Prog :=
  if handle = 0 then .ret (.lock .error) else .call (.mutexUnlock handle) fun _ => .ret (.lock .ok)
/-- adapters/lock_win32.c:65-79 -/
def Lock_Deinit (handle : Nat) : Prog :=
  if handle = 0 then .ret (.lock .error)
  else .call (.mutexDestroy handle) fun _ => .call (.free handle) fun _ => .ret (.lock .ok)

def body : Op → Prog
  | .lockInit => Lock_Init
  | .lock h => Lock h
  | .unlock h => Unlock h
  | .lockDeinit h => Lock_Deinit h
  | _ => .ret .none

end Win32

/-! ## mbed -/
namespace Mbed

/-- adapters/lock_rtx_mbed.cpp:16-21 -/
def Lock_Init : Prog := .call .malloc fun lock_mtx => .call (.mutexInit lock_mtx) fun _ => .ret (.handle lock_mtx)
/-- adapters/lock_rtx_mbed.cpp:24-48 -/
def Lock (handle : Nat) : Prog :=
  if handle = 0 then .ret (.lock .error)
  else .call (.mutexLock handle) fun r => if r = 0 then .ret (.lock .ok) else .ret (.lock .error)
/-- adapters/lock_rtx_mbed.cpp:49-73 -/
def Unlock (handle : Nat) : Prog :=
  if handle = 0 then .ret (.lock .error)
  else .call (.mutexUnlock handle) fun r => if r = 0 then .ret (.lock .ok) else .ret (.lock .error)
/-- adapters/lock_rtx_mbed.cpp:75-94 -/
def Lock_Deinit (handle : Nat) : Prog :=
  if handle = 0 then .ret (.lock .error)
  else .call (.mutexDestroy handle) fun _ => .call (.free handle) fun _ => .ret (.lock .ok)

def body : Op → Prog
  | .lockInit => Lock_Init
  | .lock h => Lock h
  | .unlock h => Unlock h
  | .lockDeinit h => Lock_Deinit h
  | _ => .ret .none

end Mbed

/-- `mtx_destroy` does not fail -/
def c11 : Port := ⟨fun _ => true, C11.body, fun c r => match c with | .mutexDestroy _ => r = 0 | _ => True⟩
/-- nothing but `malloc` fails -/
def win32 : Port := ⟨Op.onLocks, Win32.body, fun c r => match c with | .malloc => True | _ => r = 0⟩
/-- `new` does not fail, the constructor and the destructor neither -/
def mbed : Port := ⟨Op.onLocks, Mbed.body, fun c r => match c with | .malloc => r ≠ 0 | .mutexInit _ | .mutexDestroy _ => r = 0 | _ => True⟩

/-! ## The machine of a port -/

/-- as `Step`, with the functions and the operating system of the port -/
inductive PStep (P : Port) : State → State → Prop
  | enter {s t op} : s.thr t = .idle → P.has op = true → Allowed s.log t op →
      PStep P s { s with thr := upd s.thr t (.run op (P.body op)), log := s.log ++ [.enter t op] }
  | ret {s t op r} : s.thr t = .run op (.ret r) → PStep P s { s with thr := upd s.thr t .idle, log := s.log ++ [.ret t op r] }
  | call {s t op c k r mem'} : s.thr t = .run op (.call c k) → Answers t s.mem c r mem' → P.may c r →
      PStep P s { s with mem := mem', thr := upd s.thr t (.run op (k r)) }
  | broadcast {s t op c k} : s.thr t = .run op (.call (.condBroadcast c) k) →
      PStep P s { s with thr := upd (wakeAll c s.thr) t (.run op (k 0)) }
  | sleep {s t op c m timed k} : s.thr t = .run op (.call (.condWait c m timed) k) →
      PStep P s { s with mem := upd s.mem m (.mutex none), thr := upd s.thr t (.sleep op c m timed k) }
  | wake {s t op c m timed k code} : s.thr t = .sleep op c m timed k → (code = 0 ∨ (timed = true ∧ code = ETIMEDOUT)) →
      PStep P s { s with thr := upd s.thr t (.woken op m code k) }
  | acquire {s t op m code k} : s.thr t = .woken op m code k → s.mem m = .mutex none →
      PStep P s { s with mem := upd s.mem m (.mutex (some t)), thr := upd s.thr t (.run op (k code)) }

inductive PReach (P : Port) : State → Prop
  | init : PReach P .init
  | step {s s'} : PReach P s → PStep P s s' → PReach P s'

inductive PSteps (P : Port) : State → State → Prop
  | refl {s} : PSteps P s s
  | step {s s' s''} : PStep P s s' → PSteps P s' s'' → PSteps P s s''

/-! ## Every port behaves as the pthreads implementation -/

/-- `p` does what `q` does, for all answers that may be given -/
inductive Sim (may : Sys → Nat → Prop) : Prog → Prog → Prop
  | ret {r} : Sim may (.ret r) (.ret r)
  | call {c k k'} : (∀ r, may c r → Sim may (k r) (k' r)) → Sim may (.call c k) (.call c k')

structure Faithful (P : Port) : Prop where
  sim : ∀ op, P.has op = true → Sim P.may (P.body op) (body op)
  post : ∀ c, P.has (.post c) = true → P.may (.condBroadcast c) 0
  wait : ∀ c h ms, P.has (.wait c h ms) = true → ∀ r, P.may (.condWait c h (timed ms)) r
  lock : ∀ h, P.may (.mutexLock h) 0

theorem c11_faithful : Faithful c11 := by
  refine ⟨fun op _ => ?_, fun _ _ => trivial, fun _ _ _ _ _ => trivial, fun _ => trivial⟩
  have refl : ∀ p, Sim c11.may p p := by
    intro p
    induction p with
    | ret r => exact .ret
    | call c k ih => exact .call fun r _ => ih r
  cases op with
  | lockDeinit h =>
    simp only [c11, C11.body, body, C11.Lock_Deinit, Lock_Deinit]
    split
    · exact .ret
    · refine .call fun r hr => ?_
      have : r = 0 := hr
      subst this
      exact refl _
  | _ => exact refl _

theorem win32_faithful : Faithful win32 := by
  refine ⟨fun op ho => ?_, nofun, nofun, fun _ => rfl⟩
  have refl : ∀ p, Sim win32.may p p := by
    intro p
    induction p with
    | ret r => exact .ret
    | call c k ih => exact .call fun r _ => ih r
  cases op with
  | lockInit =>
    refine .call fun r _ => ?_
    by_cases e : r = 0
    · subst e; exact refl _
    · simp only [e, if_false, if_true, ne_eq, not_false_eq_true]
      refine .call fun r hr => ?_
      cases (show r = 0 from hr); exact refl _
  | lock h =>
    simp only [win32, Win32.body, body, Win32.Lock, Lock]
    split
    · exact .ret
    · refine .call fun r hr => ?_
      cases (show r = 0 from hr); exact .ret
  | unlock h =>
    simp only [win32, Win32.body, body, Win32.Unlock, Unlock]
    split
    · exact .ret
    · refine .call fun r hr => ?_
      cases (show r = 0 from hr); exact .ret
  | lockDeinit h =>
    simp only [win32, Win32.body, body, Win32.Lock_Deinit, Lock_Deinit]
    split
    · exact .ret
    · refine .call fun r hr => ?_
      cases (show r = 0 from hr); exact refl _
  | _ => cases ho

theorem mbed_faithful : Faithful mbed := by
  refine ⟨fun op ho => ?_, nofun, nofun, fun _ => trivial⟩
  have refl : ∀ p, Sim mbed.may p p := by
    intro p
    induction p with
    | ret r => exact .ret
    | call c k ih => exact .call fun r _ => ih r
  cases op with
  | lockInit =>
    refine .call fun r hr => ?_
    rw [if_pos (show r ≠ 0 from hr)]
    refine .call fun r hr => ?_
    cases (show r = 0 from hr); exact refl _
  | lock h => exact refl _
  | unlock h => exact refl _
  | lockDeinit h =>
    simp only [mbed, Mbed.body, body, Mbed.Lock_Deinit, Lock_Deinit]
    split
    · exact .ret
    · refine .call fun r hr => ?_
      cases (show r = 0 from hr); exact refl _
  | _ => cases ho

inductive SimThr (P : Port) : Thr → Thr → Prop
  | idle : SimThr P .idle .idle
  | run {op p q} : P.has op = true → Sim P.may p q → SimThr P (.run op p) (.run op q)
  | sleep {op c m timed k k'} : P.has op = true → (∀ r, Sim P.may (k r) (k' r)) → SimThr P (.sleep op c m timed k) (.sleep op c m timed k')
  | woken {op m code k k'} : P.has op = true → (∀ r, Sim P.may (k r) (k' r)) → SimThr P (.woken op m code k) (.woken op m code k')

/-- the same memory, the same record, threads at the same points -/
structure Like (P : Port) (s s0 : State) : Prop where
  mem : s0.mem = s.mem
  log : s0.log = s.log
  thr : ∀ t, SimThr P (s.thr t) (s0.thr t)

variable {P : Port}

theorem Like_upd {s s0 : State} (l : Like P s s0) {t : Tid} {x y : Thr} {mem' : Nat → Cell} {log' : Log} (h : SimThr P x y) :
    Like P ⟨mem', upd s.thr t x, log'⟩ ⟨mem', upd s0.thr t y, log'⟩ :=
  ⟨rfl, rfl, fun u => by simp only [upd]; split; exact h; exact l.thr u⟩

theorem like_run {s s0 : State} (l : Like P s s0) {t : Tid} {op : Op} {p : Prog} (h : s.thr t = .run op p) :
    P.has op = true ∧ ∃ q, s0.thr t = .run op q ∧ Sim P.may p q := by
  have := l.thr t
  rw [h] at this
  generalize s0.thr t = y at this
  cases this with | run h1 h2 => exact ⟨h1, _, rfl, h2⟩

theorem like_call {s s0 : State} (l : Like P s s0) {t : Tid} {op : Op} {c : Sys} {k : Nat → Prog} (h : s.thr t = .run op (.call c k)) :
    P.has op = true ∧ ∃ k', s0.thr t = .run op (.call c k') ∧ ∀ r, P.may c r → Sim P.may (k r) (k' r) := by
  obtain ⟨h1, q, e, h2⟩ := like_run l h
  cases h2 with | call h2 => exact ⟨h1, _, e, h2⟩

/-- the function in which a system call of this kind is made -/
theorem call_op {s : State} (i : Inv s) {t : Tid} {op : Op} {c : Sys} {k : Nat → Prog} (h : s.thr t = .run op (.call c k)) :
    (∀ x, c = .condBroadcast x → op = .post x) ∧ (∀ x m b, c = .condWait x m b → ∃ ms, op = .wait x m ms ∧ b = timed ms) := by
  obtain ⟨pts, hthr, _⟩ := i
  rw [hthr] at h
  dsimp only at h
  cases e : pts t <;> rw [e] at h <;> cases h <;> refine ⟨?_, ?_⟩ <;> intros <;> simp_all [Pt.op] <;> first | (subst_vars; exact ⟨_, rfl, rfl⟩) | skip

theorem sim_step (F : Faithful P) {s s' s0 : State} (r0 : Reach Allowed s0) (l : Like P s s0) (h : PStep P s s') :
    ∃ s0', Step Allowed s0 s0' ∧ Like P s' s0' := by
  obtain ⟨mem, thr, log⟩ := s
  obtain ⟨mem0, thr0, log0⟩ := s0
  have i := Inv_reach r0
  obtain ⟨e1, e2, l3⟩ := id l
  dsimp only at e1 e2
  subst e1; subst e2
  cases h with
  | @enter t op h1 h2 h3 =>
    have h0 : thr0 t = .idle := by
      have := l3 t; dsimp only at this h1; rw [h1] at this
      generalize thr0 t = y at this
      cases this; rfl
    exact ⟨_, .enter h0 h3, Like_upd l (.run h2 (F.sim op h2))⟩
  | @ret t op r h1 =>
    obtain ⟨hh, q, h0, hs⟩ := like_run l h1
    cases hs
    exact ⟨_, .ret h0, Like_upd l .idle⟩
  | @call t op c k r mem' h1 h2 h3 =>
    obtain ⟨hh, k', h0, hs⟩ := like_call l h1
    exact ⟨_, .call h0 h2, Like_upd l (.run hh (hs r h3))⟩
  | @broadcast t op c k h1 =>
    obtain ⟨hh, k', h0, hs⟩ := like_call l h1
    have ho := (call_op i h0).1 c rfl
    subst ho
    refine ⟨_, .broadcast h0, rfl, rfl, fun u => ?_⟩
    simp only [upd]
    split
    · exact .run hh (hs 0 (F.post c hh))
    · unfold wakeAll
      have := l3 u
      dsimp only at this ⊢
      generalize thr u = x at this
      generalize thr0 u = y at this
      cases this with
      | idle => exact .idle
      | run a b => exact .run a b
      | sleep a b => dsimp only; split; exact .woken a b; exact .sleep a b
      | woken a b => exact .woken a b
  | @sleep t op c m b k h1 =>
    obtain ⟨hh, k', h0, hs⟩ := like_call l h1
    obtain ⟨ms, ho, hb⟩ := (call_op i h0).2 c m b rfl
    subst ho; subst hb
    exact ⟨_, .sleep h0, Like_upd l (.sleep hh fun r => hs r (F.wait c m ms hh r))⟩
  | @wake t op c m b k code h1 h2 =>
    have := l3 t
    dsimp only at this h1
    rw [h1] at this
    generalize h0 : thr0 t = y at this
    cases this with | sleep a b => exact ⟨_, .wake h0 h2, Like_upd l (.woken a b)⟩
  | @acquire t op m code k h1 h2 =>
    have := l3 t
    dsimp only at this h1
    rw [h1] at this
    generalize h0 : thr0 t = y at this
    cases this with | woken a b => exact ⟨_, .acquire h0 h2, Like_upd l (.run a (b code))⟩

theorem sim_reach (F : Faithful P) {s : State} (h : PReach P s) : ∃ s0, Reach Allowed s0 ∧ Like P s s0 := by
  induction h with
  | init => exact ⟨.init, .init, rfl, rfl, fun _ => .idle⟩
  | step _ h ih =>
    obtain ⟨s0, r0, l⟩ := ih
    obtain ⟨s1, h1, l1⟩ := sim_step F r0 l h
    exact ⟨s1, r0.step h1, l1⟩

/-! ## Claims for every port -/

theorem port_mutual_exclusion (F : Faithful P) {s : State} (h : PReach P s) {t u : Tid} {l : Nat} (ht : held s.log t l = true) (hu : held s.log u l = true) :
    t = u := by
  obtain ⟨s0, r, k⟩ := sim_reach F h
  exact mutual_exclusion r (by rw [k.log]; exact ht) (by rw [k.log]; exact hu)

theorem port_defined (F : Faithful P) {s : State} (h : PReach P s) {t : Tid} {op : Op} {c : Sys} {k : Nat → Prog} (ht : s.thr t = .run op (.call c k)) :
    Defined s t c := by
  obtain ⟨s0, r, l⟩ := sim_reach F h
  obtain ⟨_, k', h0, _⟩ := like_call l ht
  have d := defined r h0
  have asleep : ∀ {u op p m' timed k}, s.thr u = .sleep op p m' timed k → ∃ k', s0.thr u = .sleep op p m' timed k' := by
    intro u op p m' timed k e
    have := l.thr u
    rw [e] at this
    generalize s0.thr u = y at this
    cases this; exact ⟨_, rfl⟩
  cases c <;> simp only [Defined, l.mem] at d ⊢ <;> first | exact d | skip
  · refine ⟨d.1, d.2.1, fun u op m' timed k e => ?_⟩
    obtain ⟨k', e'⟩ := asleep e
    exact d.2.2 u op m' timed k' e'
  · refine ⟨d.1, fun u op m' timed k e => ?_⟩
    obtain ⟨k', e'⟩ := asleep e
    exact d.2 u op m' timed k' e'

theorem port_ledger (F : Faithful P) {s : State} (h : PReach P s) (quiet : ∀ t, inCall s.log t = none) (p : Nat) :
    s.mem p ≠ .free ↔ (live s.log p = true ∨ liveC s.log p = true) := by
  obtain ⟨s0, r, k⟩ := sim_reach F h
  rw [← k.mem, ← k.log]
  exact ledger r (by rw [k.log]; exact quiet) p

theorem port_handle_new (F : Faithful P) {s : State} (h : PReach P s) {l1 l2 : Log} {t : Tid} {op : Op} {p : Nat} (hp : p ≠ 0)
    (e : s.log = l1 ++ .ret t op (.handle p) :: l2) : live l1 p = false ∧ liveC l1 p = false := by
  obtain ⟨s0, r, k⟩ := sim_reach F h
  exact handle_new r hp (by rw [k.log]; exact e)

theorem port_truthful (F : Faithful P) {s : State} (h : PReach P s) {t : Tid} {op : Op} {x : Ret} (e : Ev.ret t op x ∈ s.log) : Truthful op x := by
  obtain ⟨s0, r, k⟩ := sim_reach F h
  exact truthful r (by rw [k.log]; exact e)

theorem port_no_lost_wakeup (F : Faithful P) {s : State} (h : PReach P s) {t : Tid} {c l : Nat} {ms : Int} (p : Posted s.log t c l ms) :
    (∃ code k, s.thr t = .woken (.wait c l ms) l code k) ∨ ∃ x, s.thr t = .run (.wait c l ms) (.ret x) := by
  obtain ⟨s0, r, k⟩ := sim_reach F h
  have := k.thr t
  rcases no_lost_wakeup r (by rw [k.log]; exact p) with ⟨code, q, e⟩ | ⟨x, e⟩
  · rw [e] at this
    generalize s.thr t = y at this
    cases this; exact Or.inl ⟨_, _, rfl⟩
  · rw [e] at this
    generalize s.thr t = y at this
    cases this with | run _ hs => cases hs; exact Or.inr ⟨_, rfl⟩

theorem port_lock_succeeds (F : Faithful P) {s : State} (h : PReach P s) {t : Tid} {l : Nat} (hc : inCall s.log t = some (.lock l))
    (hr : s.thr t ≠ .run (.lock l) (.ret (.lock .error))) :
    (∃ s', PSteps P s s' ∧ s'.log = s.log ++ [.ret t (.lock l) (.lock .ok)]) ∨ Contended s.log t l := by
  obtain ⟨s0, r0, k⟩ := sim_reach F h
  obtain ⟨pts, hthr, j⟩ := Inv_reach r0
  have g := j.good t
  have th : s0.thr t = (pts t).thr := by rw [hthr]
  have kt := k.thr t
  rw [← k.log, j.call t] at hc
  cases e : pts t with
  | lDone p r =>
    rw [e] at hc th; cases hc
    rw [th] at kt
    generalize e3 : s.thr t = y at kt
    cases kt with
    | run _ hs =>
      cases hs
      cases r with
      | ok => exact Or.inl ⟨_, .step (.ret e3) .refl, rfl⟩
      | error => exact absurd e3 hr
  | lStart p =>
    rw [e] at hc th g; cases hc
    rw [th] at kt
    generalize e3 : s.thr t = y at kt
    cases kt with
    | run _ hs =>
      cases hs with
      | @call _ q _ hs =>
        obtain ⟨o, ho⟩ := (j.lv l g.1).2
        cases o with
        | none =>
          left
          have hm := F.lock l
          have hs0 : Sim P.may (q 0) (.ret (.lock .ok)) := hs 0 hm
          rw [k.mem] at ho
          refine ⟨_, .step (.call e3 (.mutexLock ho) hm) (.step (.ret (t := t) (op := .lock l) (r := .lock .ok) ?_) .refl), rfl⟩
          simp only [upd, if_true, Pt.op, Option.getD]
          generalize q 0 = q0 at hs0
          cases hs0; rfl
        | some u =>
          right
          refine ⟨u, ?_, ?_⟩
          · rintro rfl
            rcases (j.own u l).1 ho with k | k
            · rw [g.2] at k; cases k
            · rw [e] at k; exact k
          · rcases (j.own u l).1 ho with m | m
            · exact Or.inl (by rw [← k.log]; exact m)
            · obtain ⟨op, k1, k2⟩ := owns_uses m
              exact Or.inr ⟨op, by rw [← k.log, j.call u, k1], k2⟩
  | _ => rw [e] at hc; cases hc

/-! ## The hypotheses are met: on every port a thread can get a lock -/

def lockLog : Log := [.enter 1 .lockInit, .ret 1 .lockInit (.handle 10), .enter 1 (.lock 10), .ret 1 (.lock 10) (.lock .ok)]

theorem c11_locks : ∃ s, PReach c11 s ∧ s.log = lockLog ∧ held s.log 1 10 = true := by
  have r := ((((((PReach.init (P := c11)).step (.enter (t := 1) (op := .lockInit) rfl rfl trivial)).step
    (.call (t := 1) (c := .malloc) (r := 10) rfl (.malloc (by decide) rfl) trivial)).step
    (.call (t := 1) (c := .mutexInit 10) (r := 0) rfl .mutexInit trivial)).step
    (.ret (t := 1) (r := .handle 10) rfl)).step
    (.enter (t := 1) (op := .lock 10) rfl rfl (Or.inr ⟨by decide, by decide⟩))).step
    (.call (t := 1) (c := .mutexLock 10) (r := 0) rfl (.mutexLock rfl) trivial)
  exact ⟨_, r.step (.ret (t := 1) (r := .lock .ok) rfl), rfl, by decide⟩

theorem win32_locks : ∃ s, PReach win32 s ∧ s.log = lockLog ∧ held s.log 1 10 = true := by
  have r := ((((((PReach.init (P := win32)).step (.enter (t := 1) (op := .lockInit) rfl rfl trivial)).step
    (.call (t := 1) (c := .malloc) (r := 10) rfl (.malloc (by decide) rfl) trivial)).step
    (.call (t := 1) (c := .mutexInit 10) (r := 0) rfl .mutexInit rfl)).step
    (.ret (t := 1) (r := .handle 10) rfl)).step
    (.enter (t := 1) (op := .lock 10) rfl rfl (Or.inr ⟨by decide, by decide⟩))).step
    (.call (t := 1) (c := .mutexLock 10) (r := 0) rfl (.mutexLock rfl) rfl)
  exact ⟨_, r.step (.ret (t := 1) (r := .lock .ok) rfl), rfl, by decide⟩

theorem mbed_locks : ∃ s, PReach mbed s ∧ s.log = lockLog ∧ held s.log 1 10 = true := by
  have r := ((((((PReach.init (P := mbed)).step (.enter (t := 1) (op := .lockInit) rfl rfl trivial)).step
    (.call (t := 1) (c := .malloc) (r := 10) rfl (.malloc (by decide) rfl) (by simp [mbed]))).step
    (.call (t := 1) (c := .mutexInit 10) (r := 0) rfl .mutexInit rfl)).step
    (.ret (t := 1) (r := .handle 10) rfl)).step
    (.enter (t := 1) (op := .lock 10) rfl rfl (Or.inr ⟨by decide, by decide⟩))).step
    (.call (t := 1) (c := .mutexLock 10) (r := 0) rfl (.mutexLock rfl) trivial)
  exact ⟨_, r.step (.ret (t := 1) (r := .lock .ok) rfl), rfl, by decide⟩

end Verif.Sync
