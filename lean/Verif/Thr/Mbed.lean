import Verif.Thr.Model
/-!
# `adapters/threadapi_rtx_mbed.cpp`

The table `threads` (line 27) has four slots and lives as long as the program.  A thread of the RTOS is numbered in order of creation; its identifier
(`Thread::gettid()`) is its number plus one (identifiers are not `NULL` and belong to one thread).  Creating the RTOS thread itself succeeds;
memory for the parameters may be refused.  `Queue::put` drops the message when the queue (of length one) is full; `Queue::get` waits for a message.
A handle is the address of a slot: its index plus one.  Logging is left out.
-/
namespace Verif.Thr.Mbed

/-- `mbedThread`, adapters/threadapi_rtx_mbed.cpp:21-26 -/
structure Slot where
  thrd : Nat
  id : Nat
  result : Option Int

inductive Stage where
  | ready
  | running
  | ended
  deriving DecidableEq

/-- an RTOS thread with its `create_param` (29-34) -/
structure Th where
  fn : Nat
  arg : Nat
  slot : Nat
  stage : Stage

/-- the static table and the RTOS -/
structure Sys where
  slots : Nat → Slot
  threads : List Th

/-- the state when the program starts (line 27) -/
def Sys.start : Sys := ⟨fun _ => ⟨0, 0, none⟩, []⟩

def set (f : Nat → Slot) (i : Nat) (s : Slot) : Nat → Slot := fun j => if j = i then s else f j

/-- the loop at adapters/threadapi_rtx_mbed.cpp:54-59: the first slot without identifier; `none` when `slot` reaches `MAX_THREADS` -/
def free (s : Sys) : Option Nat := (List.range 4).find? fun i => (s.slots i).id == 0

/-- `ThreadAPI_Create`, adapters/threadapi_rtx_mbed.cpp:44-86; `mem`: `malloc` succeeds -/
def ThreadAPI_Create (s : Sys) (mem threadHandle : Bool) (func arg : Nat) : THREADAPI_RESULT × Nat × Sys :=
  if threadHandle = false ∨ func = 0 then (.invalid_arg, 0, s) else
  match free s with
  | none => (.no_memory, 0, s)
  | some slot =>
    if mem = true then
      (.ok, slot + 1, ⟨set s.slots slot { s.slots slot with thrd := s.threads.length + 1 }, s.threads ++ [⟨func, arg, slot, .ready⟩]⟩)
    else (.no_memory, 0, s)

/-- `thread_wrapper` up to the call, adapters/threadapi_rtx_mbed.cpp:36-40: thread `t` runs for the first time -/
def thread_wrapper (s : Sys) (t : Nat) : Option (Nat × Nat × Sys) :=
  match s.threads[t]? with
  | some ⟨fn, arg, slot, .ready⟩ =>
    some (fn, arg, ⟨set s.slots slot { s.slots slot with id := t + 1 }, s.threads.set t ⟨fn, arg, slot, .running⟩⟩)
  | _ => none

/-- the function of thread `t` returns, adapters/threadapi_rtx_mbed.cpp:40-42: its result is not used -/
def returns (s : Sys) (t : Nat) : Option Sys :=
  match s.threads[t]? with
  | some ⟨fn, arg, slot, .running⟩ => some ⟨s.slots, s.threads.set t ⟨fn, arg, slot, .ended⟩⟩
  | _ => none

/-- `ThreadAPI_Exit`, adapters/threadapi_rtx_mbed.cpp:116-127, called by thread `t`; it returns to the caller -/
def ThreadAPI_Exit (s : Sys) (t : Nat) (res : Int) : Sys :=
  match (List.range 4).find? fun i => (s.slots i).id == t + 1 with
  | some i => ⟨set s.slots i { s.slots i with result := some ((s.slots i).result.getD res) }, s.threads⟩
  | none => s

/-- `Thread::terminate` of thread number `n - 1` -/
def terminate (ts : List Th) (n : Nat) : List Th :=
  match n with
  | 0 => ts
  | t + 1 => match ts[t]? with
    | some ⟨fn, arg, slot, .running⟩ => ts.set t ⟨fn, arg, slot, .ended⟩
    | _ => ts

/-- `ThreadAPI_Join`, adapters/threadapi_rtx_mbed.cpp:88-114; `none`: still waiting for a message -/
def ThreadAPI_Join (s : Sys) (thr : Nat) : Option (THREADAPI_RESULT × Option Int × Sys) :=
  match thr with
  | 0 => some (.invalid_arg, none, s)
  | i + 1 =>
    match (s.slots i).result with
    | none => none
    | some v => some (.ok, some v, ⟨set s.slots i { s.slots i with result := none }, terminate s.threads (s.slots i).thrd⟩)

/-! ## Histories -/

/-- what can be seen from outside -/
inductive Ev where
  /-- a thread was created: number, function, argument and the handle given to the client -/
  | created (t fn arg h : Nat)
  | refused (r : THREADAPI_RESULT)
  | called (t fn arg : Nat)
  | exits (t : Nat) (r : Int)
  | returned (t : Nat)
  | joined (h : Nat) (r : THREADAPI_RESULT) (v : Option Int)
  deriving DecidableEq

/-- One step of the client or of a thread.  `careful`: no thread is created while another has not started yet. -/
inductive Step (careful : Bool) : Sys → Ev → Sys → Prop
  | create {s s' mem fn arg h} : (careful = true → ∀ th ∈ s.threads, th.stage ≠ .ready) → ThreadAPI_Create s mem true fn arg = (.ok, h, s') →
      Step careful s (.created s.threads.length fn arg h) s'
  | refuse {s s' mem out fn arg h r} : ThreadAPI_Create s mem out fn arg = (r, h, s') → r ≠ .ok → Step careful s (.refused r) s'
  | start {s t fn arg s'} : thread_wrapper s t = some (fn, arg, s') → Step careful s (.called t fn arg) s'
  | exit {s t fn arg slot r} : s.threads[t]? = some ⟨fn, arg, slot, .running⟩ → Step careful s (.exits t r) (ThreadAPI_Exit s t r)
  | ret {s t s'} : returns s t = some s' → Step careful s (.returned t) s'
  | join {s h r v s'} : h ≤ 4 → ThreadAPI_Join s h = some (r, v, s') → Step careful s (.joined h r v) s'

inductive Reach (careful : Bool) : Sys → List Ev → Prop
  | init : Reach careful .start []
  | step {s tr e s'} : Reach careful s tr → Step careful s e s' → Reach careful s' (tr ++ [e])

/-! ## Invariant -/

structure Inv (s : Sys) (tr : List Ev) : Prop where
  low : ∀ (t : Nat) (th : Th), s.threads[t]? = some th → th.slot < 4 ∧ ∃ h, Ev.created t th.fn th.arg h ∈ tr ∧ h = th.slot + 1
  ids : ∀ (t : Nat) (th : Th), s.threads[t]? = some th → th.stage ≠ .ready → (s.slots th.slot).id = t + 1
  inj : ∀ (t u : Nat) (th uh : Th), s.threads[t]? = some th → s.threads[u]? = some uh → th.slot = uh.slot → t = u
  own : ∀ (i t : Nat), (s.slots i).id = t + 1 → ∃ th : Th, s.threads[t]? = some th ∧ th.slot = i
  msg : ∀ (i : Nat) (v : Int), (s.slots i).result = some v → ∃ (t : Nat) (th : Th), s.threads[t]? = some th ∧ th.slot = i ∧ Ev.exits t v ∈ tr
  made : ∀ (t fn arg h : Nat), Ev.created t fn arg h ∈ tr → ∃ th : Th, s.threads[t]? = some th ∧ th.fn = fn ∧ th.arg = arg ∧ h = th.slot + 1
  told : ∀ (h : Nat) (v : Int), Ev.joined h .ok (some v) ∈ tr → ∃ t fn arg : Nat, Ev.created t fn arg h ∈ tr ∧ Ev.exits t v ∈ tr
  runs : ∀ (t fn arg : Nat), Ev.called t fn arg ∈ tr → ∃ h, Ev.created t fn arg h ∈ tr
  plain : ∀ (h : Nat) (r : THREADAPI_RESULT) (v : Option Int), Ev.joined h r v ∈ tr → (r = .ok ↔ v ≠ none)

theorem free_some {s : Sys} {i : Nat} (h : free s = some i) : i < 4 ∧ (s.slots i).id = 0 := by
  unfold free at h
  have h1 := List.mem_of_find?_eq_some h
  have h2 := List.find?_some h
  exact ⟨by simpa using h1, by simpa using h2⟩

theorem term_get {ts : List Th} {n t : Nat} {th : Th} (ht : ts[t]? = some th) : ∃ th', (terminate ts n)[t]? = some th' ∧
    th'.fn = th.fn ∧ th'.arg = th.arg ∧ th'.slot = th.slot ∧ (th.stage = .ready → th'.stage = .ready) := by
  cases n with
  | zero => exact ⟨th, ht, rfl, rfl, rfl, id⟩
  | succ n =>
    unfold terminate
    dsimp only
    split
    · rename_i fn arg slot hn
      by_cases e : n = t
      · subst e; rw [ht] at hn; cases hn
        exact ⟨⟨fn, arg, slot, .ended⟩, by grind, rfl, rfl, rfl, by simp⟩
      · exact ⟨th, by grind, rfl, rfl, rfl, id⟩
    · exact ⟨th, ht, rfl, rfl, rfl, id⟩

theorem term_back {ts : List Th} {n t : Nat} {th' : Th} (ht' : (terminate ts n)[t]? = some th') : ∃ th, ts[t]? = some th ∧
    th'.fn = th.fn ∧ th'.arg = th.arg ∧ th'.slot = th.slot ∧ (th.stage = .ready → th'.stage = .ready) := by
  cases ht : ts[t]? with
  | none =>
    have : (terminate ts n)[t]? = none := by
      unfold terminate; split <;> try split
      all_goals grind
    rw [this] at ht'; cases ht'
  | some th =>
    obtain ⟨th2, h1, h2⟩ := term_get (n := n) ht
    rw [ht'] at h1; cases h1
    exact ⟨th, rfl, h2⟩

theorem inv {s : Sys} {tr : List Ev} (r : Reach true s tr) : Inv s tr := by
  induction r with
  | init => constructor <;> simp [Sys.start]
  | @step s tr e s' _ st ih =>
    obtain ⟨i1, i2, i3, i4, i5, i6, i7, i8, i9⟩ := ih
    cases st with
    | @create _ mem fn arg h hc hr =>
      unfold ThreadAPI_Create at hr
      split at hr
      · cases hr
      split at hr
      · cases hr
      rename_i slot hf
      obtain ⟨f1, f2⟩ := free_some hf
      split at hr
      rotate_left
      · cases hr
      cases hr
      have hfree : ∀ (t : Nat) (th : Th), s.threads[t]? = some th → th.slot ≠ slot := by
        intro t th ht e
        have := i2 t th ht (hc rfl th (List.mem_of_getElem? ht))
        rw [e, f2] at this; cases this
      constructor
      · grind [set]
      · grind [set]
      · grind [set]
      · intro i t hi
        obtain ⟨th, h1, h2⟩ := i4 i t (by grind [set])
        exact ⟨th, by grind, h2⟩
      · intro i v hi
        obtain ⟨t, th, h1, h2, h3⟩ := i5 i v (by grind [set])
        exact ⟨t, th, by grind, h2, by grind⟩
      · intro t fn' arg' h hm
        rcases List.mem_append.1 hm with hm | hm
        · obtain ⟨th, h1, h2⟩ := i6 t fn' arg' h hm
          exact ⟨th, by grind, h2⟩
        · cases List.mem_singleton.1 hm
          exact ⟨⟨fn, arg, slot, .ready⟩, by grind, rfl, rfl, rfl⟩
      · grind
      · grind
      · grind
    | @refuse _ mem out fn arg h r hr hne =>
      have : s = s' := by
        unfold ThreadAPI_Create at hr
        repeat' split at hr
        all_goals cases hr
        all_goals first | rfl | exact absurd rfl hne
      subst this
      constructor <;> first | assumption | grind
    | @start t fn arg _ hr =>
      unfold thread_wrapper at hr
      split at hr
      rotate_left
      · cases hr
      rename_i slot ht
      cases hr
      constructor
      · grind [set]
      · grind [set]
      · grind [set]
      · intro i u hi
        by_cases e : i = slot
        · subst e
          have : u = t := by grind [set]
          subst this
          exact ⟨⟨fn, arg, i, .running⟩, by grind, rfl⟩
        · obtain ⟨th, h1, h2⟩ := i4 i u (by grind [set])
          by_cases e2 : t = u
          · subst e2; rw [ht] at h1; cases h1; exact absurd h2.symm e
          · exact ⟨th, by grind, h2⟩
      · intro i v hi
        obtain ⟨u, uh, h1, h2, h3⟩ := i5 i v (by grind [set])
        by_cases e2 : t = u
        · subst e2; rw [ht] at h1; cases h1; exact ⟨t, ⟨fn, arg, slot, .running⟩, by grind, h2, by grind⟩
        · exact ⟨u, uh, by grind, h2, by grind⟩
      · intro u fn' arg' h hm
        obtain ⟨uh, h1, h2⟩ := i6 u fn' arg' h (by grind)
        by_cases e2 : t = u
        · subst e2; rw [ht] at h1; cases h1; exact ⟨⟨fn, arg, slot, .running⟩, by grind, h2⟩
        · exact ⟨uh, by grind, h2⟩
      · grind
      · grind
      · grind
    | @exit t fn arg slot r ht =>
      unfold ThreadAPI_Exit
      split
      rotate_left
      · constructor <;> first | assumption | grind
      rename_i i hf
      have hid : (s.slots i).id = t + 1 := by simpa using List.find?_some hf
      obtain ⟨th, h1, h2⟩ := i4 i t hid
      rw [ht] at h1
      obtain rfl := Option.some.inj h1
      dsimp only at h2
      subst h2
      constructor
      · grind
      · grind [set]
      · grind
      · intro j u hj
        exact i4 j u (by simp only [set] at hj; split at hj <;> simp_all)
      · intro j v hj
        by_cases e : j = slot
        · subst e
          simp only [set, if_true] at hj
          cases hres : (s.slots j).result with
          | none => rw [hres] at hj; cases hj; exact ⟨t, _, ht, rfl, by simp⟩
          | some w =>
            rw [hres] at hj
            obtain rfl : w = v := by simpa using hj
            obtain ⟨u, uh, g1, g2, g3⟩ := i5 j w hres
            exact ⟨u, uh, g1, g2, by grind⟩
        · obtain ⟨u, uh, g1, g2, g3⟩ := i5 j v (by grind [set])
          exact ⟨u, uh, g1, g2, by grind⟩
      · grind
      · grind
      · grind
      · grind
    | @ret t _ hr =>
      unfold returns at hr
      split at hr
      rotate_left
      · cases hr
      rename_i fn arg slot ht
      cases hr
      constructor
      · grind
      · grind
      · grind
      · intro i u hi
        obtain ⟨uh, h1, h2⟩ := i4 i u hi
        by_cases e2 : t = u
        · subst e2; rw [ht] at h1; cases h1; exact ⟨⟨fn, arg, slot, .ended⟩, by grind, h2⟩
        · exact ⟨uh, by grind, h2⟩
      · intro i v hi
        obtain ⟨u, uh, h1, h2, h3⟩ := i5 i v hi
        by_cases e2 : t = u
        · subst e2; rw [ht] at h1; cases h1; exact ⟨t, ⟨fn, arg, slot, .ended⟩, by grind, h2, by grind⟩
        · exact ⟨u, uh, by grind, h2, by grind⟩
      · intro u fn' arg' h hm
        obtain ⟨uh, h1, h2⟩ := i6 u fn' arg' h (by grind)
        by_cases e2 : t = u
        · subst e2; rw [ht] at h1; cases h1; exact ⟨⟨fn, arg, slot, .ended⟩, by grind, h2⟩
        · exact ⟨uh, by grind, h2⟩
      · grind
      · grind
      · grind
    | @join h r v _ hh hr =>
      cases h with
      | zero =>
        cases hr
        constructor <;> first | assumption | grind
      | succ i =>
        simp only [ThreadAPI_Join] at hr
        split at hr
        · cases hr
        rename_i w hres
        cases hr
        have back : ∀ (t : Nat) (th' : Th), (terminate s.threads (s.slots i).thrd)[t]? = some th' → ∃ th, s.threads[t]? = some th ∧
            th'.fn = th.fn ∧ th'.arg = th.arg ∧ th'.slot = th.slot ∧ (th.stage = .ready → th'.stage = .ready) := fun t th' h => term_back h
        have forth : ∀ (t : Nat) (th : Th), s.threads[t]? = some th → ∃ th', (terminate s.threads (s.slots i).thrd)[t]? = some th' ∧
            th'.fn = th.fn ∧ th'.arg = th.arg ∧ th'.slot = th.slot ∧ (th.stage = .ready → th'.stage = .ready) := fun t th h => term_get h
        generalize terminate s.threads (s.slots i).thrd = ts at back forth
        constructor
        · intro t th ht
          obtain ⟨t0, b1, b2, b3, b4, b5⟩ := back t th ht
          obtain ⟨a1, h, a2, a3⟩ := i1 t t0 b1
          exact ⟨by omega, h, by rw [b2, b3]; exact List.mem_append_left _ a2, by omega⟩
        · grind [set]
        · grind
        · intro j u hj
          obtain ⟨uh, h1, h2⟩ := i4 j u (by simp only [set] at hj; split at hj <;> simp_all)
          obtain ⟨th', g1, _, _, g4, _⟩ := forth u uh h1
          exact ⟨th', g1, g4.trans h2⟩
        · intro j v hj
          obtain ⟨u, uh, h1, h2, h3⟩ := i5 j v (by grind [set])
          obtain ⟨th', g1, _, _, g4, _⟩ := forth u uh h1
          exact ⟨u, th', g1, g4.trans h2, by grind⟩
        · intro u fn' arg' h hm
          obtain ⟨uh, h1, h2, h3, h4⟩ := i6 u fn' arg' h (by grind)
          obtain ⟨th', g1, g2, g3, g4, _⟩ := forth u uh h1
          exact ⟨th', g1, g2.trans h2, g3.trans h3, by omega⟩
        · intro h v hm
          rcases List.mem_append.1 hm with hm | hm
          · obtain ⟨t, fn, arg, g1, g2⟩ := i7 h v hm
            exact ⟨t, fn, arg, List.mem_append_left _ g1, List.mem_append_left _ g2⟩
          · cases List.mem_singleton.1 hm
            obtain ⟨t, th, g1, g2, g3⟩ := i5 i _ hres
            obtain ⟨_, k, k1, k2⟩ := i1 t th g1
            rw [k2, g2] at k1
            exact ⟨t, th.fn, th.arg, List.mem_append_left _ k1, List.mem_append_left _ g3⟩
        · grind
        · grind

/-! ## What holds -/

/-- Every thread that runs was created by the client, and is given the function and argument it was created with. -/
theorem called_right {s : Sys} {tr : List Ev} (r : Reach true s tr) {t fn arg : Nat} (h : .called t fn arg ∈ tr) : ∃ hd, .created t fn arg hd ∈ tr :=
  (inv r).runs t fn arg h

/-- If no thread is created before the previous one has started: a handle belongs to one thread, and a successful `ThreadAPI_Join` gives a value that this thread
passed to `ThreadAPI_Exit`.  Missing: threads created in quick succession (`shared_handle`), results returned by the function (`returned_never_joined`),
more than four threads (`only_four`). -/
theorem join_truthful_partial {s : Sys} {tr : List Ev} (r : Reach true s tr) {h : Nat} {v : Option Int} (hj : .joined h .ok v ∈ tr) :
    ∃ t fn arg x, v = some x ∧ .created t fn arg h ∈ tr ∧ .exits t x ∈ tr ∧ ∀ t' fn' arg', .created t' fn' arg' h ∈ tr → t' = t := by
  have i := inv r
  cases v with
  | none => exact absurd rfl ((i.plain h .ok none hj).1 rfl)
  | some x =>
    obtain ⟨t, fn, arg, h1, h2⟩ := i.told h x hj
    refine ⟨t, fn, arg, x, rfl, h1, h2, fun t' fn' arg' h' => ?_⟩
    obtain ⟨th, g1, _, _, g2⟩ := i.made t fn arg h h1
    obtain ⟨th', k1, _, _, k2⟩ := i.made t' fn' arg' h h'
    exact i.inj t' t th' th k1 g1 (by omega)

/-! ## What does not -/

/-- However many have been joined: only four threads can ever be created. -/
theorem only_four {s : Sys} {tr : List Ev} (r : Reach true s tr) {t fn arg h : Nat} (hc : .created t fn arg h ∈ tr) : t < 4 := by
  have i := inv r
  obtain ⟨th, g, _⟩ := i.made t fn arg h hc
  have hl := (List.getElem?_eq_some_iff.1 g).1
  rcases Nat.lt_or_ge t 4 with h | h
  · exact h
  exfalso
  have e : ∀ k (hk : k < 5), ∃ th, s.threads[k]? = some th ∧ th.slot < 4 := fun k hk =>
    ⟨s.threads[k]'(by omega), List.getElem?_eq_getElem (by omega), (i.low k _ (List.getElem?_eq_getElem (by omega))).1⟩
  obtain ⟨t0, a0, b0⟩ := e 0 (by omega)
  obtain ⟨t1, a1, b1⟩ := e 1 (by omega)
  obtain ⟨t2, a2, b2⟩ := e 2 (by omega)
  obtain ⟨t3, a3, b3⟩ := e 3 (by omega)
  obtain ⟨t4, a4, b4⟩ := e 4 (by omega)
  have h01 := i.inj 0 1 t0 t1 a0 a1
  have h02 := i.inj 0 2 t0 t2 a0 a2
  have h03 := i.inj 0 3 t0 t3 a0 a3
  have h04 := i.inj 0 4 t0 t4 a0 a4
  have h12 := i.inj 1 2 t1 t2 a1 a2
  have h13 := i.inj 1 3 t1 t3 a1 a3
  have h14 := i.inj 1 4 t1 t4 a1 a4
  have h23 := i.inj 2 3 t2 t3 a2 a3
  have h24 := i.inj 2 4 t2 t4 a2 a4
  have h34 := i.inj 3 4 t3 t4 a3 a4
  omega

/-- A thread whose function just returns cannot be joined: `ThreadAPI_Join` waits as long as the thread has not called `ThreadAPI_Exit`, even when it has ended. -/
theorem returned_never_joined {s : Sys} {tr : List Ev} (r : Reach true s tr) {t fn arg h : Nat} (hc : .created t fn arg h ∈ tr)
    (hn : ∀ v, .exits t v ∉ tr) : ThreadAPI_Join s h = none := by
  have i := inv r
  obtain ⟨th, g1, _, _, g2⟩ := i.made t fn arg h hc
  subst g2
  simp only [ThreadAPI_Join]
  cases hr : (s.slots th.slot).result with
  | none => rfl
  | some v =>
    obtain ⟨u, uh, k1, k2, k3⟩ := i.msg _ v hr
    have := i.inj u t uh th k1 g1 k2
    subst this
    exact absurd k3 (hn v)

/-- Two threads created before the first has run get the same handle. -/
theorem shared_handle : ∃ s, Reach false s [.created 0 7 1 1, .created 1 7 2 1] :=
  ⟨_, (Reach.init.step (.create (mem := true) (fn := 7) (arg := 1) (by simp) rfl)).step (.create (mem := true) (fn := 7) (arg := 2) (by simp) rfl)⟩

/-- The hypotheses are met: two threads one after the other; both call `ThreadAPI_Exit` and are joined; a third returns without. -/
theorem demo : ∃ s, Reach true s [.created 0 7 1 1, .called 0 7 1, .created 1 8 2 2, .exits 0 5, .called 1 8 2, .joined 1 .ok (some 5),
    .exits 1 (-3), .returned 1, .joined 2 .ok (some (-3)), .created 2 9 3 3, .called 2 9 3, .returned 2] := by
  have r := ((Reach.init (careful := true)).step (.create (mem := true) (fn := 7) (arg := 1) (by simp [Sys.start]) rfl)).step (.start (t := 0) rfl)
  have r := (((r.step (.create (mem := true) (fn := 8) (arg := 2) (by simp [Sys.start]) rfl)).step (.exit (t := 0) (r := 5) rfl)).step (.start (t := 1) rfl)).step
    (.join (h := 1) (by decide) rfl)
  have r := ((r.step (.exit (t := 1) (r := -3) rfl)).step (.ret (t := 1) rfl)).step (.join (h := 2) (by decide) rfl)
  have r := ((r.step (.create (mem := true) (fn := 9) (arg := 3) (fun _ th h => ?_) rfl)).step (.start (t := 2) rfl)).step (.ret (t := 2) rfl)
  · exact ⟨_, r⟩
  · have h' : th ∈ [Th.mk 7 1 0 .ended, Th.mk 8 2 1 .ended] := h
    have : ∀ th ∈ [Th.mk 7 1 0 .ended, Th.mk 8 2 1 .ended], th.stage ≠ .ready := by decide
    exact this th h'

/-! ## `ThreadAPI_Sleep`, adapters/threadapi_rtx_mbed.cpp:129-143 -/

/-- the waits it makes; `millisec / thirtySeconds` and `%` are computed on `unsigned int` -/
def sleeps (millisec : Nat) : List Nat := List.replicate (millisec / 30000) 30000 ++ [millisec % 30000]

/-- The waits add up to the time asked for, and none is longer than the timer allows. -/
theorem sleep_exact (ms : Nat) : (sleeps ms).sum = ms ∧ ∀ w ∈ sleeps ms, w ≤ 30000 := by
  constructor
  · have : ∀ n, (List.replicate n 30000).sum = n * 30000 := by
      intro n
      induction n with
      | zero => rfl
      | succ n ih => rw [List.replicate_succ, List.sum_cons, ih]; omega
    simp only [sleeps, List.sum_append, this, List.sum_cons, List.sum_nil]
    omega
  · intro w hw
    rcases List.mem_append.1 hw with h | h
    · exact Nat.le_of_eq (List.eq_of_mem_replicate h)
    · cases List.mem_singleton.1 h; omega

end Verif.Thr.Mbed
