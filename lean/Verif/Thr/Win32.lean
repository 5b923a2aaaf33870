import Verif.Thr.Spec
/-!
# `adapters/threadapi_win32.c`

The Windows side is an explicit machine: a list of threads, each with the function and argument given to `CreateThread`, where it is, and whether
the handle to it is still open.  The handle of thread number `t` is `t + 1`.  `WaitForSingleObject` with `INFINITE` returns `WAIT_OBJECT_0` only when the
thread is done; it may fail (`code = 1`) only for a thread that has started; `GetExitCodeThread` may fail (`code = 2`).  Using a closed handle is
undefined (Windows may have given the same value to another object).  Thread functions return `int`, read by the system as a `DWORD`.
Logging is left out (line 55 passes too few arguments to a format).  `ThreadAPI_Sleep` (73-76) passes its argument on.
-/
namespace Verif.Thr.Win32

inductive KStage where
  | ready
  | running
  | done (exitCode : Nat)
  deriving DecidableEq, Repr

/-- a kernel thread object -/
structure KThread where
  fn : Nat
  arg : Nat
  stage : KStage
  isOpen : Bool
  deriving DecidableEq, Repr

abbrev Os := List KThread

/-- `int` to `DWORD` -/
def toDword (r : Int) : Nat := (r % 2 ^ 32).toNat
/-- a `DWORD` written through an `int*` -/
def ofDword (d : Nat) : Int := if d < 2 ^ 31 then (d : Int) else (d : Int) - 2 ^ 32

/-- `CreateThread`; `code ≠ 0`: refused, the result is `NULL` -/
def CreateThread (os : Os) (code : Int) (fn arg : Nat) : Nat × Os :=
  if code = 0 then (os.length + 1, os ++ [⟨fn, arg, .ready, true⟩]) else (0, os)

/-- `ThreadAPI_Create`, adapters/threadapi_win32.c:14-38; the second test is on `threadHandle`, not on `*threadHandle` (line 26) -/
def ThreadAPI_Create (os : Os) (code : Int) (threadHandle : Bool) (func arg : Nat) : THREADAPI_RESULT × Option Nat × Os :=
  if threadHandle = false ∨ func = 0 then (.invalid_arg, none, os) else
  let r := CreateThread os code func arg
  if threadHandle = false then (.error, some r.1, r.2) else (.ok, some r.1, r.2)

/-- the thread a handle stands for; `none`: not an open handle -/
def object (os : Os) (h : Nat) : Option KThread :=
  match h with
  | 0 => none
  | t + 1 => match os[t]? with
    | some k => if k.isOpen then some k else none
    | none => none

/-- `CloseHandle` -/
def CloseHandle (os : Os) (h : Nat) : Option Os :=
  match object os h with
  | some k => some (os.set (h - 1) { k with isOpen := false })
  | none => none

/-- `ThreadAPI_Join`, adapters/threadapi_win32.c:40-66.  Outer `none`: undefined behaviour; inner `none`: still blocked. -/
def ThreadAPI_Join (os : Os) (code : Int) (threadHandle : Nat) (res : Bool) : Option (Option (THREADAPI_RESULT × Option Int × Os)) :=
  if threadHandle = 0 then some (some (.invalid_arg, none, os)) else
  match object os threadHandle with
  | none => none
  | some k =>
    match k.stage with
    | .ready => some none
    | .running =>
      if code = 1 then do
        let os' ← CloseHandle os threadHandle
        some (some (.error, none, os'))
      else some none
    | .done d => do
      let x := if code = 1 then (THREADAPI_RESULT.error, none)
        else if res = true ∧ code = 2 then (THREADAPI_RESULT.error, none)
        else (THREADAPI_RESULT.ok, if res then some (ofDword d) else none)
      let os' ← CloseHandle os threadHandle
      some (some (x.1, x.2, os'))

/-- thread `t` is scheduled for the first time: the system calls its function -/
def start (os : Os) (t : Nat) : Option (Nat × Nat) × Os :=
  match os[t]? with
  | some ⟨fn, arg, .ready, o⟩ => (some (fn, arg), os.set t ⟨fn, arg, .running, o⟩)
  | _ => (none, os)

/-- the function of thread `t` returns `r`, or calls `ThreadAPI_Exit(r)`, adapters/threadapi_win32.c:68-71 -/
def finish (os : Os) (t : Nat) (r : Int) : Os :=
  match os[t]? with
  | some ⟨fn, arg, .running, o⟩ => os.set t ⟨fn, arg, .done (toDword r), o⟩
  | _ => os

/-- the client and the scheduler (`Thr.Op`); a joined handle is forgotten -/
def exec (op : Op) (e : List Nat × Os) : Option (Out × List Nat × Os) :=
  match op with
  | .create code haveOut fn arg =>
    let r := ThreadAPI_Create e.2 code haveOut fn arg
    some (.ret r.1 none, e.1 ++ [r.2.1.getD 0], r.2.2)
  | .join code i wantRes =>
    match e.1[i]? with
    | none => some (.nothing, e)
    | some h => do
      let r ← ThreadAPI_Join e.2 code h wantRes
      match r with
      | none => some (.nothing, e)
      | some (c, v, os') => some (.ret c v, e.1.set i 0, os')
  | .start t =>
    let r := start e.2 t
    some (match r.1 with | some (fn, arg) => .called fn arg | none => .nothing, e.1, r.2)
  | .finish t result => some (.nothing, e.1, finish e.2 t result)

def run : List Op → List Nat × Os → Option (List Out × List Nat × Os)
  | [], e => some ([], e)
  | op :: ops, e => do
    let r ← exec op e
    let rs ← run ops r.2
    some (r.1 :: rs.1, rs.2)

/-! ## Specification -/

/-- What the calls do; `refused`: what `ThreadAPI_Create` answers when the system did not create a thread. -/
def step (refused : THREADAPI_RESULT) (x : Abs) (op : Op) (o : Out) (x' : Abs) : Prop :=
  match op with
  | .create code haveOut fn arg =>
    if haveOut = false ∨ fn = 0 then o = .ret .invalid_arg none ∧ x' = ⟨x.handles ++ [none], x.threads⟩
    else if code = 0 then o = .ret .ok none ∧ x' = ⟨x.handles ++ [some x.threads.length], x.threads ++ [⟨fn, arg, .ready⟩]⟩
    else o = .ret refused none ∧ x' = ⟨x.handles ++ [none], x.threads⟩
  | .join code i wantRes =>
    match x.handles[i]? with
    | none => o = .nothing ∧ x' = x
    | some none => o = .ret .invalid_arg none ∧ x' = x
    | some (some t) =>
      match (x.threads[t]?).map AThread.stage with
      | some (.done r) =>
        x' = ⟨x.handles.set i none, x.threads⟩ ∧
          o = if code = 1 ∨ (code = 2 ∧ wantRes = true) then .ret .error none else .ret .ok (if wantRes then some r else none)
      | some .running =>
        if code = 1 then x' = ⟨x.handles.set i none, x.threads⟩ ∧ o = .ret .error none
        else o = .nothing ∧ x' = x
      | _ => o = .nothing ∧ x' = x
  | .start t =>
    match x.threads[t]? with
    | some ⟨fn, arg, .ready⟩ => o = .called fn arg ∧ x' = ⟨x.handles, x.threads.set t ⟨fn, arg, .running⟩⟩
    | _ => o = .nothing ∧ x' = x
  | .finish t r =>
    match x.threads[t]? with
    | some ⟨fn, arg, .running⟩ => o = .nothing ∧ x' = ⟨x.handles, x.threads.set t ⟨fn, arg, .done r⟩⟩
    | _ => o = .nothing ∧ x' = x

/-- the system creates every thread it is asked for -/
def served : Op → Prop
  | .create code haveOut fn _ => haveOut = true → fn ≠ 0 → code = 0
  | _ => True

/-! ## Proof -/

def Same : KStage → Stage → Prop
  | .ready, .ready => True
  | .running, .running => True
  | .done d, .done r => d = toDword r ∧ -(2 ^ 31) ≤ r ∧ r < 2 ^ 31
  | _, _ => False

structure Corr (env : List Nat) (os : Os) (x : Abs) : Prop where
  lenH : env.length = x.handles.length
  lenT : os.length = x.threads.length
  same : ∀ (t : Nat) k a, os[t]? = some k → x.threads[t]? = some a → k.fn = a.fn ∧ k.arg = a.arg ∧ Same k.stage a.stage
  null : ∀ (i : Nat), x.handles[i]? = some none → env[i]? = some 0
  live : ∀ (i t : Nat), x.handles[i]? = some (some t) → env[i]? = some (t + 1) ∧ ∃ k, os[t]? = some k ∧ k.isOpen = true
  one : ∀ (i j t : Nat), x.handles[i]? = some (some t) → x.handles[j]? = some (some t) → i = j
  used : ∀ (t : Nat) k, os[t]? = some k → k.isOpen = true → ∃ i : Nat, x.handles[i]? = some (some t)

theorem ofDword_toDword {r : Int} (h1 : -(2 ^ 31) ≤ r) (h2 : r < 2 ^ 31) : ofDword (toDword r) = r := by
  unfold ofDword toDword
  split <;> omega

theorem Corr.handle {env : List Nat} {os : Os} {x : Abs} (c : Corr env os x) (i : Nat) :
    (env[i]? = none ∧ x.handles[i]? = none) ∨ (env[i]? = some 0 ∧ x.handles[i]? = some none) ∨
    ∃ t k a, env[i]? = some (t + 1) ∧ x.handles[i]? = some (some t) ∧ os[t]? = some k ∧ k.isOpen = true ∧ x.threads[t]? = some a ∧
      k.fn = a.fn ∧ k.arg = a.arg ∧ Same k.stage a.stage := by
  cases h : x.handles[i]? with
  | none =>
    left
    have := c.lenH
    rw [List.getElem?_eq_none_iff] at *
    exact ⟨by omega, rfl⟩
  | some o =>
    right
    cases o with
    | none => exact Or.inl ⟨c.null i h, rfl⟩
    | some t =>
      right
      obtain ⟨h1, k, h2, h3⟩ := c.live i t h
      have hl : t < x.threads.length := by
        rw [← c.lenT]; exact (List.getElem?_eq_some_iff.1 h2).1
      exact ⟨t, k, x.threads[t], h1, rfl, h2, h3, List.getElem?_eq_getElem hl, c.same t k _ h2 (List.getElem?_eq_getElem hl)⟩

theorem Corr.thread {env : List Nat} {os : Os} {x : Abs} (c : Corr env os x) (t : Nat) :
    (os[t]? = none ∧ x.threads[t]? = none) ∨ ∃ k a, os[t]? = some k ∧ x.threads[t]? = some a ∧ k.fn = a.fn ∧ k.arg = a.arg ∧ Same k.stage a.stage := by
  have := c.lenT
  rcases Nat.lt_or_ge t os.length with h | h
  · exact Or.inr ⟨os[t], x.threads[t], List.getElem?_eq_getElem h, List.getElem?_eq_getElem (by omega),
      c.same t _ _ (List.getElem?_eq_getElem h) (List.getElem?_eq_getElem (by omega))⟩
  · exact Or.inl ⟨List.getElem?_eq_none h, List.getElem?_eq_none (by omega)⟩

/-- a handle that stands for nothing is added -/
theorem Corr.fail {env : List Nat} {os : Os} {x : Abs} (c : Corr env os x) : Corr (env ++ [0]) os ⟨x.handles ++ [none], x.threads⟩ := by
  obtain ⟨c1, c2, c3, c4, c5, c6, c7⟩ := c
  refine ⟨by grind, by grind, by grind, by grind, by grind, by grind, fun u k' h1 h2 => ?_⟩
  obtain ⟨j, hj⟩ := c7 u k' h1 h2
  exact ⟨j, by grind⟩

theorem Corr.new {env : List Nat} {os : Os} {x : Abs} (c : Corr env os x) (fn arg : Nat) :
    Corr (env ++ [os.length + 1]) (os ++ [⟨fn, arg, .ready, true⟩]) ⟨x.handles ++ [some x.threads.length], x.threads ++ [⟨fn, arg, .ready⟩]⟩ := by
  obtain ⟨c1, c2, c3, c4, c5, c6, c7⟩ := c
  have s : Same .ready .ready := trivial
  have b : ∀ (i t : Nat), x.handles[i]? = some (some t) → t < x.threads.length := by grind
  refine ⟨by grind, by grind, by grind, by grind, fun j u h => ?_, by grind, fun u k' h1 h2 => ?_⟩
  · by_cases e : j = x.handles.length
    · have e2 : u = os.length := by grind
      exact ⟨by grind, ⟨fn, arg, .ready, true⟩, by grind, rfl⟩
    · obtain ⟨g1, k, g2, g3⟩ := c5 j u (by grind)
      exact ⟨by grind, k, by grind, g3⟩
  by_cases e : u = os.length
  · exact ⟨x.handles.length, by grind⟩
  · obtain ⟨j, hj⟩ := c7 u k' (by grind) h2
    exact ⟨j, by grind⟩

/-- a handle is closed and forgotten -/
theorem Corr.closed {env : List Nat} {os : Os} {x : Abs} (c : Corr env os x) {i t : Nat} {k : KThread} (h : x.handles[i]? = some (some t))
    (hk : os[t]? = some k) : Corr (env.set i 0) (os.set t { k with isOpen := false }) ⟨x.handles.set i none, x.threads⟩ := by
  obtain ⟨c1, c2, c3, c4, c5, c6, c7⟩ := c
  refine ⟨by grind, by grind, by grind, by grind, by grind, by grind, fun u k' h1 h2 => ?_⟩
  have e : t ≠ u := by grind
  obtain ⟨j, hj⟩ := c7 u k' (by grind) h2
  exact ⟨j, by grind⟩

/-- a thread moves on -/
theorem Corr.moved {env : List Nat} {os : Os} {x : Abs} (c : Corr env os x) {t fn arg : Nat} {o : Bool} {g g' : KStage} {s s' : Stage}
    (hk : os[t]? = some ⟨fn, arg, g, o⟩) (ha : x.threads[t]? = some ⟨fn, arg, s⟩) (hs : Same g' s') :
    Corr env (os.set t ⟨fn, arg, g', o⟩) ⟨x.handles, x.threads.set t ⟨fn, arg, s'⟩⟩ := by
  obtain ⟨c1, c2, c3, c4, c5, c6, c7⟩ := c
  refine ⟨by grind, by grind, by grind, by grind, by grind, by grind, fun u k' h1 h2 => ?_⟩
  by_cases e : t = u
  · obtain ⟨j, hj⟩ := c7 u ⟨fn, arg, g, o⟩ (by grind) (by grind)
    exact ⟨j, by grind⟩
  · obtain ⟨j, hj⟩ := c7 u k' (by grind) h2
    exact ⟨j, by grind⟩

theorem exec_spec {op : Op} (hop : good op) {env : List Nat} {os : Os} {x : Abs} (c : Corr env os x) :
    ∃ o env' os' x', exec op (env, os) = some (o, env', os') ∧ step .ok x op o x' ∧ Corr env' os' x' := by
  cases op with
  | create code haveOut fn arg =>
    by_cases hb : haveOut = false ∨ fn = 0
    · exact ⟨_, _, _, ⟨x.handles ++ [none], x.threads⟩, by simp only [exec, ThreadAPI_Create, if_pos hb, Option.getD]; rfl,
        by simp only [step, if_pos hb]; exact ⟨trivial, trivial⟩, c.fail⟩
    · have hb' : ¬ haveOut = false := fun h => hb (Or.inl h)
      by_cases h0 : code = 0
      · exact ⟨_, _, _, _, by simp only [exec, ThreadAPI_Create, if_neg hb, if_neg hb', CreateThread, if_pos h0, Option.getD]; rfl,
          by simp only [step, if_neg hb, if_pos h0]; exact ⟨trivial, trivial⟩, c.new fn arg⟩
      · exact ⟨_, _, _, _, by simp only [exec, ThreadAPI_Create, if_neg hb, if_neg hb', CreateThread, if_neg h0, Option.getD]; rfl,
          by simp only [step, if_neg hb, if_neg h0]; exact ⟨trivial, trivial⟩, c.fail⟩
  | join code i w =>
    rcases c.handle i with ⟨h1, h2⟩ | ⟨h1, h2⟩ | ⟨t, k, a, h1, h2, h3, h4, h5, h6, h7, h8⟩
    · exact ⟨.nothing, _, _, x, by simp only [exec, h1], by simp only [step, h2]; exact ⟨trivial, trivial⟩, c⟩
    · refine ⟨.ret .invalid_arg none, env, _, x, ?_, ?_, c⟩
      · simp only [exec, h1, ThreadAPI_Join, if_true, Option.bind_eq_bind, Option.bind_some, set_self h1]
      · simp only [step, h2]; exact ⟨trivial, trivial⟩
    · have hobj : object os (t + 1) = some k := by simp only [object, h3, h4, if_true]
      have hcl : CloseHandle os (t + 1) = some (os.set t { k with isOpen := false }) := by simp only [CloseHandle, hobj]; rfl
      have cc := c.closed h2 h3
      obtain ⟨fn, arg, sk, ok⟩ := k
      obtain ⟨fn', arg', sa⟩ := a
      dsimp only at h4 h6 h7 h8 cc hcl
      subst h6; subst h7
      simp only [exec, h1, ThreadAPI_Join, if_neg (Nat.succ_ne_zero t), hobj, step, h2, h5, Option.map_some]
      cases sk <;> cases sa <;> try exact h8.elim
      · exact ⟨_, _, _, x, rfl, ⟨rfl, rfl⟩, c⟩
      · dsimp only
        by_cases h0 : code = 1
        · simp only [if_pos h0, hcl]
          exact ⟨_, _, _, _, rfl, ⟨rfl, rfl⟩, cc⟩
        · simp only [if_neg h0]
          exact ⟨_, _, _, x, rfl, ⟨rfl, rfl⟩, c⟩
      · obtain ⟨rfl, g1, g2⟩ := h8
        simp only [hcl, ofDword_toDword g1 g2]
        refine ⟨_, _, _, _, rfl, ⟨rfl, ?_⟩, cc⟩
        grind
  | start t =>
    rcases c.thread t with ⟨h1, h2⟩ | ⟨⟨fn, arg, sk, ok⟩, ⟨fn', arg', sa⟩, h1, h2, h3, h4, h5⟩
    · exact ⟨.nothing, _, _, x, by simp only [exec, start, h1], by simp only [step, h2]; exact ⟨trivial, trivial⟩, c⟩
    · dsimp only at h3 h4 h5
      subst h3; subst h4
      simp only [exec, start, h1, step, h2]
      cases sk <;> cases sa <;> first | exact h5.elim | exact ⟨_, _, _, x, rfl, ⟨rfl, rfl⟩, c⟩ | skip
      exact ⟨_, _, _, _, rfl, ⟨rfl, rfl⟩, c.moved h1 h2 (by trivial)⟩
  | finish t r =>
    rcases c.thread t with ⟨h1, h2⟩ | ⟨⟨fn, arg, sk, ok⟩, ⟨fn', arg', sa⟩, h1, h2, h3, h4, h5⟩
    · exact ⟨.nothing, _, _, x, by simp only [exec, finish, h1], by simp only [step, h2]; exact ⟨trivial, trivial⟩, c⟩
    · dsimp only at h3 h4 h5
      subst h3; subst h4
      simp only [exec, finish, h1, step, h2]
      cases sk <;> cases sa <;> first | exact h5.elim | exact ⟨_, _, _, x, rfl, ⟨rfl, rfl⟩, c⟩ | skip
      exact ⟨_, _, _, _, rfl, ⟨rfl, rfl⟩, c.moved h1 h2 ⟨rfl, hop⟩⟩

theorem run_spec (ops : List Op) (hops : ∀ op ∈ ops, good op) {env : List Nat} {os : Os} {x : Abs} (c : Corr env os x) :
    ∃ outs env' os' x', run ops (env, os) = some (outs, env', os') ∧ Runs (step .ok) x ops outs x' ∧ Corr env' os' x' := by
  induction ops generalizing env os x with
  | nil => exact ⟨_, _, _, _, rfl, .nil _, c⟩
  | cons op ops ih =>
    obtain ⟨o, e1, o1, x1, h1, h2, h3⟩ := exec_spec (hops op (by simp)) c
    obtain ⟨os, e2, o2, x2, h4, h5, h6⟩ := ih (fun o ho => hops o (by simp [ho])) h3
    exact ⟨_, _, _, _, by simp only [run, h1, Option.bind_eq_bind, Option.bind_some, h4], .cons h2 h5, h6⟩

theorem Runs_served {c c' : THREADAPI_RESULT} {x x' : Abs} {ops : List Op} {outs : List Out} (h : Runs (step c) x ops outs x') (hs : ∀ op ∈ ops, served op) :
    Runs (step c') x ops outs x' := by
  induction h with
  | nil => exact .nil _
  | @cons x op o x1 ops os x2 h1 h2 ih =>
    refine .cons ?_ (ih fun o ho => hs o (by simp [ho]))
    cases op with
    | create code haveOut fn arg =>
      have g := hs _ (List.mem_cons_self ..)
      simp only [step, served] at h1 g ⊢
      by_cases hb : haveOut = false ∨ fn = 0
      · rw [if_pos hb] at h1 ⊢; exact h1
      · have h0 : code = 0 := g (by cases haveOut <;> simp_all) (fun h => hb (Or.inr h))
        rw [if_neg hb, if_pos h0] at h1 ⊢; exact h1
    | _ => exact h1

/-- Over every history of calls and every schedule in which the system creates the threads it is asked for: no undefined behaviour, every thread
runs the function and argument it was created with, `ThreadAPI_Join` waits for it and gives its result, and every handle is closed exactly once
(when all have been joined none is open).  Missing: a refused thread must be reported as an error (`refused_is_ok`). -/
theorem history_partial (ops : List Op) (hops : ∀ op ∈ ops, good op) (hs : ∀ op ∈ ops, served op) :
    ∃ outs env os x', run ops ([], []) = some (outs, env, os) ∧ Runs (step .error) ⟨[], []⟩ ops outs x' ∧
      ((∀ a ∈ x'.handles, a = none) → ∀ k ∈ os, k.isOpen = false) := by
  obtain ⟨outs, env, os, x, h1, h2, h3⟩ := run_spec ops hops (env := []) (os := []) (x := ⟨[], []⟩) ⟨rfl, rfl, by simp, by simp, by simp, by simp, by simp⟩
  refine ⟨outs, env, os, x, h1, Runs_served h2 hs, fun h k hk => ?_⟩
  obtain ⟨t, ht⟩ := List.getElem?_of_mem hk
  cases ho : k.isOpen with
  | false => rfl
  | true =>
    obtain ⟨i, hi⟩ := h3.used t k ht ho
    exact absurd (h _ (List.mem_of_getElem? hi)) (by simp)

/-- The same with refused threads, as the code is: `ThreadAPI_Create` then answers `THREADAPI_OK` and gives the handle `NULL`. -/
theorem history_refused (ops : List Op) (hops : ∀ op ∈ ops, good op) :
    ∃ outs env os x', run ops ([], []) = some (outs, env, os) ∧ Runs (step .ok) ⟨[], []⟩ ops outs x' ∧ Corr env os x' :=
  run_spec ops hops ⟨rfl, rfl, by simp, by simp, by simp, by simp, by simp⟩

/-- `ThreadAPI_Create` reports success although the system refused the thread. -/
theorem refused_is_ok : ∃ outs env os, run [.create 8 true 7 1] ([], []) = some (outs, env, os) ∧ outs = [.ret .ok none] ∧ env = [0] ∧ os = [] ∧
    ∀ x', ¬ Runs (step .error) ⟨[], []⟩ [.create 8 true 7 1] outs x' := by
  refine ⟨_, _, _, rfl, rfl, rfl, rfl, fun x' h => ?_⟩
  cases h with
  | cons h1 _ => have := h1.1; cases this

/-- A run: a thread is created and starts, a join blocks, the thread ends with -2, the join gives it; joining again is refused. -/
example : run [.create 0 true 7 1, .start 0, .join 0 0 true, .finish 0 (-2), .join 0 0 true, .join 0 0 true] ([], []) =
    some ([.ret .ok none, .called 7 1, .nothing, .nothing, .ret .ok (some (-2)), .ret .invalid_arg none], [0],
      [⟨7, 1, .done (2 ^ 32 - 2), false⟩]) := by decide

end Verif.Thr.Win32
