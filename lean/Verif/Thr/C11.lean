import Verif.Thr.Props
/-!
# `adapters/threadapi_c11.c`

The library's side is the machine of `Thr/Spec.lean`: `thrd_create` gets the client's function and argument themselves, so a thread is an
`AThread`; `thrd_join` writes the thread's result.  A `thrd_t` is kept in one heap slot.  `code`: what `thrd_create`/`thrd_join` answer
(0 `thrd_success`, 1 `thrd_nomem`, anything else an error); a join may fail only for a thread that has started.
-/
namespace Verif.Thr.C11
variable {rel : Prop}

abbrev Sys := List AThread

/-- `thrd_create` -/
def thrd_create (sys : Sys) (code : Int) (fn arg : Nat) : Int × Nat × Sys :=
  if code = 0 then (0, sys.length, sys ++ [⟨fn, arg, .ready⟩]) else (code, 0, sys)

/-- `thrd_join`: `none` while it is blocked; otherwise its answer and the value written to `*res` -/
def thrd_join (sys : Sys) (code : Int) (t : Nat) : Option (Int × Option Int) :=
  match (sys[t]?).map AThread.stage with
  | some (.done v) => some (code, if code = 0 then some v else none)
  | some .running => if code = 0 then none else some (code, none)
  | _ => none

/-- `ThreadAPI_Create`, adapters/threadapi_c11.c:24-62 -/
def ThreadAPI_Create (sys : Sys) (code : Int) (threadHandle : Bool) (func arg : Nat) : M (THREADAPI_RESULT × Option Ptr × Sys) := do
  if threadHandle = false ∨ func = 0 then pure (.invalid_arg, none, sys) else do
  let thrd_t_ptr ← mallocS 1
  if thrd_t_ptr = 0 then pure (.no_memory, none, sys) else do
  let x := thrd_create sys code func arg
  if x.1 ≠ 0 then do
    free thrd_t_ptr
    pure (.error, none, x.2.2)
  else do
    -- `thrd_create` stores the new thread in `*thrd_t_ptr`
    store thrd_t_ptr 0 (.int x.2.1)
    pure (.ok, some thrd_t_ptr, x.2.2)

/-- `ThreadAPI_Join`, adapters/threadapi_c11.c:64-98.  `none`: still blocked in `thrd_join`. -/
def ThreadAPI_Join (sys : Sys) (code : Int) (threadHandle : Ptr) (res : Bool) : M (Option (THREADAPI_RESULT × Option Int)) := do
  if threadHandle = 0 then pure (some (.invalid_arg, none)) else do
  let t ← loadInt threadHandle 0
  match thrd_join sys code t with
  | none => pure none
  | some (r, v) => do
    let result := if r = 0 then THREADAPI_RESULT.ok else if r = 1 then THREADAPI_RESULT.no_memory else THREADAPI_RESULT.error
    free threadHandle
    pure (some (result, if res then v else none))

/-- the client and the scheduler -/
def exec (op : Op) (e : List Nat × Sys) : M (Out × List Nat × Sys) :=
  match op with
  | .create code haveOut fn arg => do
    let r ← ThreadAPI_Create e.2 code haveOut fn arg
    pure (.ret r.1 none, e.1 ++ [r.2.1.getD 0], r.2.2)
  | .join code i wantRes =>
    match e.1[i]? with
    | none => pure (.nothing, e)
    | some h => do
      let r ← ThreadAPI_Join e.2 code h wantRes
      match r with
      | none => pure (.nothing, e)
      | some (c, v) => pure (.ret c v, e.1.set i 0, e.2)
  | .start t =>
    match e.2[t]? with
    | some ⟨fn, arg, .ready⟩ => pure (.called fn arg, e.1, e.2.set t ⟨fn, arg, .running⟩)
    | _ => pure (.nothing, e)
  | .finish t r =>
    match e.2[t]? with
    | some ⟨fn, arg, .running⟩ => pure (.nothing, e.1, e.2.set t ⟨fn, arg, .done r⟩)
    | _ => pure (.nothing, e)

/-! ## Specification -/

/-- What the calls do.  `oom`: memory may be refused. -/
def step (oom : Prop) (x : Abs) (op : Op) (o : Out) (x' : Abs) : Prop :=
  match op with
  | .create code haveOut fn arg =>
    (code = 0 ∧ haveOut = true ∧ fn ≠ 0 ∧ o = .ret .ok none ∧
      x' = ⟨x.handles ++ [some x.threads.length], x.threads ++ [⟨fn, arg, .ready⟩]⟩) ∨
    (x' = ⟨x.handles ++ [none], x.threads⟩ ∧
      (((haveOut = false ∨ fn = 0) ∧ o = .ret .invalid_arg none) ∨
       (haveOut = true ∧ fn ≠ 0 ∧ oom ∧ o = .ret .no_memory none) ∨
       (haveOut = true ∧ fn ≠ 0 ∧ code ≠ 0 ∧ o = .ret .error none)))
  | .join code i wantRes =>
    match x.handles[i]? with
    | none => o = .nothing ∧ x' = x
    | some none => o = .ret .invalid_arg none ∧ x' = x
    | some (some t) =>
      match (x.threads[t]?).map AThread.stage with
      | some (.done r) =>
        x' = ⟨x.handles.set i none, x.threads⟩ ∧
          o = if code = 0 then .ret .ok (if wantRes then some r else none) else if code = 1 then .ret .no_memory none else .ret .error none
      | some .running =>
        if code = 0 then o = .nothing ∧ x' = x
        else x' = ⟨x.handles.set i none, x.threads⟩ ∧ o = if code = 1 then .ret .no_memory none else .ret .error none
      | _ => o = .nothing ∧ x' = x
  | .start t =>
    match x.threads[t]? with
    | some ⟨fn, arg, .ready⟩ => o = .called fn arg ∧ x' = ⟨x.handles, x.threads.set t ⟨fn, arg, .running⟩⟩
    | _ => o = .nothing ∧ x' = x
  | .finish t r =>
    match x.threads[t]? with
    | some ⟨fn, arg, .running⟩ => o = .nothing ∧ x' = ⟨x.handles, x.threads.set t ⟨fn, arg, .done r⟩⟩
    | _ => o = .nothing ∧ x' = x

/-! ## Proof -/

def Inst (p : Ptr) (t : Nat) : HProp := p ↦ [.int t]

/-- the handles of the client and the threads of the system -/
def Inv (e : List Nat × Sys) (x : Abs) : HProp := (e.2 = x.threads) ⋏ Own (ORep Inst) e.1 x.handles

theorem exec_spec (op : Op) (e : List Nat × Sys) (x : Abs) :
    Triple rel (Inv e x) (exec op e) (fun r => ∃∃ x', (step (¬ rel) x op r.1 x') ⋏ Inv r.2 x') := by
  obtain ⟨env, sys⟩ := e
  obtain ⟨hs, ths⟩ := x
  unfold Inv
  hoist
  intro hc
  try dsimp only at hc
  try dsimp only
  subst hc
  refine Triple.know (φ := env.length = hs.length) (fun h hh => hh.1) fun hl => ?_
  cases op with
  | create code haveOut fn arg =>
    simp only [exec]
    unfold ThreadAPI_Create
    have fail : ∀ (c : THREADAPI_RESULT), step (¬ rel) ⟨hs, sys⟩ (.create code haveOut fn arg) (.ret c none) ⟨hs ++ [none], sys⟩ →
        Own (ORep Inst) env hs ⊢ₕ
        ∃∃ x', (step (¬ rel) ⟨hs, sys⟩ (.create code haveOut fn arg) (.ret c none) x') ⋏ (sys = x'.threads) ⋏ Own (ORep Inst) (env ++ [0]) x'.handles := by
      intro c hst
      exact entails_ex_r ⟨hs ++ [none], sys⟩ (entails_pand_r (entails_pand_r Own_none rfl) hst)
    by_cases hbad : haveOut = false ∨ fn = 0
    · rw [if_pos hbad]
      refine Triple.bind_pure (Triple.pure (fail _ (Or.inr ⟨rfl, Or.inl ⟨hbad, rfl⟩⟩)))
    rw [if_neg hbad]
    have hb : haveOut = true ∧ fn ≠ 0 := by
      cases haveOut <;> simp_all
    simp only [bind_assoc]
    refine Triple.mallocS (by decide) (fun hr => ?_) fun p hp => ?_
    · rw [if_pos rfl]
      refine Triple.bind_pure (Triple.pure (fail _ (Or.inr ⟨rfl, Or.inr (Or.inl ⟨hb.1, hb.2, hr, rfl⟩)⟩)))
    rw [if_neg hp]
    hoist
    unfold thrd_create
    by_cases h0 : code = 0
    · simp only [if_pos h0, ne_eq, not_true_eq_false, if_false, bind_assoc]
      stepd (store_spec ?_)
      refine Triple.bind_pure (Triple.pure ?_)
      refine entails_ex_r ⟨hs ++ [some sys.length], sys ++ [⟨fn, arg, .ready⟩]⟩ (entails_pand_r (entails_pand_r ?_ rfl) (Or.inl ⟨h0, hb.1, hb.2, rfl, rfl⟩))
      exact Own_snoc (R := ORep Inst) (h := p) (a := some sys.length)
    · simp only [if_neg h0, ne_eq]
      rw [if_pos h0]
      simp only [bind_assoc]
      step free_spec
      refine Triple.bind_pure (Triple.pure (fail _ (Or.inr ⟨rfl, Or.inr (Or.inr ⟨hb.1, hb.2, h0, rfl⟩)⟩)))
  | join code i w =>
    simp only [exec]
    cases hi : env[i]? with
    | none =>
      refine Triple.pure (entails_ex_r ⟨hs, sys⟩ (entails_pand_r (entails_pand_r (entails_refl _) rfl) ?_))
      simp only [step, get_none hl hi]; exact ⟨by trivial, by trivial⟩
    | some h =>
      obtain ⟨a, F, ha, h2, h3⟩ := Own_get (R := ORep Inst) hi hl
      dsimp only
      unfold ThreadAPI_Join
      cases a with
      | none =>
        rw [h2, ORep_none]; hoist; intro h0
        rw [if_pos h0]
        refine Triple.bind_pure (Triple.pure (entails_ex_r ⟨hs, sys⟩ (entails_pand_r (entails_pand_r ?_ rfl) ?_)))
        · dsimp only
          have hx : hs.set i none = hs := set_self ha
          have := h3 0 none
          rw [hx] at this
          rw [this, ORep_null, emp_sep]; exact entails_refl _
        · simp only [step, ha]; exact ⟨by trivial, by trivial⟩
      | some t =>
        rw [h2, ORep_some, Inst]
        refine Triple.know (know_pts (p := h) (φ := h ≠ 0) (by pick) fun h1 _ => h1) fun hp => ?_
        rw [if_neg hp]
        simp only [bind_assoc]
        stepd (loadInt_spec (n := t) ?_)
        have back : h ↦ [.int t] ∗ F ⊢ₕ Own (ORep Inst) env hs := by
          rw [h2, ORep_some]; exact entails_refl _
        have gone : F ⊢ₕ Own (ORep Inst) (env.set i 0) (hs.set i none) := by
          rw [h3, ORep_null, emp_sep]; exact entails_refl _
        simp only [step, ha, thrd_join]
        cases hst : (sys[t]?).map AThread.stage with
        | none =>
          simp only [pure_bind]
          exact Triple.pure (entails_ex_r ⟨hs, sys⟩ (entails_pand_r (entails_pand_r back rfl) ⟨rfl, rfl⟩))
        | some st =>
          cases st with
          | ready =>
            simp only [pure_bind]
            exact Triple.pure (entails_ex_r ⟨hs, sys⟩ (entails_pand_r (entails_pand_r back rfl) ⟨rfl, rfl⟩))
          | running =>
            by_cases h0 : code = 0
            · simp only [if_pos h0, pure_bind]
              exact Triple.pure (entails_ex_r ⟨hs, sys⟩ (entails_pand_r (entails_pand_r back rfl) ⟨rfl, rfl⟩))
            · simp only [if_neg h0, bind_assoc, pure_bind]
              step free_spec
              refine Triple.pure (entails_ex_r ⟨hs.set i none, sys⟩ (entails_pand_r (entails_pand_r gone rfl) ⟨rfl, ?_⟩))
              cases w <;> split <;> rfl
          | done r =>
            simp only [bind_assoc, pure_bind]
            step free_spec
            refine Triple.pure (entails_ex_r ⟨hs.set i none, sys⟩ (entails_pand_r (entails_pand_r gone rfl) ⟨rfl, ?_⟩))
            grind
  | start t =>
    simp only [exec, step]
    split
    · rename_i he
      simp only [he]
      exact Triple.pure (entails_ex_r ⟨hs, _⟩ (entails_pand_r (entails_pand_r (entails_refl _) rfl) ⟨rfl, rfl⟩))
    · refine Triple.pure (entails_ex_r ⟨hs, sys⟩ (entails_pand_r (entails_pand_r (entails_refl _) rfl) ⟨rfl, rfl⟩))
  | finish t r =>
    simp only [exec, step]
    split
    · rename_i he
      simp only [he]
      exact Triple.pure (entails_ex_r ⟨hs, _⟩ (entails_pand_r (entails_pand_r (entails_refl _) rfl) ⟨rfl, rfl⟩))
    · refine Triple.pure (entails_ex_r ⟨hs, sys⟩ (entails_pand_r (entails_pand_r (entails_refl _) rfl) ⟨rfl, rfl⟩))

/-- Over every history of calls and every schedule: no undefined behaviour, every thread runs the function and argument it was created with,
`ThreadAPI_Join` waits for it and gives its result, and the memory in use is exactly one `thrd_t` per handle not yet joined. -/
theorem history (ops : List Op) (e : List Nat × Sys) (x : Abs) :
    Triple rel (Inv e x) (runOps exec ops e) (fun r => ∃∃ x', (Runs (step (¬ rel)) x ops r.1 x') ⋏ Inv r.2 x') :=
  runOps_spec (good := fun _ => True) (fun op _ e x => exec_spec op e x) ops (by simp) e x

/-- From the empty memory: once every handle has been joined, nothing is left allocated. -/
theorem no_leak (ops : List Op) (al : Nat → Heap → Nat → Nat) :
    ∃ outs env sys s' x', runOps exec ops ([], []) (St.start al) = some (.ok ((outs, env, sys), s')) ∧
      Runs (step True) ⟨[], []⟩ ops outs x' ∧ ((∀ a ∈ x'.handles, a = none) → s'.heap = Heap.empty) := by
  have t := history (rel := False) ops ([], []) ⟨[], []⟩
  have hP : Inv ([], []) ⟨[], []⟩ (St.start al).heap := by
    refine ⟨rfl, ?_⟩
    rw [Own_nil]; rfl
  obtain ⟨r, s', h1, ⟨x', hx, _, hh⟩⟩ := t.run (St.start al) Heap.fin_empty (fun h => h.elim) hP
  refine ⟨r.1, r.2.1, r.2.2, s', x', h1, by simpa using hx, fun hall => ?_⟩
  obtain ⟨hl, hh⟩ := hh
  have : ∀ (env : List Nat) (as : List (Option Nat)), (∀ a ∈ as, a = none) → Pool (ORep Inst) (env.zip as) ⊢ₕ emp := by
    intro env as
    induction env generalizing as with
    | nil => intro _; simp only [List.zip_nil_left, Pool]; exact entails_refl _
    | cons h env ih =>
      intro has
      cases as with
      | nil => simp only [List.zip_nil_right, Pool]; exact entails_refl _
      | cons a as =>
        have : a = none := has a (by simp)
        subst this
        simp only [List.zip_cons_cons, Pool, ORep_none, pand_sep, emp_sep]
        exact entails_pand_l fun _ => ih as (fun a ha => has a (by simp [ha]))
  exact this _ _ hall _ hh

/-- A run: a thread with result -1; a refused one; a blocked join. -/
example : outcome (runOps exec [.create 0 true 7 8, .join 0 0 true, .create 1 true 7 9, .create 0 false 7 9, .start 0, .finish 0 (-1),
      .join 0 0 true, .join 0 0 true] ([], [])) (St.start bump) =
    some (.ok ([.ret .ok none, .nothing, .ret .error none, .ret .invalid_arg none, .called 7 8, .nothing, .ret .ok (some (-1)), .ret .invalid_arg none],
      [0, 0, 0], [⟨7, 8, .done (-1)⟩])) := by decide +kernel

end Verif.Thr.C11
