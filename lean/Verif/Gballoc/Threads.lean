import Verif.Gballoc.History
/-! # C32: gballoc used by several threads

The part of a call inside the module lock is one atomic step (mutual exclusion of `pthread_mutex_lock` is trusted).
`gballoc_free` is two steps: it reads `head` *before* taking the lock (gballoc.c:284), then does the rest under the lock.  A
schedule interleaves the steps of the threads arbitrarily.  `gballoc_init`/`gballoc_deinit` are not called concurrently. -/
set_option linter.unusedSimpArgs false
set_option linter.unusedVariables false
namespace Verif.Gballoc
open Verif
variable {rel : Prop}

/-- where a thread is -/
inductive TS where
  | idle (c : Client)
  /-- in `gballoc_free(p)`, `curr` read, lock not yet taken -/
  | freeing (lockOk : Bool) (p curr : Nat) (k : Out → Client)

/-- calls that put records into or out of the tracking list -/
def relinks : Op → Bool
  | .malloc _ _ | .calloc _ _ _ | .free _ _ => true
  | .realloc _ p _ => p == 0
  | _ => false

/-- a thread other than `i` is between the two steps of `gballoc_free` -/
def otherFreeing (ts : List TS) (i : Nat) : Bool :=
  (List.range ts.length).any fun j => j != i && (match ts[j]? with | some (.freeing ..) => true | _ => false)

/-- Threads run in the order of a schedule; the log lists the completed calls.  `ff` is the part of `gballoc_free` after the read of
`head`.  With `guard` the run stops (third component `true`) as soon as a call that relinks records is about to take the lock while
another thread is between the two steps of `gballoc_free`. -/
def runTX (ff : Ptr → Bool → Ptr → Ptr → M Nat) (guard : Bool) (g : Ptr) : List Nat → List TS → M (List (Nat × Op × Out) × List TS × Bool)
  | [], ts => pure ([], ts, false)
  | i :: sched, ts =>
    match ts[i]? with
    | some (.idle (.call (.free ok p) k)) => do
      let curr ← loadPtr g fHead
      runTX ff guard g sched (ts.set i (.freeing ok p curr k))
    | some (.idle (.call op k)) =>
      if guard && relinks op && otherFreeing ts i then pure ([], ts, true)
      else do
        let o ← exec g op
        let r ← runTX ff guard g sched (ts.set i (.idle (k o)))
        pure ((i, op, o) :: r.1, r.2)
    | some (.freeing ok p curr k) =>
      if guard && otherFreeing ts i then pure ([], ts, true)
      else do
        let n ← ff g ok p curr
        let r ← runTX ff guard g sched (ts.set i (.idle (k (.num n))))
        pure ((i, .free ok p, .num n) :: r.1, r.2)
    | _ => runTX ff guard g sched ts

/-- the threads of gballoc -/
abbrev runT := runTX freeFrom

/-- the calls a thread may make: any allocation call with any argument (`realloc` of a block to size 0 excepted) -/
def Shareable : Op → Prop
  | .malloc .. | .calloc .. | .free .. | .getMax .. | .getCur .. => True
  | .realloc _ p n => n ≠ 0 ∨ p = 0
  | _ => False

inductive Fair : Client → Prop
  | done : Fair .done
  | call {op k} : Shareable op → (∀ o, Fair (k o)) → Fair (.call op k)

inductive NoFree : Client → Prop
  | done : NoFree .done
  | call {op k} : (∀ ok p, op ≠ .free ok p) → (∀ o, NoFree (k o)) → NoFree (.call op k)

/-- The completed calls, in the order they completed, are a sequential history of the specification. -/
def Linear (rel : Prop) (g : Ptr) (w : World) (log : List (Nat × Op × Out)) : HProp :=
  ∃∃ l w' es', (Hist rel w l w' ∧ calls l = log.map Prod.snd) ⋏ GB g w' es'

theorem Shareable.legal {w : World} {op : Op} (hs : Shareable op) (hi : w.init = true) (h0 : 0 ∉ addrs w.live) (h0' : 0 ∉ addrs w.other) : Legal w op := by
  cases op <;> simp only [Shareable, Legal] at * <;> try trivial
  · refine ⟨fun hn => ?_, fun h => by rw [hi] at h; cases h⟩
    have : _ = 0 := hs.resolve_left (by simp [hn])
    rw [this]; exact ⟨h0, h0'⟩
  · intro h; rw [hi] at h; cases h

theorem Shareable.init {w w' : World} {op : Op} {o : Out} (hs : Shareable op) (hi : w.init = true) (h : Step rel w op o w') : w'.init = true := by
  have get : ∀ ok n b r, GetE rel w ok n b r w' → w'.init = true := by
    rintro ok n b r (⟨_, rfl, _⟩ | ⟨_, h1, _, _, _, rfl⟩)
    · exact hi
    · rw [if_pos hi]; exact hi
  cases op with
  | malloc ok n => obtain ⟨r, _, h⟩ := h; exact get _ _ _ _ h
  | calloc ok n m => obtain ⟨r, _, h⟩ := h; exact get _ _ _ _ h
  | realloc ok p n =>
    obtain ⟨r, _, h⟩ := h
    by_cases h0 : p = 0
    · rw [if_pos h0] at h; exact get _ _ _ _ h
    · rw [if_neg h0] at h
      rcases h with ⟨_, rfl, _⟩ | ⟨_, hr, _, _, b, hb, rfl⟩
      · exact hi
      · rw [if_pos hi]; exact hi
  | free ok p =>
    obtain ⟨_, rfl⟩ := h
    rw [if_pos hi]
    split <;> exact hi
  | getMax ok => obtain ⟨_, rfl⟩ := h; exact hi
  | getCur ok => obtain ⟨_, rfl⟩ := h; exact hi
  | init _ => exact hs.elim
  | deinit => exact hs.elim
  | poke _ _ _ => exact hs.elim
  | peek _ _ => exact hs.elim

theorem know_GB {g : Ptr} {w : World} {es : List Ent} : ∀ hp, GB g w es hp → 0 ∉ addrs w.live ∧ 0 ∉ addrs w.other := by
  rintro hp ⟨t, m, lk, _, h⟩
  exact ⟨(know_pick (A := Blocks w.live) know_Blocks (by pick) hp h).2.1, (know_pick (A := Blocks w.other) know_Blocks (by pick) hp h).2.1⟩

/-- a call that does not relink leaves the head alone -/
theorem exec_head {g : Ptr} {w : World} {op : Op} {es : List Ent} (hleg : Legal w op) (hs : Shareable op) (hr : relinks op = false) :
    Triple rel (GB g w es) (exec g op) (fun o => ∃∃ w' es', (Step rel w op o w' ∧ first es' 0 = first es 0) ⋏ GB g w' es') := by
  cases op with
  | realloc ok p n =>
    have hp : p ≠ 0 := by simpa [relinks] using hr
    unfold exec
    refine Triple.bind' (gballoc_realloc_spec hleg) fun r => ?_
    unfold Post; simp only [if_neg hp]; hoist; intro w' es' h1 h2
    exact Triple.pure (entails_ex_r w' (entails_ex_r es' (entails_pand_r (entails_refl _) ⟨⟨r, rfl, by rw [if_neg hp]; exact h1⟩, h2⟩)))
  | getMax ok =>
    unfold exec
    refine Triple.bind' gballoc_getMax_spec fun r => ?_
    hoist; intro hr
    exact Triple.pure (entails_ex_r w (entails_ex_r es (entails_pand_r (entails_refl _) ⟨⟨by rw [hr], rfl⟩, rfl⟩)))
  | getCur ok =>
    unfold exec
    refine Triple.bind' gballoc_getCur_spec fun r => ?_
    hoist; intro hr
    exact Triple.pure (entails_ex_r w (entails_ex_r es (entails_pand_r (entails_refl _) ⟨⟨by rw [hr], rfl⟩, rfl⟩)))
  | malloc _ _ => cases hr
  | calloc _ _ _ => cases hr
  | free _ _ => cases hr
  | init _ => exact hs.elim
  | deinit => exact hs.elim
  | poke _ _ _ => exact hs.elim
  | peek _ _ => exact hs.elim

theorem loadHead_spec {g : Ptr} {w : World} {es : List Ent} : Triple rel (GB g w es) (loadPtr g fHead) (fun r => (r = first es 0) ⋏ GB g w es) := by
  unfold GB; hoist; intro t m lk hF
  last (loadPtr_spec (p := g) ?_)
  rename_i r
  rw [pand_sep]
  exact entails_pand_l fun hr => entails_pand_r (entails_ex_r t (entails_ex_r m (entails_ex_r lk (entails_pand_r (entails_refl _) hF)))) hr

/-- a thread makes shareable calls only, and if it is in `gballoc_free` the head it read is `hd` -/
def TS.ok (hd : Nat) : TS → Prop
  | .idle c => Fair c
  | .freeing _ _ curr k => curr = hd ∧ ∀ o, Fair (k o)

theorem Linear_cons {g : Ptr} {w w1 : World} {op : Op} {o : Out} {i : Nat} {log : List (Nat × Op × Out)} (h : Step rel w op o w1) :
    Linear rel g w1 log ⊢ₕ Linear rel g w ((i, op, o) :: log) := by
  rintro hp ⟨l, w', es', ⟨h1, h2⟩, h3⟩
  exact ⟨(op, o, w1) :: l, w', es', ⟨.cons h h1, by simp only [calls, List.map_cons] at h2 ⊢; rw [h2]⟩, h3⟩

theorem Linear_nil {g : Ptr} {w : World} {es : List Ent} : GB g w es ⊢ₕ Linear rel g w [] := by
  intro hp h; exact ⟨[], w, es, ⟨.nil w, rfl⟩, h⟩

/-- nobody else is in `gballoc_free`: the head may change -/
theorem ok_set {ts : List TS} {i hd hd' : Nat} {t : TS} (hts : ∀ t ∈ ts, t.ok hd) (hno : otherFreeing ts i = false) (ht : t.ok hd') :
    ∀ x ∈ ts.set i t, x.ok hd' := by
  intro x hx
  obtain ⟨j, hj, he⟩ := List.getElem_of_mem hx
  simp only [List.length_set] at hj
  by_cases hij : i = j
  · subst hij
    rw [List.getElem_set_self] at he; rw [← he]; exact ht
  · rw [List.getElem_set_ne hij] at he
    have hx' : x ∈ ts := by rw [← he]; exact List.getElem_mem hj
    have := hts x hx'
    cases hxe : x with
    | idle c => rw [hxe] at this; exact this
    | freeing ok p c k =>
      have : otherFreeing ts i = true := by
        unfold otherFreeing
        rw [List.any_eq_true]
        refine ⟨j, List.mem_range.2 hj, ?_⟩
        rw [List.getElem?_eq_getElem hj, he, hxe]
        simp [Ne.symm hij]
      rw [hno] at this; cases this

theorem ok_set' {ts : List TS} {i hd : Nat} {t : TS} (hts : ∀ t ∈ ts, t.ok hd) (ht : t.ok hd) : ∀ x ∈ ts.set i t, x.ok hd := by
  intro x hx
  rcases List.mem_or_eq_of_mem_set hx with hx | rfl
  · exact hts x hx
  · exact ht

/-- C32, part 1: as long as no relinking call takes the lock while another thread is between the two steps of `gballoc_free`, every
schedule is linearizable: no undefined behaviour, and the calls act one after the other in the order they took the lock. -/
theorem threads_guarded {g : Ptr} (sched : List Nat) : ∀ (ts : List TS) (w : World) (es : List Ent), w.init = true →
    (∀ t ∈ ts, t.ok (first es 0)) → Triple rel (GB g w es) (runT true g sched ts) (fun r => Linear rel g w r.1) := by
  induction sched with
  | nil => intro ts w es _ _; exact Triple.pure Linear_nil
  | cons i sched ih =>
    intro ts w es hi hts
    refine Triple.know know_GB fun h0 => ?_
    rcases hti : ts[i]? with _ | t
    · unfold runT runTX; simp only [hti]; exact ih ts w es hi hts
    have htok := hts t (List.mem_of_getElem? hti)
    -- a complete call of an idle thread
    have call : ∀ (op : Op) (k : Out → Client), (∀ ok p, op ≠ .free ok p) → Shareable op → (∀ o, Fair (k o)) →
        Triple rel (GB g w es) (if (true && relinks op && otherFreeing ts i) = true then pure ([], ts, true) else do
          let o ← exec g op
          let r ← runT true g sched (ts.set i (.idle (k o)))
          pure ((i, op, o) :: r.1, r.2)) (fun r => Linear rel g w r.1) := by
      intro op k hf hs hk
      refine Triple.ite (fun _ => Triple.pure Linear_nil) (fun hg => ?_)
      have hleg := hs.legal hi h0.1 h0.2
      by_cases hr : relinks op = true
      · have hno : otherFreeing ts i = false := by simpa [hr] using hg
        refine Triple.bind' (exec_spec hleg) fun o => ?_
        hoist; intro w1 es1 h1
        refine Triple.bind' (ih _ w1 es1 (hs.init hi h1) (ok_set hts hno (t := .idle (k o)) (hk o))) fun r => ?_
        exact Triple.pure (Linear_cons h1)
      · have hr : relinks op = false := by simpa using hr
        refine Triple.bind' (exec_head hleg hs hr) fun o => ?_
        hoist; intro w1 es1 h1 h2
        refine Triple.bind' (ih _ w1 es1 (hs.init hi h1) (by rw [h2]; exact ok_set' hts (t := .idle (k o)) (hk o))) fun r => ?_
        exact Triple.pure (Linear_cons h1)
    cases t with
    | idle c =>
      cases c with
      | done => unfold runT runTX; simp only [hti]; exact ih ts w es hi hts
      | call op k =>
        cases htok with
        | call hs hk =>
          by_cases hf : ∃ ok p, op = .free ok p
          · obtain ⟨ok, p, rfl⟩ := hf
            unfold runT runTX; simp only [hti]
            step loadHead_spec
            exact ih _ w es hi (ok_set' hts (t := .freeing ok p (first es 0) k) ⟨rfl, hk⟩)
          · have hf' : ∀ ok p, op ≠ .free ok p := fun ok p h => hf ⟨ok, p, h⟩
            have := call op k hf' hs hk
            unfold runT runTX; simp only [hti]
            cases op <;> first | exact this | exact absurd rfl (hf' _ _)
    | freeing ok p curr k =>
      obtain ⟨rfl, hk⟩ := htok
      unfold runT runTX; simp only [hti]
      refine Triple.ite (fun _ => Triple.pure Linear_nil) (fun hg => ?_)
      have hno : otherFreeing ts i = false := by simpa using hg
      have hleg : Legal w (.free ok p) := Shareable.legal (op := .free ok p) trivial hi h0.1 h0.2
      refine Triple.bind' (freeFrom_spec hleg) fun n => ?_
      hoist; intro es1 hn
      subst hn
      have hst : Step rel w (.free ok p) (.num 0) _ := ⟨rfl, rfl⟩
      refine Triple.bind' (ih _ _ es1 (Shareable.init (op := .free ok p) trivial hi hst) (ok_set hts hno (t := .idle (k (.num 0))) (hk _))) fun r => ?_
      exact Triple.pure (Linear_cons hst)

theorem bind_ok {α β : Type} {c : M α} {k : α → M β} {s s' : St} {b : β} (h : (c >>= k) s = some (.ok (b, s'))) :
    ∃ a s1, c s = some (.ok (a, s1)) ∧ k a s1 = some (.ok (b, s')) := by
  have e : (c >>= k) s = match c s with
    | none => none
    | some (.error x) => some (.error x)
    | some (.ok (a, s1)) => k a s1 := by
    simp only [Bind.bind, StateT.bind, ExceptT.bind, ExceptT.mk]
    rcases c s with _ | _ | ⟨a, s1⟩ <;> rfl
  rw [e] at h
  rcases hc : c s with _ | _ | ⟨a, s1⟩
  · rw [hc] at h; cases h
  · rw [hc] at h; cases h
  · rw [hc] at h; exact ⟨a, s1, rfl, h⟩

theorem bind_ok' {α β : Type} {c : M α} {k : α → M β} {s s1 s' : St} {a : α} {b : β} (h1 : c s = some (.ok (a, s1))) (h2 : k a s1 = some (.ok (b, s'))) :
    (c >>= k) s = some (.ok (b, s')) := by
  simp only [Bind.bind, StateT.bind, ExceptT.bind, ExceptT.mk, h1, ExceptT.bindCont, Option.bind_some]
  exact h2

/-- the guard only stops runs: a guarded run that was not stopped is the run of the program as it is -/
theorem guard_only_stops {g : Ptr} (sched : List Nat) : ∀ (ts : List TS) (s s' : St) (log : List (Nat × Op × Out)) (ts' : List TS),
    runT true g sched ts s = some (.ok ((log, ts', false), s')) → runT false g sched ts s = some (.ok ((log, ts', false), s')) := by
  induction sched with
  | nil => intro ts s s' log ts' h; exact h
  | cons i sched ih =>
    intro ts s s' log ts' h
    have tail : ∀ {α : Type} {c : M α} {f : α → List TS} {e : α → Nat × Op × Out},
        (c >>= fun o => runT true g sched (f o) >>= fun r => pure (e o :: r.1, r.2)) s = some (.ok ((log, ts', false), s')) →
        (c >>= fun o => runT false g sched (f o) >>= fun r => pure (e o :: r.1, r.2)) s = some (.ok ((log, ts', false), s')) := by
      intro α c f e h
      obtain ⟨o, s1, h1, h2⟩ := bind_ok h
      obtain ⟨⟨l, t, fl⟩, s2, h3, h4⟩ := bind_ok h2
      have h4' : some (Except.ok ((e o :: l, t, fl), s2)) = some (Except.ok ((log, ts', false), s') : Except Err _) := h4
      simp only [Option.some.injEq, Except.ok.injEq, Prod.mk.injEq] at h4'
      obtain ⟨⟨rfl, rfl, rfl⟩, rfl⟩ := h4'
      exact bind_ok' h1 (bind_ok' (ih _ _ _ _ _ h3) rfl)
    have stop : ∀ {α : Type} {b : Bool} {c : M α} {f : α → List TS} {e : α → Nat × Op × Out},
        (if (true && b) = true then pure ([], ts, true) else c >>= fun o => runT true g sched (f o) >>= fun r => pure (e o :: r.1, r.2)) s = some (.ok ((log, ts', false), s')) →
        (if (false && b) = true then pure ([], ts, true) else c >>= fun o => runT false g sched (f o) >>= fun r => pure (e o :: r.1, r.2)) s = some (.ok ((log, ts', false), s')) := by
      intro α b c f e h
      cases b with
      | true =>
        have h' : some (Except.ok (([], ts, true), s)) = some (Except.ok ((log, ts', false), s') : Except Err _) := h
        simp at h'
      | false => exact tail h
    unfold runT runTX at h ⊢
    rcases hti : ts[i]? with _ | t
    · simp only [hti] at h ⊢; exact ih _ _ _ _ _ h
    cases t with
    | freeing ok p curr k => simp only [hti] at h ⊢; exact stop h
    | idle c =>
      cases c with
      | done => simp only [hti] at h ⊢; exact ih _ _ _ _ _ h
      | call op k =>
        cases op with
        | free ok p =>
          simp only [hti] at h ⊢
          obtain ⟨a, s1, h1, h2⟩ := bind_ok h
          exact bind_ok' h1 (ih _ _ _ _ _ h2)
        | _ =>
          simp only [hti, Bool.and_assoc] at h ⊢
          exact stop h

/-- C32, part 1, about the program as it is. -/
theorem gballoc_threads_partial {g : Ptr} (sched : List Nat) (cs : List Client) (hcs : ∀ c ∈ cs, Fair c) (w : World) (es : List Ent) (hi : w.init = true)
    (s : St) (hf : s.heap.fin) (hr : rel → Reliable s.alloc) (hG : GB g w es s.heap) :
    ∃ log ts' stopped s', runT true g sched (cs.map .idle) s = some (.ok ((log, ts', stopped), s')) ∧ Linear rel g w log s'.heap ∧
      (stopped = false → runT false g sched (cs.map .idle) s = some (.ok ((log, ts', false), s'))) := by
  obtain ⟨⟨log, ts', st⟩, s', h1, h2⟩ := (threads_guarded (rel := rel) (g := g) sched (cs.map .idle) w es hi (by
    intro t ht
    obtain ⟨c, hc, rfl⟩ := List.mem_map.1 ht
    exact hcs c hc)).run s hf hr hG
  refine ⟨log, ts', st, s', h1, h2, ?_⟩
  rintro rfl
  exact guard_only_stops _ _ _ _ _ _ h1

/-- the guard never stops threads that do not free -/
theorem guard_nofree {g : Ptr} (sched : List Nat) : ∀ (ts : List TS), (∀ t ∈ ts, ∃ c, t = .idle c ∧ NoFree c) →
    runT true g sched ts = runT false g sched ts := by
  induction sched with
  | nil => intro ts _; rfl
  | cons i sched ih =>
    intro ts hts
    have hno : otherFreeing ts i = false := by
      unfold otherFreeing
      rw [List.any_eq_false]
      intro j hj
      have hj := List.mem_range.1 hj
      obtain ⟨c, hc, _⟩ := hts _ (List.getElem_mem hj)
      rw [List.getElem?_eq_getElem hj, hc]; simp
    unfold runT runTX
    rcases hti : ts[i]? with _ | t
    · simp only [hti]; exact ih ts hts
    obtain ⟨c, rfl, hc⟩ := hts t (List.mem_of_getElem? hti)
    cases c with
    | done => simp only [hti]; exact ih ts hts
    | call op k =>
      cases hc with
      | call hf hk =>
        have nxt : ∀ o, runT true g sched (ts.set i (.idle (k o))) = runT false g sched (ts.set i (.idle (k o))) := by
          intro o
          apply ih
          intro t ht
          rcases List.mem_or_eq_of_mem_set ht with ht | rfl
          · exact hts t ht
          · exact ⟨k o, rfl, hk o⟩
        cases op with
        | free ok p => exact absurd rfl (hf ok p)
        | _ => simp only [hti, hno, Bool.and_false, Bool.false_eq_true, if_false, nxt]

/-- C32, part 2: threads that allocate and resize (but do not free) are linearizable under every schedule. -/
theorem gballoc_threads_nofree {g : Ptr} (sched : List Nat) (cs : List Client) (hcs : ∀ c ∈ cs, Fair c ∧ NoFree c) (w : World) (es : List Ent)
    (hi : w.init = true) : Triple rel (GB g w es) (runT false g sched (cs.map .idle)) (fun r => Linear rel g w r.1) := by
  rw [← guard_nofree]
  · refine threads_guarded sched _ w es hi ?_
    intro t ht
    obtain ⟨c, hc, rfl⟩ := List.mem_map.1 ht
    exact (hcs c hc).1
  · intro t ht
    obtain ⟨c, hc, rfl⟩ := List.mem_map.1 ht
    exact ⟨c, rfl, (hcs c hc).2⟩

/-! ## What goes wrong without the guard -/

theorem freeLoop_eq4 : freeLoop = freeBody (freeBody (freeBody (freeBody freeLoop))) := by
  rw [← freeLoop_eq, ← freeLoop_eq, ← freeLoop_eq, ← freeLoop_eq]

/-- C32 is false of the code: two blocks, two threads, each frees one.  Thread 0 reads `head`, thread 1 frees the record `head`
points to, thread 0 then follows the freed record. -/
theorem gballoc_free_race : outcome (do
    let g ← globals
    let _ ← gballoc_init g true
    let p1 ← gballoc_malloc g true 1
    let p2 ← gballoc_malloc g true 1
    let r ← runT false g [0, 1, 1, 0] [.idle (.call (.free true p1) fun _ => .done), .idle (.call (.free true p2) fun _ => .done)]
    pure (r.1.map fun e => e.2.2)) (St.start bump) = some (.error (.ub "load from a block that is not live")) := by
  unfold runT freeFrom
  rw [freeLoop_eq4]
  decide +kernel

/-- A second failure, without undefined behaviour: while thread 0 is between reading `head` and taking the lock, thread 1 allocates 20
bytes.  Thread 0 then sets `head` past the new record, and the new block can never be freed: `gballoc_free` does not find it and
the reported usage stays 20. -/
theorem gballoc_lost_record : outcome (do
    let g ← globals
    let _ ← gballoc_init g true
    let p1 ← gballoc_malloc g true 1
    let r ← runT false g [0, 1, 0, 1, 1, 1] [.idle (.call (.free true p1) fun _ => .done),
      .idle (.call (.malloc true 20) fun o => .call (.free true (match o with | .num p => p | _ => 0)) fun _ => .call (.getCur true) fun _ => .done)]
    pure (r.1.map fun e => e.2.2)) (St.start bump) = some (.ok [.num 6, .num 0, .num 0, .num 20]) := by
  unfold runT freeFrom
  rw [freeLoop_eq4]
  decide +kernel

end Verif.Gballoc
