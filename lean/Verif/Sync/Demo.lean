import Verif.Sync.Wake
/-!
# A run in which the hypotheses of the claims hold

Thread 1 makes a lock (block 10) and a condition variable (block 20), takes the lock and waits; thread 2 takes the lock, posts, and
gives the lock up; thread 1 wakes up and has the lock again.
-/
namespace Verif.Sync

/-- one choice: the thread, and what it does -/
inductive Choice where
  | enter (t : Tid) (op : Op)
  | ret (t : Tid)
  /-- the system call is answered with `r` -/
  | call (t : Tid) (r : Nat)
  | broadcast (t : Tid)
  | sleep (t : Tid)
  | wake (t : Tid) (code : Nat)
  | acquire (t : Tid)

/-- memory after a system call -/
def answer (t : Tid) (mem : Nat → Cell) : Sys → Nat → Option (Nat → Cell)
  | .malloc, r => if r = 0 then some mem else if mem r = .free then some (upd mem r .raw) else none
  | .free p, _ => some (upd mem p .free)
  | .mutexInit p, r => some (if r = 0 then upd mem p (.mutex none) else mem)
  | .mutexLock p, r => if r = 0 then (if mem p = .mutex none then some (upd mem p (.mutex (some t))) else none) else some mem
  | .mutexUnlock p, r => some (if r = 0 then upd mem p (.mutex none) else mem)
  | .mutexDestroy p, r => some (if r = 0 then upd mem p .raw else mem)
  | .condInit p, r => if r = 0 then some (upd mem p .cond) else none
  | .condBroadcast _, r => if r = 0 then none else some mem
  | .clock, _ => some mem
  | .condWait _ _ timed, r => if r = 0 then none else if r = ETIMEDOUT ∧ timed = false then none else some mem
  | .condDestroy p, _ => some (upd mem p .raw)

theorem answer_ok {t : Tid} {mem mem' : Nat → Cell} {c : Sys} {r : Nat} (h : answer t mem c r = some mem') : Answers t mem c r mem' := by
  cases c <;> simp only [answer] at h <;> (repeat' split at h) <;> cases h <;> (try subst_vars) <;>
    first
    | constructor <;> assumption
    | constructor
    | (constructor <;> simp_all)
    | skip
  all_goals first | (split; subst_vars; constructor; constructor; assumption) | assumption | (intro e; simp_all)

/-- the state after a choice; `none` if it is not possible -/
def play (s : State) : Choice → Option State
  | .enter t op => match s.thr t with
    | .idle => some { s with thr := upd s.thr t (.run op (body op)), log := s.log ++ [.enter t op] }
    | _ => none
  | .ret t => match s.thr t with
    | .run op (.ret r) => some { s with thr := upd s.thr t .idle, log := s.log ++ [.ret t op r] }
    | _ => none
  | .call t r => match s.thr t with
    | .run op (.call c k) => match answer t s.mem c r with
      | some mem' => some { s with mem := mem', thr := upd s.thr t (.run op (k r)) }
      | none => none
    | _ => none
  | .broadcast t => match s.thr t with
    | .run op (.call (.condBroadcast c) k) => some { s with thr := upd (wakeAll c s.thr) t (.run op (k 0)) }
    | _ => none
  | .sleep t => match s.thr t with
    | .run op (.call (.condWait c m timed) k) => some { s with mem := upd s.mem m (.mutex none), thr := upd s.thr t (.sleep op c m timed k) }
    | _ => none
  | .wake t code => match s.thr t with
    | .sleep op _ m timed k => if code = 0 ∨ (timed = true ∧ code = ETIMEDOUT) then some { s with thr := upd s.thr t (.woken op m code k) } else none
    | _ => none
  | .acquire t => match s.thr t with
    | .woken op m code k => if s.mem m = .mutex none then some { s with mem := upd s.mem m (.mutex (some t)), thr := upd s.thr t (.run op (k code)) } else none
    | _ => none

/-- the choice is one that callers may make -/
def fine (s : State) : Choice → Prop
  | .enter t op => Allowed s.log t op
  | _ => True

theorem play_step {s s' : State} {c : Choice} (h : play s c = some s') (hf : fine s c) : Step Allowed s s' := by
  cases c <;> simp only [play] at h <;> (repeat' split at h) <;> (try (cases h; done)) <;> cases h
  · exact .enter ‹_› hf
  · exact .ret ‹_›
  · exact .call ‹_› (answer_ok ‹_›)
  · exact .broadcast ‹_›
  · exact .sleep ‹_›
  · exact .wake ‹_› ‹_›
  · exact .acquire ‹_› ‹_›

def plays (s : State) : List Choice → Option State
  | [] => some s
  | c :: cs => match play s c with
    | some s' => plays s' cs
    | none => none

/-- all choices are fine -/
def allFine (s : State) : List Choice → Prop
  | [] => True
  | c :: cs => fine s c ∧ match play s c with
    | some s' => allFine s' cs
    | none => True

theorem plays_reach {s s' : State} {cs : List Choice} (hs : Reach Allowed s) (h : plays s cs = some s') (hf : allFine s cs) : Reach Allowed s' := by
  induction cs generalizing s with
  | nil => cases h; exact hs
  | cons c cs ih =>
    simp only [plays] at h
    simp only [allFine] at hf
    cases e : play s c with
    | none => rw [e] at h; cases h
    | some s1 => rw [e] at h hf; exact ih (hs.step (play_step e hf.1)) h hf.2

/-- the story -/
def story : List Choice :=
  [.enter 1 .lockInit, .call 1 10, .call 1 0, .ret 1,
   .enter 1 .condInit, .call 1 20, .call 1 0, .ret 1,
   .enter 1 (.lock 10), .call 1 0, .ret 1,
   .enter 1 (.wait 20 10 0), .sleep 1,
   .enter 2 (.lock 10), .call 2 0, .ret 2,
   .enter 2 (.post 20), .broadcast 2, .ret 2]

def storyLog : Log :=
  [.enter 1 .lockInit, .ret 1 .lockInit (.handle 10), .enter 1 .condInit, .ret 1 .condInit (.handle 20),
   .enter 1 (.lock 10), .ret 1 (.lock 10) (.lock .ok), .enter 1 (.wait 20 10 0),
   .enter 2 (.lock 10), .ret 2 (.lock 10) (.lock .ok), .enter 2 (.post 20), .ret 2 (.post 20) (.cond .ok)]

theorem story_log : (plays .init story).map State.log = some storyLog := by decide +kernel

/-! `Allowed`, decided: only threads that occur in the record matter. -/

def Ev.thread : Ev → Tid
  | .enter t _ | .ret t _ _ => t

theorem inCall_absent {log : Log} {u : Tid} (h : u ∉ log.map Ev.thread) : inCall log u = none := by
  have : ∀ b, (∀ e ∈ log, e.thread ≠ u) → log.foldl (inCallStep u) b = b := by
    clear h
    induction log with
    | nil => intros; rfl
    | cons e log ih =>
      intro b h
      have h1 := h e (List.mem_cons_self ..)
      rw [List.foldl_cons, ih _ fun x hx => h x (List.mem_cons_of_mem _ hx)]
      cases e <;> simp only [Ev.thread] at h1 <;> simp [inCallStep, h1]
  exact this none fun e he k => h (List.mem_map.2 ⟨e, he, k⟩)

theorem held_absent {log : Log} {u : Tid} {h : Nat} (ha : u ∉ log.map Ev.thread) : held log u h = false := by
  have : ∀ b, (∀ e ∈ log, e.thread ≠ u) → log.foldl (heldStep u h) b = b := by
    clear ha
    induction log with
    | nil => intros; rfl
    | cons e log ih =>
      intro b k
      have h1 := k e (List.mem_cons_self ..)
      rw [List.foldl_cons, ih _ fun x hx => k x (List.mem_cons_of_mem _ hx)]
      cases e with
      | enter t op => simp only [Ev.thread] at h1; cases op <;> simp [heldStep, h1]
      | ret t op r =>
        simp only [Ev.thread] at h1
        cases op <;> cases r <;> (try (rename_i r; cases r)) <;> simp [heldStep, h1]
  exact this false fun e he k => ha (List.mem_map.2 ⟨e, he, k⟩)

def callOk (f : Op → Bool) (log : Log) : Bool := (log.map Ev.thread).all fun u => match inCall log u with
  | some op => f op
  | none => true

theorem callOk_all {f : Op → Bool} {log : Log} (h : callOk f log = true) (u : Tid) (op : Op) (k : inCall log u = some op) : f op = true := by
  by_cases e : u ∈ log.map Ev.thread
  · have := List.all_eq_true.1 h u e
    rw [k] at this; exact this
  · rw [inCall_absent e] at k; cases k

def allowedB (log : Log) (t : Tid) : Op → Bool
  | .lockInit | .condInit => true
  | .lock h => h == 0 || (live log h && !held log t h)
  | .unlock h => h == 0 || held log t h
  | .lockDeinit h => h == 0 || (live log h && (log.map Ev.thread).all (fun u => !held log u h) && callOk (fun op => !op.usesLock h) log)
  | .post c => c == 0 || liveC log c
  | .wait c h _ => c == 0 || h == 0 || (liveC log c && held log t h && callOk (fun op => match op with
    | .wait c' h' _ => c' != c || h' == h
    | _ => true) log)
  | .condDeinit c => c == 0 || (liveC log c && callOk (fun op => !op.usesCond c) log)

theorem allowedB_ok {log : Log} {t : Tid} {op : Op} (h : allowedB log t op = true) : Allowed log t op := by
  cases op with
  | lockInit => trivial
  | condInit => trivial
  | lock l => simpa [allowedB, Allowed] using h
  | unlock l => simpa [allowedB, Allowed] using h
  | post c => simpa [allowedB, Allowed] using h
  | lockDeinit l =>
    simp only [allowedB, Bool.or_eq_true, beq_iff_eq, Bool.and_eq_true] at h
    rcases h with h | ⟨⟨h1, h2⟩, h3⟩
    · exact Or.inl h
    · refine Or.inr ⟨h1, fun u => ?_, fun u op k => ?_⟩
      · by_cases e : u ∈ log.map Ev.thread
        · simpa using List.all_eq_true.1 h2 u e
        · exact held_absent e
      · simpa using callOk_all h3 u op k
  | wait c l ms =>
    simp only [allowedB, Bool.or_eq_true, beq_iff_eq, Bool.and_eq_true] at h
    rcases h with (h | h) | ⟨⟨h1, h2⟩, h3⟩
    · exact Or.inl h
    · exact Or.inr (Or.inl h)
    · exact Or.inr (Or.inr ⟨h1, h2, fun u h' ms k => by simpa using callOk_all h3 u _ k⟩)
  | condDeinit c =>
    simp only [allowedB, Bool.or_eq_true, beq_iff_eq, Bool.and_eq_true] at h
    rcases h with h | ⟨h1, h2⟩
    · exact Or.inl h
    · exact Or.inr ⟨h1, fun u op k => by simpa using callOk_all h2 u op k⟩

def allFineB (s : State) : List Choice → Bool
  | [] => true
  | c :: cs => (match c with | .enter t op => allowedB s.log t op | _ => true) && match play s c with
    | some s' => allFineB s' cs
    | none => true

theorem allFineB_ok {s : State} {cs : List Choice} (h : allFineB s cs = true) : allFine s cs := by
  induction cs generalizing s with
  | nil => trivial
  | cons c cs ih =>
    simp only [allFineB, Bool.and_eq_true] at h
    refine ⟨?_, ?_⟩
    · cases c with
      | enter t op => exact allowedB_ok h.1
      | _ => trivial
    · have h2 := h.2
      cases e : play s c with
      | none => trivial
      | some s' => rw [e] at h2; exact ih h2

/-- the state after a list of choices -/
theorem reached {cs : List Choice} {log : Log} (h1 : (plays .init cs).map State.log = some log) (h2 : allFineB .init cs = true) :
    ∃ s, plays .init cs = some s ∧ Reach Allowed s ∧ s.log = log := by
  cases e : plays .init cs with
  | none => rw [e] at h1; cases h1
  | some s => rw [e] at h1; cases h1; exact ⟨s, rfl, plays_reach .init e (allFineB_ok h2), rfl⟩

/-- The hypotheses of `no_lost_wakeup` are met: thread 1 has given the lock 10 up, thread 2 holds it and has posted. -/
theorem story_posted : ∃ s, Reach Allowed s ∧ s.log = storyLog ∧ Posted s.log 1 20 10 0 ∧ held s.log 2 10 = true ∧ live s.log 10 = true ∧ liveC s.log 20 = true := by
  obtain ⟨s, _, h, e⟩ := reached story_log (by decide +kernel)
  refine ⟨s, h, e, ?_, by rw [e]; decide, by rw [e]; decide, by rw [e]; decide⟩
  rw [e]
  refine ⟨storyLog.take 9, [], [], 2, rfl, ⟨storyLog.take 6, [.enter 2 (.lock 10), .ret 2 (.lock 10) (.lock .ok)], [], 2, rfl, by decide, ?_⟩, ?_, ?_⟩ <;>
    intro op r k <;> simp at k

/-- … so thread 1 is awake, and it cannot return yet: the lock is held. -/
example : ∃ s, Reach Allowed s ∧ (∃ code k, s.thr 1 = .woken (.wait 20 10 0) 10 code k) ∧ Contended s.log 1 10 := by
  obtain ⟨s, h, e, p, hh, _⟩ := story_posted
  refine ⟨s, h, ?_, ⟨2, by decide, Or.inl hh⟩⟩
  rcases no_lost_wakeup h p with k | ⟨x, k⟩
  · exact k
  · obtain ⟨pts, hthr, j⟩ := Inv_reach h
    have := (held_live h hh).2
    have o := (j.own 1 10)
    have g := j.good 1
    rw [hthr] at k
    dsimp only at k
    cases e1 : pts 1 <;> rw [e1] at k <;> cases k
    rw [(held_live h hh).2] at o
    exact absurd (o.2 (Or.inr (by rw [e1]; exact ⟨rfl, by decide, by decide⟩))) (by simp)

/-- the rest of the story: thread 2 gives the lock up, thread 1 has it again and releases everything -/
def story2 : List Choice := story ++
  [.enter 2 (.unlock 10), .call 2 0, .ret 2, .acquire 1, .ret 1, .enter 1 (.unlock 10), .call 1 0, .ret 1,
   .enter 1 (.lockDeinit 10), .call 1 0, .call 1 0, .ret 1, .enter 2 (.condDeinit 20), .call 2 0, .call 2 0, .ret 2]

def story2Log : Log := storyLog ++
  [.enter 2 (.unlock 10), .ret 2 (.unlock 10) (.lock .ok), .ret 1 (.wait 20 10 0) (.cond .ok),
   .enter 1 (.unlock 10), .ret 1 (.unlock 10) (.lock .ok), .enter 1 (.lockDeinit 10), .ret 1 (.lockDeinit 10) (.lock .ok),
   .enter 2 (.condDeinit 20), .ret 2 (.condDeinit 20) .none]

/-- The hypotheses of `ledger` are met at the end, and nothing is left. -/
example : ∃ s, Reach Allowed s ∧ s.log = story2Log ∧ (∀ t, inCall s.log t = none) ∧ ∀ p, s.mem p = .free := by
  obtain ⟨s, _, h, e⟩ := reached (cs := story2) (log := story2Log) (by decide +kernel) (by decide +kernel)
  have q : ∀ t, inCall s.log t = none := by
    intro t
    cases k : inCall s.log t with
    | none => rfl
    | some op => have := callOk_all (f := fun _ => false) (log := s.log) (by rw [e]; decide +kernel) t op k; cases this
  refine ⟨s, h, e, q, fun p => ?_⟩
  have l := ledger h q p
  have l1 : live s.log p = false := by
    cases k : live s.log p with
    | false => rfl
    | true =>
      rw [e] at k
      simp [live, story2Log, storyLog, liveStep] at k
  have l2 : liveC s.log p = false := by
    cases k : liveC s.log p with
    | false => rfl
    | true =>
      rw [e] at k
      simp [liveC, story2Log, storyLog, liveCStep] at k
  rw [l1, l2] at l
  simpa using l

/-- A post is not remembered: if nobody waits, a wait that begins after it sleeps. -/
example : ∃ s, Reach Allowed s ∧ s.log = [.enter 1 .lockInit, .ret 1 .lockInit (.handle 10), .enter 1 .condInit, .ret 1 .condInit (.handle 20),
      .enter 2 (.post 20), .ret 2 (.post 20) (.cond .ok), .enter 1 (.lock 10), .ret 1 (.lock 10) (.lock .ok), .enter 1 (.wait 20 10 5)] ∧
    ∃ op timed k, s.thr 1 = .sleep op 20 10 timed k := by
  let cs : List Choice := [.enter 1 .lockInit, .call 1 10, .call 1 0, .ret 1, .enter 1 .condInit, .call 1 20, .call 1 0, .ret 1,
    .enter 2 (.post 20), .broadcast 2, .ret 2, .enter 1 (.lock 10), .call 1 0, .ret 1, .enter 1 (.wait 20 10 5), .call 1 0, .sleep 1]
  obtain ⟨s, hp, h, e⟩ := reached (cs := cs) (log := _) rfl (by decide +kernel)
  refine ⟨s, h, e, ?_⟩
  cases hp
  exact ⟨_, _, _, rfl⟩

/-- The hypotheses of `lock_succeeds` are met while the lock is free. -/
example : ∃ s, Reach Allowed s ∧ inCall s.log 1 = some (.lock 10) ∧ s.thr 1 ≠ .run (.lock 10) (.ret (.lock .error)) ∧ ¬ Contended s.log 1 10 := by
  let cs : List Choice := [.enter 1 .lockInit, .call 1 10, .call 1 0, .ret 1, .enter 1 (.lock 10)]
  obtain ⟨s, hp, h, e⟩ := reached (cs := cs) (log := [.enter 1 .lockInit, .ret 1 .lockInit (.handle 10), .enter 1 (.lock 10)]) rfl (by decide +kernel)
  refine ⟨s, h, by rw [e]; decide, ?_, ?_⟩
  · cases hp; nofun
  · rintro ⟨u, hu, k⟩
    have : u ∉ s.log.map Ev.thread := by rw [e]; simp [Ev.thread, hu]
    rw [held_absent this, inCall_absent this] at k
    simp at k

/-- A timed wait can end with `COND_TIMEOUT`. -/
example : ∃ s, Reach Allowed s ∧ Ev.ret 1 (.wait 20 10 5) (.cond .timeout) ∈ s.log := by
  let cs : List Choice := [.enter 1 .lockInit, .call 1 10, .call 1 0, .ret 1, .enter 1 .condInit, .call 1 20, .call 1 0, .ret 1,
    .enter 1 (.lock 10), .call 1 0, .ret 1, .enter 1 (.wait 20 10 5), .call 1 0, .sleep 1, .wake 1 110, .acquire 1, .ret 1]
  obtain ⟨s, _, h, e⟩ := reached (cs := cs) (log := _) rfl (by decide +kernel)
  exact ⟨s, h, by rw [e]; decide⟩

end Verif.Sync
