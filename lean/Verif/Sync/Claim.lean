import Verif.Sync.Kept
/-!
# Claims about locks and condition variables, for any number of threads and every interleaving

`Reach Allowed s`: `s` is reached by threads that call the functions as `Allowed` says, in any order, with any failures of the
operating system.
-/
namespace Verif.Sync

/-- A lock is held by one thread at most. -/
theorem mutual_exclusion {s : State} (h : Reach Allowed s) {t u : Tid} {l : Nat} (ht : held s.log t l = true) (hu : held s.log u l = true) : t = u := by
  obtain ⟨pts, _, j⟩ := Inv_reach h
  have a := (j.own t l).2 (Or.inl ht)
  have b := (j.own u l).2 (Or.inl hu)
  rw [a] at b
  cases b; rfl

/-- What a thread holds is a lock, and it is not given up meanwhile. -/
theorem held_live {s : State} (h : Reach Allowed s) {t : Tid} {l : Nat} (ht : held s.log t l = true) : live s.log l = true ∧ s.mem l = .mutex (some t) := by
  obtain ⟨pts, _, j⟩ := Inv_reach h
  exact ⟨j.hl t l ht, (j.own t l).2 (Or.inl ht)⟩

/-- No call of the operating system has undefined behaviour. -/
theorem defined {s : State} (h : Reach Allowed s) {t : Tid} {op : Op} {c : Sys} {k : Nat → Prog} (ht : s.thr t = .run op (.call c k)) : Defined s t c := by
  obtain ⟨pts, hthr, j⟩ := Inv_reach h
  have g := j.good t
  have asleep : ∀ {u op p m' timed k}, s.thr u = .sleep op p m' timed k → (pts u).waits = some (p, m') ∧ (pts u).op = some op := by
    intro u op p m' timed k e
    rw [hthr] at e
    dsimp only at e
    cases h : pts u <;> rw [h] at e <;> cases e
    exact ⟨rfl, rfl⟩
  rw [hthr] at ht
  dsimp only at ht
  cases h : pts t with
  | lStart q =>
    rw [h] at ht g; cases ht
    obtain ⟨o, ho⟩ := (j.lv q g.1).2
    refine ⟨o, ho, fun e => ?_⟩
    subst e
    rcases (j.own t q).1 ho with k | k
    · rw [g.2] at k; cases k
    · rw [h] at k; exact k
  | uStart q => rw [h] at ht g; cases ht; exact (j.own t q).2 (Or.inr (by rw [h]; rfl))
  | pStart q => rw [h] at ht g; cases ht; exact (j.lvc q g).2
  | wCall q m ms =>
    rw [h] at ht g; cases ht
    refine ⟨(j.lvc q g.1).2, (j.own t m).2 (Or.inr (by rw [h]; rfl)), fun u op m' timed k e => ?_⟩
    exact j.same u t q m' m (asleep e).1 (by rw [h]; rfl)
  | cdStart q =>
    rw [h] at ht g; cases ht
    refine ⟨g, fun u op m' timed k e => ?_⟩
    have w := (asleep e).1
    have gu := j.good u
    have f := (j.pfree t q (by rw [h]; rfl)).2
    cases h : pts u <;> rw [h] at w gu <;> cases w <;> (rw [gu.1] at f; cases f)
  | iStart => rw [h] at ht; cases ht; trivial
  | ciStart => rw [h] at ht; cases ht; trivial
  | wStart q m ms => rw [h] at ht; cases ht; trivial
  | iRaw q => rw [h] at ht g; cases ht; exact g
  | iFree q => rw [h] at ht g; cases ht; exact g
  | dStart q => rw [h] at ht g; cases ht; exact g
  | dFree q => rw [h] at ht g; cases ht; exact g
  | ciRaw q => rw [h] at ht g; cases ht; exact g
  | cdFree q => rw [h] at ht g; cases ht; exact g
  | _ => rw [h] at ht; cases ht

/-- When no thread is inside a function, exactly the locks and condition variables are allocated. -/
theorem ledger {s : State} (h : Reach Allowed s) (quiet : ∀ t, inCall s.log t = none) (p : Nat) :
    s.mem p ≠ .free ↔ (live s.log p = true ∨ liveC s.log p = true) := by
  obtain ⟨pts, _, j⟩ := Inv_reach h
  constructor
  · intro k
    rcases j.all p k with k | k | ⟨t, k⟩
    · exact Or.inl k
    · exact Or.inr k
    · have := quiet t
      rw [j.call t] at this
      cases e : pts t <;> rw [e] at this k <;> cases this
      cases k
  · rintro (k | k)
    · obtain ⟨o, e⟩ := (j.lv p k).2; rw [e]; nofun
    · rw [(j.lvc p k).2]; nofun

/-- every return in the record was a step -/
theorem ret_step {s : State} (h : Reach Allowed s) {l1 l2 : Log} {t : Tid} {op : Op} {r : Ret} (e : s.log = l1 ++ .ret t op r :: l2) :
    ∃ s1, Reach Allowed s1 ∧ s1.log = l1 ∧ s1.thr t = .run op (.ret r) := by
  induction h generalizing l2 with
  | init => simp [State.init] at e
  | @step s s' hs h ih =>
    rcases List.eq_nil_or_concat l2 with rfl | ⟨l3, x, rfl⟩
    · cases h with
      | @enter u op' h1 h2 => exact absurd (List.append_inj_right' e rfl) (by simp)
      | @ret u op' r' h1 =>
        have e1 := List.append_inj_left' e rfl
        have e2 := List.append_inj_right' e rfl
        cases e2
        exact ⟨s, hs, e1, h1⟩
      | _ => exact ih e
    · have e3 : l1 ++ .ret t op r :: (l3 ++ [x]) = (l1 ++ .ret t op r :: l3) ++ [x] := by simp
      cases h with
      | enter h1 h2 => rw [List.concat_eq_append, e3] at e; exact ih (List.append_inj_left' e rfl)
      | ret h1 => rw [List.concat_eq_append, e3] at e; exact ih (List.append_inj_left' e rfl)
      | _ => exact ih e

theorem ret_mem {s : State} (h : Reach Allowed s) {t : Tid} {op : Op} {r : Ret} (e : Ev.ret t op r ∈ s.log) :
    ∃ pt : Pt, pt.thr = .run op (.ret r) ∧ ∃ pts mem log, J pts mem log ∧ pts t = pt := by
  obtain ⟨l1, l2, e⟩ := List.append_of_mem e
  obtain ⟨s1, h1, _, h2⟩ := ret_step h e
  obtain ⟨pts, hthr, j⟩ := Inv_reach h1
  rw [hthr] at h2
  exact ⟨pts t, h2, pts, s1.mem, s1.log, j, rfl⟩

/-- A handle that is returned is new: it is neither a lock nor a condition variable at that moment. -/
theorem handle_new {s : State} (h : Reach Allowed s) {l1 l2 : Log} {t : Tid} {op : Op} {p : Nat} (hp : p ≠ 0) (e : s.log = l1 ++ .ret t op (.handle p) :: l2) :
    live l1 p = false ∧ liveC l1 p = false := by
  obtain ⟨s1, h1, rfl, h2⟩ := ret_step h e
  obtain ⟨pts, hthr, j⟩ := Inv_reach h1
  rw [hthr] at h2
  dsimp only at h2
  refine j.pfree t p ?_
  cases e : pts t <;> rw [e] at h2 <;> cases h2 <;> simp [Pt.pend, hp]

end Verif.Sync
