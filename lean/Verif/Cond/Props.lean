import Verif.Cond.Spec
import Verif.Tac
/-! # C50: condition variables -/
namespace Verif.Cond
variable {rel : Prop} {os : Os} {Net : List Ev → HProp} {C : Nat → HProp}

/-- A condition handle: `true` is initialised, `false` is memory on which `pthread_cond_init` failed. -/
def CondR (C : Nat → HProp) (p : Ptr) (a : Bool) : HProp :=
  (p ≠ 0) ⋏ if a then C p else ∃∃ b : Block, (b.length = 6) ⋏ p ↦ b

theorem long_spec {v : Int} (h : -(2 ^ 63) ≤ v ∧ v < 2 ^ 63) : Triple rel emp (long v) (fun r => (r = v) ⋏ emp) := by
  unfold long; rw [if_pos h]; exact Triple.ret

theorem Condition_Init_spec (H : Honours rel os Net C) (tr : List Ev) :
    Triple rel (Net tr) (Condition_Init os)
      (fun h => ∃∃ a' tr', (InitE (¬ rel) tr h a' tr') ⋏ ORep (CondR C) h a' ∗ Net tr') := by
  unfold Condition_Init
  refine Triple.mallocS (by decide) (fun hr => ?_) fun p hp => ?_
  · rw [if_neg (by simp)]
    refine Triple.pure (entails_ex_r none (entails_ex_r tr (entails_pand_r ?_ (Or.inl ⟨rfl, hr, rfl, rfl⟩))))
    rw [ORep_null, emp_sep]; exact entails_refl _
  · rw [if_pos hp]
    step (H.init p time_basis tr [.undef, .undef, .undef, .undef, .undef, .undef] rfl) into r
    refine Triple.pure (entails_ex_r (some (decide (r = 0))) (entails_ex_r _ (entails_pand_r ?_ (Or.inr ⟨r, hp, rfl, rfl⟩))))
    rw [ORep_some, CondR, pand_sep]
    refine entails_pand_r ?_ hp
    by_cases h : r = 0
    · simp only [h, decide_true, if_true]; sep_cancel
    · simp only [h, decide_false, if_false, Bool.false_eq_true]; sep_cancel

theorem Condition_Post_spec (H : Honours rel os Net C) (p : Ptr) (a : Option Bool) (ha : a ≠ some false) (tr : List Ev) :
    Triple rel (ORep (CondR C) p a ∗ Net tr) (Condition_Post os p)
      (fun r => ∃∃ tr', (PostE p tr r tr') ⋏ ORep (CondR C) p a ∗ Net tr') := by
  unfold Condition_Post
  cases a with
  | none =>
    rw [ORep_none]; hoist; rintro rfl
    rw [if_pos rfl]
    refine Triple.pure (entails_ex_r tr (entails_pand_r ?_ ⟨rfl, rfl⟩))
    rw [pand_sep, emp_sep]
    exact entails_pand_r (entails_refl _) rfl
  | some b =>
    cases b with
    | false => exact absurd rfl ha
    | true =>
      simp only [ORep_some, CondR, if_true]
      hoist; intro hp
      rw [if_neg hp]
      step (H.broadcast p tr) into r
      refine Triple.ite (fun hr => Triple.pure ?_) fun hr => Triple.pure ?_ <;>
      · refine entails_ex_r _ (entails_pand_r ?_ (by rw [PostE, if_neg hp]; exact ⟨r, rfl, by simp [hr]⟩))
        rw [pand_sep]; exact entails_pand_r (by sep_cancel) hp

/-- the deadline arithmetic of `Condition_Wait` -/
theorem deadline {now : Timespec} (hv : now.valid) {ms : Int} (h0 : 0 < ms) :
    let n := now.nsec + ms.tmod 1000 * 1000000
    let t : Timespec := ⟨now.sec + ms.tdiv 1000 + n.tdiv 1000000000, n.tmod 1000000000⟩
    t.valid ∧ t.ns = now.ns + ms * 1000000 := by
  intro n t
  obtain ⟨h1, h2⟩ := hv
  have e1 : ms.tmod 1000 = ms % 1000 := Int.tmod_eq_emod_of_nonneg (by omega)
  have e2 : ms.tdiv 1000 = ms / 1000 := Int.tdiv_eq_ediv_of_nonneg (by omega)
  have hn : 0 ≤ n := by simp only [n, e1]; omega
  have e3 : n.tmod 1000000000 = n % 1000000000 := Int.tmod_eq_emod_of_nonneg hn
  have e4 : n.tdiv 1000000000 = n / 1000000000 := Int.tdiv_eq_ediv_of_nonneg hn
  have hn' : n = now.nsec + ms % 1000 * 1000000 := by simp only [n, e1]
  simp only [t, Timespec.valid, Timespec.ns, e2, e3, e4]
  constructor
  · omega
  · omega

theorem Condition_Wait_spec (H : Honours rel os Net C) (p lock : Ptr) (ms : Int) (hms : ms < 2 ^ 31)
    (a : Option Bool) (ha : a ≠ some false) (tr : List Ev) :
    Triple rel (ORep (CondR C) p a ∗ Net tr) (Condition_Wait os p lock ms)
      (fun r => ∃∃ tr', (WaitE p lock ms tr r tr') ⋏ ORep (CondR C) p a ∗ Net tr') := by
  unfold Condition_Wait
  refine Triple.ite (fun h => Triple.pure (entails_ex_r tr (entails_pand_r (entails_refl _) (by rw [WaitE, if_pos h]; exact ⟨rfl, rfl⟩)))) fun h => ?_
  cases a with
  | none => rw [ORep_none]; hoist; intro hp; exact absurd (Or.inl hp) h
  | some b =>
    cases b with
    | false => exact absurd rfl ha
    | true =>
      simp only [ORep_some, CondR, if_true]
      hoist; intro hp
      refine Triple.ite (fun hm => ?_) fun hm => ?_
      · step (H.gettime time_basis tr) into now
        intro hv hlo hhi
        have hd := deadline hv hm
        have hv' := hv
        obtain ⟨h1, h2⟩ := hv'
        have e1 : ms.tmod 1000 = ms % 1000 := Int.tmod_eq_emod_of_nonneg (by omega)
        have e2 : ms.tdiv 1000 = ms / 1000 := Int.tdiv_eq_ediv_of_nonneg (by omega)
        have e4 : (now.nsec + ms.tmod 1000 * 1000000).tdiv 1000000000 = (now.nsec + ms.tmod 1000 * 1000000) / 1000000000 :=
          Int.tdiv_eq_ediv_of_nonneg (by rw [e1]; omega)
        step (long_spec (v := ms.tmod 1000 * 1000000) (by rw [e1]; omega))
        step (long_spec (v := now.nsec + ms.tmod 1000 * 1000000) (by rw [e1]; omega))
        step (long_spec (v := now.sec + ms.tdiv 1000) (by rw [e2]; omega))
        step (long_spec (v := now.sec + ms.tdiv 1000 + (now.nsec + ms.tmod 1000 * 1000000).tdiv 1000000000) (by rw [e2, e4, e1]; omega))
        step (H.timedwait p lock _ (tr ++ [.gettime time_basis now]) hd.1) into r
        have fin : ∀ o, (o = if r = 0 then COND_RESULT.ok else if r = 110 then .timeout else .error) →
            (Net (tr ++ [Ev.gettime time_basis now] ++ [.timedwait p lock ⟨now.sec + ms.tdiv 1000 + (now.nsec + ms.tmod 1000 * 1000000).tdiv 1000000000, (now.nsec + ms.tmod 1000 * 1000000).tmod 1000000000⟩ r]) ∗ C p)
              ⊢ₕ ∃∃ tr', (WaitE p lock ms tr o tr') ⋏ ((p ≠ 0) ⋏ C p) ∗ Net tr' := by
          intro o ho
          rw [List.append_assoc]
          refine entails_ex_r _ (entails_pand_r ?_ (by
            rw [WaitE, if_neg h, if_pos hm]; exact ⟨now, _, r, rfl, hd.1, hd.2, ho⟩))
          rw [pand_sep]; exact entails_pand_r (by sep_cancel) hp
        refine Triple.ite (fun hr => Triple.pure (fin _ ?_)) fun hr => Triple.ite (fun hr' => Triple.pure (fin _ ?_)) fun hr' => Triple.pure (fin _ ?_)
        · rw [hr]; decide
        · simp [hr']
        · have : r ≠ 110 := hr
          simp [hr', this]
      · step (H.wait p lock tr) into r
        refine Triple.ite (fun hr => Triple.pure ?_) fun hr => Triple.pure ?_
        all_goals
          refine entails_ex_r _ (entails_pand_r ?_ (by
            rw [WaitE, if_neg h, if_neg (show ¬ 0 < ms from hm)]; exact ⟨r, rfl, by simp_all⟩))
          rw [pand_sep]; exact entails_pand_r (by sep_cancel) hp

theorem Condition_Deinit_spec (H : Honours rel os Net C) (p : Ptr) (a : Option Bool) (ha : a ≠ some false) (tr : List Ev) :
    Triple rel (ORep (CondR C) p a ∗ Net tr) (Condition_Deinit os p)
      (fun _ => ∃∃ tr', (if p = 0 then tr' = tr else ∃ r, tr' = tr ++ [.destroy p r]) ⋏ Net tr') := by
  unfold Condition_Deinit
  cases a with
  | none =>
    rw [ORep_none]; hoist; rintro rfl
    rw [if_neg (by simp)]
    exact Triple.pure (entails_ex_r tr (entails_pand_r (entails_refl _) (by simp)))
  | some b =>
    cases b with
    | false => exact absurd rfl ha
    | true =>
      simp only [ORep_some, CondR, if_true]
      hoist; intro hp
      rw [if_pos hp]
      step (H.destroy p tr) into r
      intro b hb
      last free_spec
      rw [emp_sep]
      exact entails_ex_r _ (entails_pand_r (entails_refl _) (by rw [if_neg hp]; exact ⟨r, rfl⟩))

/-! ## A concrete operating system -/

/-- the clock stands at 5 s 999 999 999 ns; waits with a deadline time out -/
def demoOs : Os where
  cond_init _ _ := pure 0
  cond_destroy _ := pure 0
  cond_broadcast _ := pure 0
  cond_wait _ _ := pure 0
  cond_timedwait _ _ t := if t.sec = 8 ∧ t.nsec = 0 + 499999999 then pure 110 else ub "unexpected deadline"
  clock_gettime _ := pure ⟨5, 999999999⟩

/-- a carry into the seconds: 5.999999999 s + 2500 ms = 8.499999999 s -/
example : outcome (do let h ← Condition_Init demoOs; let r ← Condition_Wait demoOs h 7 2500; let q ← Condition_Wait demoOs h 0 2500
                      let p ← Condition_Post demoOs h; Condition_Deinit demoOs h; pure (r, q, p)) (St.start bump)
    = some (.ok (.timeout, .invalid_arg, .ok)) := by decide +kernel

/-- an operating system that accepts every valid deadline -/
def anyOs (code : Int) : Os where
  cond_init _ _ := pure 0
  cond_destroy _ := pure 0
  cond_broadcast _ := pure code
  cond_wait _ _ := pure code
  cond_timedwait _ _ t := if 0 ≤ t.nsec ∧ t.nsec < 1000000000 then pure code else ub "invalid deadline"
  clock_gettime _ := pure ⟨5, 999999999⟩

/-- the contract can be met, with any result code -/
theorem anyOs_honours (code : Int) : Honours rel (anyOs code) (fun _ => emp) (fun p => ∃∃ b : Block, (b.length = 6) ⋏ p ↦ b) := by
  constructor
  · intro p c tr b hb
    refine Triple.pure ?_
    rw [emp_sep, emp_sep, if_pos rfl]
    exact entails_ex_r b (entails_pand_r (entails_refl _) hb)
  · intro p tr; exact Triple.pure (entails_refl _)
  · intro p tr; exact Triple.pure (entails_refl _)
  · intro p m tr; exact Triple.pure (entails_refl _)
  · intro p m t tr h
    simp only [Timespec.valid] at h
    simp only [anyOs, if_pos h]
    exact Triple.pure (entails_refl _)
  · intro c tr
    exact Triple.pure (entails_pand_r (entails_refl _) (by unfold Timespec.valid; decide))

/-! ## C56: the result of `pthread_cond_init` is ignored -/

/-- an operating system on which no condition variable can be initialised -/
def noCondOs : Os := { anyOs 0 with cond_init := fun _ _ => pure 12 }

/-- The full property fails: the initialisation is refused, and still a handle is returned. -/
theorem Condition_Init_ignores_failure :
    outcome (Condition_Init noCondOs) (St.start bump) = some (.ok 1) := by decide +kernel

/-- Part of C56: if the operating system never refuses to initialise a condition variable, a handle is a usable
condition variable, and `NULL` means memory was refused.  Missing: refused initialisations. -/
theorem Condition_Init_partial
    (hok : ∀ p c tr b, b.length = 6 → Triple rel (Net tr ∗ p ↦ b) (os.cond_init p c) (fun r => (r = 0) ⋏ Net (tr ++ [.init p c r]) ∗ C p))
    (tr : List Ev) :
    Triple rel (Net tr) (Condition_Init os)
      (fun h => if h = 0 then (¬ rel) ⋏ Net tr else Net (tr ++ [.init h 1 0]) ∗ C h) := by
  unfold Condition_Init
  refine Triple.mallocS (by decide) (fun hr => ?_) fun p hp => ?_
  · rw [if_neg (by simp)]
    refine Triple.pure ?_
    rw [if_pos rfl]; exact entails_pand_r (entails_refl _) hr
  · rw [if_pos hp]
    step (hok p time_basis tr [.undef, .undef, .undef, .undef, .undef, .undef] rfl) into r
    intro hr0
    subst hr0
    refine Triple.pure ?_
    rw [if_neg hp]; exact entails_refl _

/-- the hypothesis can be met -/
example : Triple rel emp (Condition_Init (anyOs 0))
    (fun h => if h = 0 then (¬ rel) ⋏ emp else emp ∗ ∃∃ b : Block, (b.length = 6) ⋏ h ↦ b) :=
  Condition_Init_partial (os := anyOs 0) (Net := fun _ => emp) (C := fun p => ∃∃ b : Block, (b.length = 6) ⋏ p ↦ b)
    (fun p c tr b hb => Triple.pure (by
      rw [emp_sep, emp_sep]; exact entails_pand_r (entails_ex_r b (entails_pand_r (entails_refl _) hb)) rfl)) []

end Verif.Cond
