import Verif.Thr.Spec
import Verif.Tac
/-! # C51: threads -/
namespace Verif.Thr
variable {rel : Prop}

theorem Pool_mono {A : Type} {R R' : Ptr → A → HProp} (h : ∀ p a, R p a ⊢ₕ R' p a) (l : List (Nat × A)) : Pool R l ⊢ₕ Pool R' l := by
  induction l with
  | nil => exact entails_refl _
  | cons x l ih => exact sep_mono (h _ _) ih

theorem Own_mono {A : Type} {R R' : Ptr → A → HProp} (h : ∀ p a, R p a ⊢ₕ R' p a) (env : List Nat) (as : List A) :
    Own R env as ⊢ₕ Own R' env as := by
  unfold Own
  exact entails_pand_l fun hl => entails_pand_r (Pool_mono h _) hl

/-- the handle of thread number `t` -/
def InstR (threads : List AThread) (p : Ptr) (t : Nat) : HProp :=
  ∃∃ fn arg st, (threads[t]? = some ⟨fn, arg, st⟩) ⋏ p ↦ [.int t, .ptr fn, .ptr arg]

/-- the operating system's view of a thread and the specification's -/
def Match : Thread → AThread → Prop
  | ⟨_, .ready⟩, ⟨_, _, .ready⟩ => True
  | ⟨_, .running f a⟩, ⟨fn, arg, .running⟩ => f = fn ∧ a = arg
  | ⟨_, .done v⟩, ⟨_, _, .done r⟩ => v = toVoid r ∧ -(2 ^ 31) ≤ r ∧ r < 2 ^ 31
  | _, _ => False

structure Corr (env : List Nat) (sys : Sys) (x : Abs) : Prop where
  len : sys.length = x.threads.length
  same : ∀ (t : Nat) a b, sys[t]? = some a → x.threads[t]? = some b → Match a b
  /-- a thread that has not started yet still has its instance -/
  held : ∀ (t : Nat) inst, sys[t]? = some ⟨inst, .ready⟩ → ∃ i : Nat, env[i]? = some inst ∧ x.handles[i]? = some (some t)

def Inv (e : List Nat × Sys) (x : Abs) : HProp :=
  (Corr e.1 e.2 x) ⋏ Own (ORep (InstR x.threads)) e.1 x.handles

/-- the client and the scheduler -/
def exec (op : Op) (e : List Nat × Sys) : M (Out × List Nat × Sys) :=
  match op with
  | .create code haveOut fn arg => do
    let r ← ThreadAPI_Create e.2 code haveOut fn arg
    pure (.ret r.1 none, e.1 ++ [r.2.1.getD 0], r.2.2)
  | .join code i wantRes =>
    match e.1[i]? with
    | none => pure (.nothing, e)
    | some h => do
      let r ← ThreadAPI_Join e.2 code h wantRes
      match r with
      | none => pure (.nothing, e)
      | some (c, v) => pure (.ret c v, e.1.set i 0, e.2)
  | .start t => do
    let r ← ThreadWrapper_start e.2 t
    pure (match r.1 with | some (fn, arg) => .called fn arg | none => .nothing, e.1, r.2)
  | .finish t result => pure (.nothing, e.1, ThreadWrapper_end e.2 t result)

theorem toInt_toVoid {r : Int} (h1 : -(2 ^ 31) ≤ r) (h2 : r < 2 ^ 31) : toInt (toVoid r) = r := by
  unfold toInt toVoid
  split <;> omega

theorem Match_ready {a : Thread} {fn arg : Nat} (h : Match a ⟨fn, arg, .ready⟩) : a.phase = .ready := by
  obtain ⟨inst, ph⟩ := a
  cases ph <;> simp_all [Match]
theorem Match_running {a : Thread} {fn arg : Nat} (h : Match a ⟨fn, arg, .running⟩) : a.phase = .running fn arg := by
  obtain ⟨inst, ph⟩ := a
  cases ph <;> simp_all [Match]
theorem Match_done {a : Thread} {fn arg : Nat} {r : Int} (h : Match a ⟨fn, arg, .done r⟩) :
    a.phase = .done (toVoid r) ∧ -(2 ^ 31) ≤ r ∧ r < 2 ^ 31 := by
  obtain ⟨inst, ph⟩ := a
  cases ph <;> simp_all [Match]

theorem get_both {env : List Nat} {sys : Sys} {x : Abs} (hc : Corr env sys x) {t : Nat} {b : AThread} (hb : x.threads[t]? = some b) :
    ∃ a, sys[t]? = some a ∧ Match a b := by
  obtain ⟨h1, h2⟩ := List.getElem?_eq_some_iff.1 hb
  have h : t < sys.length := by rw [hc.len]; exact h1
  exact ⟨sys[t], List.getElem?_eq_getElem h, hc.same t _ _ (List.getElem?_eq_getElem h) hb⟩

theorem get_none' {env : List Nat} {sys : Sys} {x : Abs} (hc : Corr env sys x) {t : Nat} (hb : x.threads[t]? = none) : sys[t]? = none := by
  rw [List.getElem?_eq_none_iff] at *; rw [hc.len]; exact hb

theorem Own_none {R : Ptr → Nat → HProp} {env : List Nat} {as : List (Option Nat)} :
    Own (ORep R) env as ⊢ₕ Own (ORep R) (env ++ [0]) (as ++ [none]) := by
  refine entails_trans ?_ (Own_snoc (h := 0) (a := none))
  rw [ORep_null, emp_sep]; exact entails_refl _

theorem held_snoc {env : List Nat} {sys : Sys} {x : Abs} (hc : Corr env sys x) (hl : env.length = x.handles.length) (h : Nat) (a : Option Nat) :
    ∀ (t : Nat) inst, sys[t]? = some ⟨inst, .ready⟩ → ∃ i : Nat, (env ++ [h])[i]? = some inst ∧ (x.handles ++ [a])[i]? = some (some t) := by
  intro t inst ht
  obtain ⟨i, h1, h2⟩ := hc.held t inst ht
  obtain ⟨g1, _⟩ := List.getElem?_eq_some_iff.1 h1
  refine ⟨i, ?_, ?_⟩
  · rw [List.getElem?_append_left g1]; exact h1
  · rw [List.getElem?_append_left (by omega)]; exact h2

theorem create_spec (code : Int) (haveOut : Bool) (fn arg : Nat) (e : List Nat × Sys) (x : Abs) :
    Triple rel (Inv e x) (exec (.create code haveOut fn arg) e)
      (fun r => ∃∃ x', (step (¬ rel) x (.create code haveOut fn arg) r.1 x') ⋏ Inv r.2 x') := by
  obtain ⟨env, sys⟩ := e
  unfold Inv exec
  hoist
  intro hc
  dsimp only at hc ⊢
  refine Triple.know (φ := env.length = x.handles.length) (fun h hh => hh.1) fun hl => ?_
  have fail : ∀ (c : THREADAPI_RESULT), step (¬ rel) x (.create code haveOut fn arg) (.ret c none) ⟨x.handles ++ [none], x.threads⟩ →
      Own (ORep (InstR x.threads)) env x.handles ⊢ₕ
      ∃∃ x', (step (¬ rel) x (.create code haveOut fn arg) (.ret c none) x') ⋏ (Corr (env ++ [0]) sys x') ⋏ Own (ORep (InstR x'.threads)) (env ++ [0]) x'.handles := by
    intro c hs
    exact entails_ex_r ⟨x.handles ++ [none], x.threads⟩ (entails_pand_r (entails_pand_r Own_none ⟨hc.len, hc.same, held_snoc hc hl 0 none⟩) hs)
  unfold ThreadAPI_Create
  by_cases hbad : haveOut = false ∨ fn = 0
  · rw [if_pos hbad]
    refine Triple.bind_pure (Triple.pure (fail _ (Or.inr ⟨rfl, Or.inl ⟨hbad, rfl⟩⟩)))
  rw [if_neg hbad]
  have hb : haveOut = true ∧ fn ≠ 0 := by
    cases haveOut <;> simp_all
  simp only [bind_assoc]
  refine Triple.mallocS (by decide) (fun hr => ?_) fun p hp => ?_
  · rw [if_pos rfl]
    refine Triple.bind_pure (Triple.pure (fail _ (Or.inr ⟨rfl, Or.inr (Or.inl ⟨hb.1, hb.2, Or.inl hr, rfl⟩)⟩)))
  rw [if_neg hp]
  hoist
  simp only [bind_assoc]
  stepd (store_spec ?_)
  stepd (store_spec ?_)
  unfold pthread_create
  by_cases h0 : code = 0
  · simp only [if_pos h0, if_true, bind_assoc]
    stepd (store_spec ?_)
    refine Triple.bind_pure (Triple.pure ?_)
    refine entails_ex_r ⟨x.handles ++ [some x.threads.length], x.threads ++ [⟨fn, arg, .ready⟩]⟩ (entails_pand_r (entails_pand_r ?_ ?_) (Or.inl ⟨h0, hb.1, hb.2, rfl, rfl⟩))
    · dsimp only [Option.getD_some]
      refine entails_trans ?_ (Own_snoc (R := ORep (InstR (x.threads ++ [⟨fn, arg, .ready⟩]))) (h := p) (a := some x.threads.length))
      refine sep_mono ?_ (Own_mono ?_ _ _)
      · rw [ORep_some]
        refine entails_ex_r fn (entails_ex_r arg (entails_ex_r .ready (entails_pand_r ?_ (by simp))))
        rw [hc.len]; exact entails_refl _
      · intro q a
        cases a with
        | none => exact entails_refl _
        | some t =>
          simp only [ORep_some, InstR]
          refine entails_ex_l fun f => entails_ex_l fun g => entails_ex_l fun st => entails_pand_l fun h =>
            entails_ex_r f (entails_ex_r g (entails_ex_r st (entails_pand_r (entails_refl _) ?_)))
          obtain ⟨h1, _⟩ := List.getElem?_eq_some_iff.1 h
          rw [List.getElem?_append_left h1]; exact h
    · refine ⟨by simp [hc.len], ?_, ?_⟩
      · intro t a b ha hb'
        rcases Nat.lt_or_ge t sys.length with ht | ht
        · rw [List.getElem?_append_left ht] at ha
          rw [List.getElem?_append_left (by rw [← hc.len]; exact ht)] at hb'
          exact hc.same t a b ha hb'
        · rw [List.getElem?_append_right ht] at ha
          rw [List.getElem?_append_right (by rw [← hc.len]; exact ht)] at hb'
          have e : t - sys.length = 0 := by
            rcases Nat.eq_zero_or_pos (t - sys.length) with h | h
            · exact h
            · rw [List.getElem?_eq_none (by simp only [List.length_singleton]; omega)] at ha; simp at ha
          rw [e] at ha
          rw [← hc.len, e] at hb'
          simp at ha hb'
          subst ha; subst hb'; trivial
      · intro t inst ht
        rcases Nat.lt_or_ge t sys.length with h | h
        · rw [List.getElem?_append_left h] at ht
          exact held_snoc hc hl p _ t inst ht
        · rw [List.getElem?_append_right h] at ht
          have e : t - sys.length = 0 := by
            rcases Nat.eq_zero_or_pos (t - sys.length) with h | h
            · exact h
            · rw [List.getElem?_eq_none (by simp only [List.length_singleton]; omega)] at ht; simp at ht
          rw [e] at ht
          simp at ht
          subst ht
          refine ⟨env.length, by simp, ?_⟩
          have : t = x.threads.length := by rw [← hc.len]; omega
          simp only
          rw [hl, List.getElem?_append_right (Nat.le_refl _)]
          simp [this]
  · simp only [if_neg h0]
    refine Triple.pre_eq rfl ?_
    by_cases h11 : code = EAGAIN
    · simp only [if_pos h11, bind_assoc]
      step free_spec
      refine Triple.bind_pure (Triple.pure (fail _ (Or.inr ⟨rfl, Or.inr (Or.inl ⟨hb.1, hb.2, Or.inr h11, rfl⟩)⟩)))
    · simp only [if_neg h11, bind_assoc]
      step free_spec
      refine Triple.bind_pure (Triple.pure (fail _ (Or.inr ⟨rfl, Or.inr (Or.inr ⟨hb.1, hb.2, h0, h11, rfl⟩)⟩)))

theorem Corr_gone {env : List Nat} {sys : Sys} {x : Abs} (hc : Corr env sys x) {i t : Nat} (hi : x.handles[i]? = some (some t))
    (ht : ∀ inst, sys[t]? ≠ some ⟨inst, .ready⟩) : Corr (env.set i 0) sys ⟨x.handles.set i none, x.threads⟩ := by
  refine ⟨hc.len, hc.same, fun u inst hu => ?_⟩
  obtain ⟨j, h1, h2⟩ := hc.held u inst hu
  have hj : i ≠ j := by
    rintro rfl
    rw [hi] at h2; simp at h2; subst h2
    exact ht inst hu
  exact ⟨j, by rw [List.getElem?_set_ne hj]; exact h1, by rw [List.getElem?_set_ne hj]; exact h2⟩

theorem join_spec (code : Int) (i : Nat) (w : Bool) (e : List Nat × Sys) (x : Abs) :
    Triple rel (Inv e x) (exec (.join code i w) e)
      (fun r => ∃∃ x', (step (¬ rel) x (.join code i w) r.1 x') ⋏ Inv r.2 x') := by
  obtain ⟨env, sys⟩ := e
  unfold Inv
  hoist
  intro hc
  try dsimp only at hc
  try dsimp only
  refine Triple.know (φ := env.length = x.handles.length) (fun h hh => hh.1) fun hl => ?_
  simp only [exec]
  cases hi : env[i]? with
  | none =>
    refine Triple.pure (entails_ex_r x (entails_pand_r (entails_pand_r (entails_refl _) hc) ?_))
    simp only [step, get_none hl hi]; exact ⟨by trivial, by trivial⟩
  | some h =>
    obtain ⟨a, F, ha, h2, h3⟩ := Own_get (R := ORep (InstR x.threads)) hi hl
    dsimp only
    unfold ThreadAPI_Join
    cases a with
    | none =>
      rw [h2, ORep_none]; hoist; intro h0
      rw [if_pos h0]
      refine Triple.bind_pure (Triple.pure (entails_ex_r x (entails_pand_r (entails_pand_r ?_ ?_) ?_)))
      · dsimp only
        have hx : x.handles.set i none = x.handles := set_self ha
        have := h3 0 none
        rw [hx] at this
        rw [this, ORep_null, emp_sep]; exact entails_refl _
      · subst h0
        rw [set_self hi]; exact hc
      · simp only [step, ha]; exact ⟨by trivial, by trivial⟩
    | some t =>
      rw [h2, ORep_some, InstR]; hoist; intro fn arg st hst
      refine Triple.know (know_pts (p := h) (φ := h ≠ 0) (by pick) fun h1 _ => h1) fun hp => ?_
      rw [if_neg hp]
      simp only [bind_assoc]
      stepd (loadInt_spec (n := t) ?_)
      obtain ⟨th, hth, hm⟩ := get_both hc hst
      obtain ⟨inst, ph⟩ := th
      have back : h ↦ [.int t, .ptr fn, .ptr arg] ∗ F ⊢ₕ Own (ORep (InstR x.threads)) env x.handles := by
        rw [h2, ORep_some]
        refine sep_mono ?_ (entails_refl _)
        exact entails_ex_r fn (entails_ex_r arg (entails_ex_r st (entails_pand_r (entails_refl _) hst)))
      have gone : F ⊢ₕ Own (ORep (InstR x.threads)) (env.set i 0) (x.handles.set i none) := by
        rw [h3, ORep_null, emp_sep]; exact entails_refl _
      cases st with
      | ready =>
        have hph := Match_ready hm
        dsimp only at hph; subst hph
        simp only [pthread_join, hth, pure_bind]
        refine Triple.pure (entails_ex_r x (entails_pand_r (entails_pand_r back hc) ?_))
        simp only [step, ha, hst, Option.map_some]; exact ⟨by trivial, by trivial⟩
      | running =>
        have hph := Match_running hm
        dsimp only at hph; subst hph
        have hnr : ∀ inst, sys[t]? ≠ some ⟨inst, .ready⟩ := by rw [hth]; intro j; simp
        by_cases h0 : code = 0
        · simp only [pthread_join, hth, if_pos h0, pure_bind]
          refine Triple.pure (entails_ex_r x (entails_pand_r (entails_pand_r back hc) ?_))
          simp only [step, ha, hst, Option.map_some, if_pos h0]; exact ⟨by trivial, by trivial⟩
        · simp only [pthread_join, hth, if_neg h0, ne_eq, bind_assoc, pure_bind]
          step free_spec
          refine Triple.pure (entails_ex_r ⟨x.handles.set i none, x.threads⟩ (entails_pand_r (entails_pand_r gone (Corr_gone hc ha hnr)) ?_))
          simp only [step, ha, hst, Option.map_some, if_neg h0]; refine ⟨by trivial, ?_⟩; rw [if_pos h0]
      | done r =>
        obtain ⟨hph, hr1, hr2⟩ := Match_done hm
        dsimp only at hph; subst hph
        have hnr : ∀ inst, sys[t]? ≠ some ⟨inst, .ready⟩ := by rw [hth]; intro j; simp
        simp only [pthread_join, hth, bind_assoc, pure_bind]
        step free_spec
        refine Triple.pure (entails_ex_r ⟨x.handles.set i none, x.threads⟩ (entails_pand_r (entails_pand_r gone (Corr_gone hc ha hnr)) ?_))
        simp only [step, ha, hst, Option.map_some]
        refine ⟨trivial, ?_⟩
        by_cases h0 : code = 0
        · simp [h0, toInt_toVoid hr1 hr2]
        · simp [h0]

theorem InstR_set {threads : List AThread} {t fn arg : Nat} {st st' : Stage} (h : threads[t]? = some ⟨fn, arg, st⟩) (env : List Nat) (as : List (Option Nat)) :
    Own (ORep (InstR threads)) env as ⊢ₕ Own (ORep (InstR (threads.set t ⟨fn, arg, st'⟩))) env as := by
  refine Own_mono ?_ env as
  intro q a
  cases a with
  | none => exact entails_refl _
  | some u =>
    simp only [ORep_some, InstR]
    refine entails_ex_l fun f => entails_ex_l fun g => entails_ex_l fun s => entails_pand_l fun hu => ?_
    by_cases htu : t = u
    · subst htu
      rw [h] at hu; simp at hu
      obtain ⟨rfl, rfl, rfl⟩ := hu
      refine entails_ex_r fn (entails_ex_r arg (entails_ex_r st' (entails_pand_r (entails_refl _) ?_)))
      obtain ⟨h1, _⟩ := List.getElem?_eq_some_iff.1 h
      rw [List.getElem?_set_self h1]
    · refine entails_ex_r f (entails_ex_r g (entails_ex_r s (entails_pand_r (entails_refl _) ?_)))
      rw [List.getElem?_set_ne htu]; exact hu

theorem Corr_set {env : List Nat} {sys : Sys} {x : Abs} (hc : Corr env sys x) {t : Nat} {a : Thread} {b : AThread} {b0 : AThread} (hb : x.threads[t]? = some b0)
    (hm : Match a b) (hn : a.phase ≠ .ready) : Corr env (sys.set t a) ⟨x.handles, x.threads.set t b⟩ := by
  obtain ⟨h1, _⟩ := List.getElem?_eq_some_iff.1 hb
  refine ⟨by simp [hc.len], ?_, ?_⟩
  · intro u c d hcu hdu
    by_cases hu : t = u
    · subst hu
      rw [List.getElem?_set_self (by rw [hc.len]; exact h1)] at hcu
      rw [List.getElem?_set_self h1] at hdu
      simp at hcu hdu; subst hcu; subst hdu; exact hm
    · rw [List.getElem?_set_ne hu] at hcu hdu
      exact hc.same u c d hcu hdu
  · intro u inst hu'
    by_cases hu : t = u
    · subst hu
      rw [List.getElem?_set_self (by rw [hc.len]; exact h1)] at hu'
      simp at hu'; subst hu'; exact absurd rfl hn
    · rw [List.getElem?_set_ne hu] at hu'
      exact hc.held u inst hu'

theorem start_spec (t : Nat) (e : List Nat × Sys) (x : Abs) :
    Triple rel (Inv e x) (exec (.start t) e) (fun r => ∃∃ x', (step (¬ rel) x (.start t) r.1 x') ⋏ Inv r.2 x') := by
  obtain ⟨env, sys⟩ := e
  unfold Inv
  hoist
  intro hc
  try dsimp only at hc
  try dsimp only
  refine Triple.know (φ := env.length = x.handles.length) (fun h hh => hh.1) fun hl => ?_
  simp only [exec, ThreadWrapper_start]
  cases hb : x.threads[t]? with
  | none =>
    simp only [get_none' hc hb, pure_bind]
    refine Triple.pure (entails_ex_r x (entails_pand_r (entails_pand_r (entails_refl _) hc) ?_))
    simp only [step, hb]; exact ⟨by trivial, by trivial⟩
  | some b =>
    obtain ⟨a, ha, hm⟩ := get_both hc hb
    obtain ⟨fn, arg, st⟩ := b
    obtain ⟨inst, ph⟩ := a
    cases st with
    | ready =>
      have hph := Match_ready hm
      dsimp only at hph; subst hph
      obtain ⟨i, hi, hi2⟩ := hc.held t inst ha
      obtain ⟨a', F, ha', h2, h3⟩ := Own_get (R := ORep (InstR x.threads)) hi hl
      rw [hi2] at ha'
      simp at ha'; subst ha'
      simp only [ha]
      rw [h2, ORep_some, InstR]; hoist; intro fn' arg' st' hst
      rw [hb] at hst; simp at hst
      obtain ⟨rfl, rfl, rfl⟩ := hst
      simp only [bind_assoc]
      stepd (loadPtr_spec (q := fn) ?_)
      stepd (loadPtr_spec (q := arg) ?_)
      refine Triple.bind_pure (Triple.pure (entails_ex_r ⟨x.handles, x.threads.set t ⟨fn, arg, .running⟩⟩ (entails_pand_r (entails_pand_r ?_ ?_) ?_)))
      · refine entails_trans ?_ (InstR_set hb env x.handles)
        rw [h2, ORep_some]
        refine sep_mono ?_ (entails_refl _)
        exact entails_ex_r fn (entails_ex_r arg (entails_ex_r .ready (entails_pand_r (entails_refl _) hb)))
      · exact Corr_set hc hb ⟨rfl, rfl⟩ (by simp)
      · simp only [step, hb]; exact ⟨by trivial, by trivial⟩
    | running =>
      have hph := Match_running hm
      dsimp only at hph; subst hph
      simp only [ha, pure_bind]
      refine Triple.pure (entails_ex_r x (entails_pand_r (entails_pand_r (entails_refl _) hc) ?_))
      simp only [step, hb]; exact ⟨by trivial, by trivial⟩
    | done r =>
      obtain ⟨hph, _⟩ := Match_done hm
      dsimp only at hph; subst hph
      simp only [ha, pure_bind]
      refine Triple.pure (entails_ex_r x (entails_pand_r (entails_pand_r (entails_refl _) hc) ?_))
      simp only [step, hb]; exact ⟨by trivial, by trivial⟩

theorem finish_spec (t : Nat) (result : Int) (hr : -(2 ^ 31) ≤ result ∧ result < 2 ^ 31) (e : List Nat × Sys) (x : Abs) :
    Triple rel (Inv e x) (exec (.finish t result) e) (fun r => ∃∃ x', (step (¬ rel) x (.finish t result) r.1 x') ⋏ Inv r.2 x') := by
  obtain ⟨env, sys⟩ := e
  unfold Inv
  hoist
  intro hc
  try dsimp only at hc
  try dsimp only
  simp only [exec, ThreadWrapper_end]
  cases hb : x.threads[t]? with
  | none =>
    simp only [get_none' hc hb]
    refine Triple.pure (entails_ex_r x (entails_pand_r (entails_pand_r (entails_refl _) hc) ?_))
    simp only [step, hb]; exact ⟨by trivial, by trivial⟩
  | some b =>
    obtain ⟨a, ha, hm⟩ := get_both hc hb
    obtain ⟨fn, arg, st⟩ := b
    obtain ⟨inst, ph⟩ := a
    cases st with
    | ready =>
      have hph := Match_ready hm
      dsimp only at hph; subst hph
      simp only [ha]
      refine Triple.pure (entails_ex_r x (entails_pand_r (entails_pand_r (entails_refl _) hc) ?_))
      simp only [step, hb]; exact ⟨by trivial, by trivial⟩
    | running =>
      have hph := Match_running hm
      dsimp only at hph; subst hph
      simp only [ha]
      refine Triple.pure (entails_ex_r ⟨x.handles, x.threads.set t ⟨fn, arg, .done result⟩⟩ (entails_pand_r (entails_pand_r (InstR_set hb env x.handles) ?_) ?_))
      · exact Corr_set hc hb ⟨rfl, hr⟩ (by simp)
      · simp only [step, hb]; exact ⟨by trivial, by trivial⟩
    | done r =>
      obtain ⟨hph, _⟩ := Match_done hm
      dsimp only at hph; subst hph
      simp only [ha]
      refine Triple.pure (entails_ex_r x (entails_pand_r (entails_pand_r (entails_refl _) hc) ?_))
      simp only [step, hb]; exact ⟨by trivial, by trivial⟩

/-- C51 over every history of calls and scheduler steps: no undefined behaviour, every thread runs the function and
argument it was created with, `ThreadAPI_Join` gives the function's result, and the memory in use is exactly one
instance per handle not yet joined. -/
theorem history (ops : List Op) (hops : ∀ op ∈ ops, good op) (e : List Nat × Sys) (x : Abs) :
    Triple rel (Inv e x) (runOps exec ops e) (fun r => ∃∃ x', (Runs (step (¬ rel)) x ops r.1 x') ⋏ Inv r.2 x') :=
  runOps_spec (good := good) (fun op hop e x => by
    cases op with
    | create code haveOut fn arg => exact create_spec code haveOut fn arg e x
    | join code i w => exact join_spec code i w e x
    | start t => exact start_spec t e x
    | finish t r => exact finish_spec t r hop e x) ops hops e x

/-- From the empty memory: once every handle has been joined, nothing is left allocated. -/
theorem no_leak (ops : List Op) (hops : ∀ op ∈ ops, good op) (al : Nat → Heap → Nat → Nat) :
    ∃ outs env sys s' x', runOps exec ops ([], []) (St.start al) = some (.ok ((outs, env, sys), s')) ∧
      Runs (step True) ⟨[], []⟩ ops outs x' ∧ ((∀ a ∈ x'.handles, a = none) → s'.heap = Heap.empty) := by
  have t := history (rel := False) ops hops ([], []) ⟨[], []⟩
  have hP : Inv ([], []) ⟨[], []⟩ (St.start al).heap := by
    refine ⟨⟨rfl, by simp, by simp⟩, ?_⟩
    rw [Own_nil]; rfl
  obtain ⟨r, s', h1, ⟨x', hx, _, hh⟩⟩ := t.run (St.start al) Heap.fin_empty (fun h => h.elim) hP
  refine ⟨r.1, r.2.1, r.2.2, s', x', h1, by simpa using hx, fun hall => ?_⟩
  obtain ⟨hl, hh⟩ := hh
  have : ∀ (env : List Nat) (as : List (Option Nat)), (∀ a ∈ as, a = none) → Pool (ORep (InstR x'.threads)) (env.zip as) ⊢ₕ emp := by
    intro env as
    induction env generalizing as with
    | nil => intro _; simp only [List.zip_nil_left, Pool]; exact entails_refl _
    | cons h env ih =>
      intro has
      cases as with
      | nil => simp only [List.zip_nil_right, Pool]; exact entails_refl _
      | cons a as =>
        have : a = none := has a (by simp)
        subst this
        simp only [List.zip_cons_cons, Pool, ORep_none, pand_sep, emp_sep]
        exact entails_pand_l fun _ => ih as (fun a ha => has a (by simp [ha]))
  exact this _ _ hall _ hh

/-- `ThreadAPI_Sleep` requests a valid time equal to the given number of milliseconds. -/
theorem sleep_exact (ms : UInt32) : 0 ≤ (sleepTime ms).2 ∧ (sleepTime ms).2 < 1000000000 ∧
    (sleepTime ms).1 * 1000000000 + (sleepTime ms).2 = (ms.toNat : Int) * 1000000 := by
  have h := ms.toNat_lt
  unfold sleepTime
  simp only [UInt32.toNat_div, UInt32.toNat_mul, UInt32.toNat_mod, UInt32.reduceToNat]
  have h1 : ms.toNat % 1000 * 1000000 % 2 ^ 32 = ms.toNat % 1000 * 1000000 := Nat.mod_eq_of_lt (by omega)
  rw [h1]
  refine ⟨by omega, by omega, ?_⟩
  omega

/-- A run: two threads, the first joined (result -1), the second refused by the OS, a blocked join. -/
example : outcome (runOps exec [.create 0 true 7 8, .join 0 0 true, .create 11 true 7 9, .create 0 false 7 9, .start 0, .finish 0 (-1),
      .join 0 0 true, .join 0 0 true] ([], [])) (St.start bump) =
    some (.ok ([.ret .ok none, .nothing, .ret .no_memory none, .ret .invalid_arg none, .called 7 8, .nothing, .ret .ok (some (-1)), .ret .invalid_arg none],
      [0, 0, 0], [⟨1, .done (2 ^ 64 - 1)⟩])) := by decide +kernel

end Verif.Thr
