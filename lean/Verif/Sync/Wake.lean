import Verif.Sync.Claim
/-! # No wake-up is lost -/
namespace Verif.Sync
variable {allowed : Log → Tid → Op → Prop}

def Ends (k : Nat → Prog) : Prop := ∀ r, ∃ x, k r = .ret x

/-- the wait is over as soon as the thread owns the lock again -/
def Out (s : State) (t : Tid) (op : Op) (h : Nat) : Prop :=
  (∃ code k, s.thr t = .woken op h code k ∧ Ends k) ∨ ∃ x, s.thr t = .run op (.ret x)
def Past (s : State) (t : Tid) (op : Op) (c h : Nat) : Prop := (∃ timed k, s.thr t = .sleep op c h timed k ∧ Ends k) ∨ Out s t op h

theorem wakeAll_run {c : Nat} {thr : Tid → Thr} {t : Tid} {op : Op} {p : Prog} : wakeAll c thr t = .run op p ↔ thr t = .run op p := by
  unfold wakeAll; cases thr t <;> dsimp only <;> (try split) <;> simp

theorem Out_step {s s' : State} {t : Tid} {op : Op} {h : Nat} (st : Step allowed s s') (o : Out s t op h) :
    Out s' t op h ∨ ∃ r, s'.log = s.log ++ [.ret t op r] := by
  have other : ∀ {u x}, u ≠ t → Out { s with thr := upd s.thr u x } t op h := by
    intro u x e; simpa [Out, upd, Ne.symm e] using o
  cases st with
  | @enter u op' h1 h2 =>
    left
    by_cases e : u = t
    · subst e; rcases o with ⟨_, _, o, _⟩ | ⟨_, o⟩ <;> rw [h1] at o <;> cases o
    · simpa [Out, upd, Ne.symm e] using o
  | @ret u op' r h1 =>
    by_cases e : u = t
    · subst e; rcases o with ⟨_, _, o, _⟩ | ⟨_, o⟩ <;> rw [h1] at o <;> cases o
      exact Or.inr ⟨_, rfl⟩
    · left; simpa [Out, upd, Ne.symm e] using o
  | @call u op' c k r mem' h1 h2 =>
    left
    by_cases e : u = t
    · subst e; rcases o with ⟨_, _, o, _⟩ | ⟨_, o⟩ <;> rw [h1] at o <;> cases o
    · simpa [Out, upd, Ne.symm e] using o
  | @broadcast u op' c k h1 =>
    left
    by_cases e : u = t
    · subst e; rcases o with ⟨_, _, o, _⟩ | ⟨_, o⟩ <;> rw [h1] at o <;> cases o
    · rcases o with ⟨code, k, o, ok⟩ | ⟨x, o⟩
      · exact Or.inl ⟨code, k, by simp [upd, Ne.symm e, wakeAll, o], ok⟩
      · exact Or.inr ⟨x, by simp [upd, Ne.symm e, wakeAll, o]⟩
  | @sleep u op' c m timed k h1 =>
    left
    by_cases e : u = t
    · subst e; rcases o with ⟨_, _, o, _⟩ | ⟨_, o⟩ <;> rw [h1] at o <;> cases o
    · simpa [Out, upd, Ne.symm e] using o
  | @wake u op' c m timed k code h1 h2 =>
    left
    by_cases e : u = t
    · subst e; rcases o with ⟨_, _, o, _⟩ | ⟨_, o⟩ <;> rw [h1] at o <;> cases o
    · simpa [Out, upd, Ne.symm e] using o
  | @acquire u op' m code k h1 h2 =>
    left
    by_cases e : u = t
    · subst e
      rcases o with ⟨_, _, o, ok⟩ | ⟨_, o⟩ <;> rw [h1] at o <;> cases o
      obtain ⟨x, hx⟩ := ok code
      exact Or.inr ⟨x, by simp [upd, hx]⟩
    · simpa [Out, upd, Ne.symm e] using o

theorem Past_step {s s' : State} {t : Tid} {op : Op} {c h : Nat} (st : Step allowed s s') (o : Past s t op c h) :
    Past s' t op c h ∨ ∃ r, s'.log = s.log ++ [.ret t op r] := by
  rcases o with ⟨timed, k, o, ok⟩ | o
  · left
    cases st with
    | @wake u op' c m timed k code h1 h2 =>
      by_cases e : u = t
      · subst e; rw [h1] at o; cases o; exact Or.inr (Or.inl ⟨code, k, by simp [upd], ok⟩)
      · exact Or.inl ⟨_, _, by simpa [upd, Ne.symm e] using o, ok⟩
    | @broadcast u op' c' k' h1 =>
      have e : t ≠ u := by intro e; subst e; rw [h1] at o; cases o
      by_cases ec : c = c'
      · exact Or.inr (Or.inl ⟨0, k, by simp [upd, e, wakeAll, o, ec], ok⟩)
      · exact Or.inl ⟨timed, k, by simp [upd, e, wakeAll, o, ec], ok⟩
    | @enter u op' h1 h2 =>
      have e : t ≠ u := by intro e; subst e; rw [h1] at o; cases o
      exact Or.inl ⟨timed, k, by simpa [upd, e] using o, ok⟩
    | @ret u op' r h1 =>
      have e : t ≠ u := by intro e; subst e; rw [h1] at o; cases o
      exact Or.inl ⟨timed, k, by simpa [upd, e] using o, ok⟩
    | @call u op' c k r mem' h1 h2 =>
      have e : t ≠ u := by intro e; subst e; rw [h1] at o; cases o
      exact Or.inl ⟨timed, _, by simpa [upd, e] using o, ok⟩
    | @sleep u op' c m timed k h1 =>
      have e : t ≠ u := by intro e; subst e; rw [h1] at o; cases o
      exact Or.inl ⟨_, _, by simpa [upd, e] using o, ok⟩
    | @acquire u op' m code k h1 h2 =>
      have e : t ≠ u := by intro e; subst e; rw [h1] at o; cases o
      exact Or.inl ⟨timed, _, by simpa [upd, e] using o, ok⟩
  · rcases Out_step st o with h | h
    · exact Or.inl (Or.inr h)
    · exact Or.inr h

theorem log_step {s s' : State} (st : Step allowed s s') : s'.log = s.log ∨ ∃ e, s'.log = s.log ++ [e] := by
  cases st <;> first | exact Or.inl rfl | exact Or.inr ⟨_, rfl⟩

theorem inCall_run {s : State} (i : Inv s) {t : Tid} {op : Op} {p : Prog} (h : s.thr t = .run op p) : inCall s.log t = some op := by
  obtain ⟨pts, hthr, j⟩ := i
  rw [j.call t]
  rw [hthr] at h
  dsimp only at h
  cases e : pts t <;> rw [e] at h <;> cases h <;> rfl

/-- the invariant at a moment when another thread holds the lock -/
theorem Past_now {s : State} (i : Inv s) {t u : Tid} {c h : Nat} {ms : Int} (hc : inCall s.log t = some (.wait c h ms)) (hu : held s.log u h = true) :
    Past s t (.wait c h ms) c h := by
  obtain ⟨pts, hthr, j⟩ := i
  have g := j.good t
  have own : ∀ {p}, (pts t).owns p → p = h → held s.log t h = false → False := by
    intro p k e f
    subst e
    have a := (j.own t p).2 (Or.inr k)
    have b := (j.own u p).2 (Or.inl hu)
    rw [a] at b
    cases b
    rw [f] at hu; cases hu
  rw [j.call t] at hc
  have ek : ∀ ms, Ends (waitK ms) := fun ms r => ⟨_, waitK_eq ms r⟩
  cases e : pts t with
  | wStart c' h' ms' => rw [e] at hc g; cases hc; exact (own (by rw [e]; rfl) rfl g.2.2).elim
  | wCall c' h' ms' => rw [e] at hc g; cases hc; exact (own (by rw [e]; rfl) rfl g.2.2).elim
  | wSleep c' h' ms' => rw [e] at hc g; cases hc; exact Or.inl ⟨_, _, by rw [hthr]; simp only [e]; rfl, ek _⟩
  | wWoken c' h' ms' code => rw [e] at hc g; cases hc; exact Or.inr (Or.inl ⟨_, _, by rw [hthr]; simp only [e]; rfl, ek _⟩)
  | wDone c' h' ms' r => rw [e] at hc g; cases hc; exact Or.inr (Or.inr ⟨_, by rw [hthr]; simp only [e]; rfl⟩)
  | _ => rw [e] at hc; cases hc

theorem NoRet_append {t : Tid} {a b : Log} : NoRet t (a ++ b) ↔ NoRet t a ∧ NoRet t b := by
  simp only [NoRet, List.mem_append, not_or]
  exact ⟨fun h => ⟨fun op r => (h op r).1, fun op r => (h op r).2⟩, fun h op r => ⟨h.1 op r, h.2 op r⟩⟩

/-- while a thread is in a function, it enters no other -/
theorem stays_in {s : State} (h : Reach Allowed s) {t : Tid} {op : Op} {l1 l2 : Log} (e : s.log = l1 ++ [.enter t op] ++ l2) (hn : NoRet t l2) :
    inCall s.log t = some op := by
  induction h generalizing l2 with
  | init => simp [State.init] at e
  | @step s s' hs st ih =>
    have i := Inv_reach hs
    rcases log_step st with e1 | ⟨x, e1⟩
    · rw [e1]; exact ih (e1 ▸ e) hn
    · rcases List.eq_nil_or_concat l2 with rfl | ⟨l3, y, rfl⟩
      · rw [e]; simp [inCall, inCallStep]
      · rw [List.concat_eq_append] at e hn
        rw [e1, ← List.append_assoc] at e
        have e2 := List.append_inj_left' e rfl
        have e3 := List.append_inj_right' e rfl
        cases e3
        have c := ih e2 (NoRet_append.1 hn).1
        rw [e1, inCall_snoc, c]
        cases st with
        | @enter u op' h1 h2 =>
          have e3 := List.append_inj_right' e1 rfl
          cases e3
          simp only [inCallStep]
          rw [if_neg]
          intro k; subst k
          obtain ⟨pts, hthr, j⟩ := i
          rw [j.call u] at c
          rw [hthr] at h1
          dsimp only at h1
          cases e : pts u <;> rw [e] at h1 c <;> first | cases h1; done | cases c
        | @ret u op' r h1 =>
          have e3 := List.append_inj_right' e1 rfl
          cases e3
          simp only [inCallStep]
          rw [if_neg]
          intro k; subst k
          exact (NoRet_append.1 hn).2 _ _ (List.mem_singleton.2 rfl)
        | _ => exact absurd e1 (by simp)

theorem gave_up {s : State} (h : Reach Allowed s) {t : Tid} {c l : Nat} {ms : Int} (g : GaveUp s.log t c l ms) : Past s t (.wait c l ms) c l := by
  induction h with
  | init => obtain ⟨l1, l2, l3, u, e, _⟩ := g; simp [State.init] at e
  | @step s s' hs st ih =>
    obtain ⟨l1, l2, l3, u, e, hh, hn⟩ := g
    have now : l3 = [] → Past s' t (.wait c l ms) c l := by
      rintro rfl
      rw [List.append_nil] at e hn
      rw [← e] at hh
      exact Past_now (Inv_reach (hs.step st)) (stays_in (hs.step st) e hn) hh
    have keep : Past s t (.wait c l ms) c l → Past s' t (.wait c l ms) c l := by
      intro p
      rcases Past_step st p with p | ⟨r, er⟩
      · exact p
      · rcases List.eq_nil_or_concat l3 with e3 | ⟨l4, x, rfl⟩
        · exact now e3
        · rw [List.concat_eq_append] at e hn
          rw [er, ← List.append_assoc] at e
          cases List.append_inj_right' e rfl
          exact absurd (List.mem_append.2 (Or.inr (List.mem_append.2 (Or.inr (List.mem_singleton.2 rfl))))) (hn (.wait c l ms) r)
    rcases log_step st with e1 | ⟨x, e1⟩
    · exact keep (ih (e1 ▸ ⟨l1, l2, l3, u, e, hh, hn⟩))
    · rcases List.eq_nil_or_concat l3 with e3 | ⟨l4, y, rfl⟩
      · exact now e3
      · rw [List.concat_eq_append] at e hn
        rw [e1, ← List.append_assoc] at e
        rw [← List.append_assoc] at hn
        exact keep (ih ⟨l1, l2, l4, u, List.append_inj_left' e rfl, hh, (NoRet_append.1 hn).1⟩)

theorem GaveUp_snoc {log : Log} {t : Tid} {c h : Nat} {ms : Int} {l : Log} (g : GaveUp log t c h ms) (hn : NoRet t l) : GaveUp (log ++ l) t c h ms := by
  obtain ⟨l1, l2, l3, u, rfl, hh, h1⟩ := g
  exact ⟨l1, l2, l3 ++ l, u, by simp, hh, by rw [← List.append_assoc]; exact NoRet_append.2 ⟨h1, hn⟩⟩

/-- the thread is inside `Condition_Post` -/
def Posting (s : State) (t v : Tid) (op : Op) (c h : Nat) : Prop :=
  (s.thr v = .run (.post c) (Condition_Post c) ∧ c ≠ 0) ∨ (∃ r, r ≠ .ok ∧ s.thr v = .run (.post c) (.ret (.cond r))) ∨ Out s t op h

theorem Posting_step {s s' : State} {t v : Tid} {op : Op} {c h : Nat} (st : Step allowed s s') (p : Past s t op c h) (o : Posting s t v op c h) :
    Posting s' t v op c h ∨ (∃ r, s'.log = s.log ++ [.ret t op r]) ∨ ∃ r, s'.log = s.log ++ [.ret v (.post c) (.cond r)] := by
  rcases o with ⟨o, hc⟩ | ⟨r0, hr0, o⟩ | o
  · unfold Condition_Post at o
    rw [if_neg hc] at o
    have vt : v ≠ t := by
      rintro rfl
      rcases p with ⟨_, _, p, _⟩ | ⟨_, _, p, _⟩ | ⟨_, p⟩ <;> rw [p] at o <;> cases o
    have same : s'.thr v = s.thr v → Posting s' t v op c h := by
      intro e; left; unfold Condition_Post; rw [if_neg hc, e]; exact ⟨o, hc⟩
    cases st with
    | @call u op' c' k r mem' h1 h2 =>
      by_cases e : u = v
      · subst e; rw [h1] at o; cases o
        cases h2 with
        | broadcastFails hr => left; right; left; exact ⟨.error, nofun, by simp [upd, hr]⟩
      · left; exact same (by simp [upd, Ne.symm e])
    | @broadcast u op' c' k h1 =>
      by_cases e : u = v
      · subst e; rw [h1] at o; cases o
        left; right; right
        have e : t ≠ u := Ne.symm vt
        rcases p with ⟨timed, k, p, ok⟩ | ⟨code, k, p, ok⟩ | ⟨x, p⟩
        · exact Or.inl ⟨0, k, by simp [upd, e, wakeAll, p], ok⟩
        · exact Or.inl ⟨code, k, by simp [upd, e, wakeAll, p], ok⟩
        · exact Or.inr ⟨x, by simp [upd, e, wakeAll, p]⟩
      · left; exact same (by simp [upd, Ne.symm e]; rw [wakeAll_run.2 o, o])
    | @enter u op' h1 h2 =>
      have e : v ≠ u := by intro e; subst e; rw [h1] at o; cases o
      left; exact same (by simp [upd, e])
    | @ret u op' r h1 =>
      have e : v ≠ u := by intro e; subst e; rw [h1] at o; cases o
      left; exact same (by simp [upd, e])
    | @sleep u op' c m timed k h1 =>
      have e : v ≠ u := by intro e; subst e; rw [h1] at o; cases o
      left; exact same (by simp [upd, e])
    | @wake u op' c m timed k code h1 h2 =>
      have e : v ≠ u := by intro e; subst e; rw [h1] at o; cases o
      left; exact same (by simp [upd, e])
    | @acquire u op' m code k h1 h2 =>
      have e : v ≠ u := by intro e; subst e; rw [h1] at o; cases o
      left; exact same (by simp [upd, e])
  · cases st with
    | @ret u op' r h1 =>
      by_cases e : u = v
      · subst e; rw [h1] at o; cases o; exact Or.inr (Or.inr ⟨_, rfl⟩)
      · left; right; left; exact ⟨r0, hr0, by simpa [upd, Ne.symm e] using o⟩
    | @broadcast u op' c' k h1 =>
      have e : v ≠ u := by intro e; subst e; rw [h1] at o; cases o
      left; right; left; exact ⟨r0, hr0, by simp [upd, e]; exact wakeAll_run.2 o⟩
    | @call u op' c' k r mem' h1 h2 =>
      have e : v ≠ u := by intro e; subst e; rw [h1] at o; cases o
      left; right; left; exact ⟨r0, hr0, by simpa [upd, e] using o⟩
    | @enter u op' h1 h2 =>
      have e : v ≠ u := by intro e; subst e; rw [h1] at o; cases o
      left; right; left; exact ⟨r0, hr0, by simpa [upd, e] using o⟩
    | @sleep u op' c m timed k h1 =>
      have e : v ≠ u := by intro e; subst e; rw [h1] at o; cases o
      left; right; left; exact ⟨r0, hr0, by simpa [upd, e] using o⟩
    | @wake u op' c m timed k code h1 h2 =>
      have e : v ≠ u := by intro e; subst e; rw [h1] at o; cases o
      left; right; left; exact ⟨r0, hr0, by simpa [upd, e] using o⟩
    | @acquire u op' m code k h1 h2 =>
      have e : v ≠ u := by intro e; subst e; rw [h1] at o; cases o
      left; right; left; exact ⟨r0, hr0, by simpa [upd, e] using o⟩
  · rcases Out_step st o with o | o
    · exact Or.inl (Or.inr (Or.inr o))
    · exact Or.inr (Or.inl o)

theorem posting {s : State} (h : Reach Allowed s) {t v : Tid} {c l : Nat} {ms : Int} {l4 l5 : Log} (e : s.log = l4 ++ [.enter v (.post c)] ++ l5)
    (g : GaveUp l4 t c l ms) (hv : NoRet v l5) (ht : NoRet t l5) : Posting s t v (.wait c l ms) c l := by
  induction h generalizing l5 with
  | init => simp [State.init] at e
  | @step s s' hs st ih =>
    have key : (∀ r, s'.log ≠ s.log ++ [.ret t (.wait c l ms) r]) → (∀ r, s'.log ≠ s.log ++ [.ret v (.post c) (.cond r)]) →
        GaveUp s.log t c l ms → Posting s t v (.wait c l ms) c l → Posting s' t v (.wait c l ms) c l := by
      intro n1 n2 g p
      rcases Posting_step st (gave_up hs g) p with p | ⟨r, p⟩ | ⟨r, p⟩
      · exact p
      · exact absurd p (n1 r)
      · exact absurd p (n2 r)
    have noEnter : NoRet t [.enter v (.post c)] := fun op r k => by cases k with | tail _ k => cases k
    rcases log_step st with e1 | ⟨x, e1⟩
    · have e2 : s.log = l4 ++ [.enter v (.post c)] ++ l5 := e1 ▸ e
      refine key (fun r k => ?_) (fun r k => ?_) ?_ (ih e2 hv ht)
      · rw [e1] at k; simp at k
      · rw [e1] at k; simp at k
      · rw [e2]; exact GaveUp_snoc (GaveUp_snoc g noEnter) ht
    · rcases List.eq_nil_or_concat l5 with rfl | ⟨l6, y, rfl⟩
      · rw [List.append_nil, e1] at e
        cases List.append_inj_right' e rfl
        cases st with
        | @enter u op' h1 h2 =>
          cases List.append_inj_right' e1 rfl
          by_cases hc : c = 0
          · right; left; exact ⟨.invalid_arg, nofun, by simp [upd, body, Condition_Post, hc]⟩
          · left; exact ⟨by simp [upd, body], hc⟩
        | @ret u op' r h1 => exact absurd (List.append_inj_right' e1 rfl) (by simp)
        | _ => exact absurd e1 (by simp)
      · rw [List.concat_eq_append] at e hv ht
        rw [e1, ← List.append_assoc] at e
        have e2 := List.append_inj_left' e rfl
        cases List.append_inj_right' e rfl
        have hv' := NoRet_append.1 hv
        have ht' := NoRet_append.1 ht
        refine key (fun r k => ?_) (fun r k => ?_) ?_ (ih e2 hv'.1 ht'.1)
        · rw [e1] at k
          cases List.append_inj_right' k rfl
          exact ht'.2 _ _ (List.mem_singleton.2 rfl)
        · rw [e1] at k
          cases List.append_inj_right' k rfl
          exact hv'.2 _ _ (List.mem_singleton.2 rfl)
        · rw [e2]; exact GaveUp_snoc (GaveUp_snoc g noEnter) ht'.1

/-- No wake-up is lost: a thread that had begun to wait, and had given up the lock, when a successful `Condition_Post` began, does not
sleep after it any more: its wait is over as soon as it owns the lock again. -/
theorem no_lost_wakeup {s : State} (h : Reach Allowed s) {t : Tid} {c l : Nat} {ms : Int} (p : Posted s.log t c l ms) :
    (∃ code k, s.thr t = .woken (.wait c l ms) l code k) ∨ ∃ x, s.thr t = .run (.wait c l ms) (.ret x) := by
  have : Out s t (.wait c l ms) l := by
    obtain ⟨l4, l5, l6, v, e, g, hv, ht⟩ := p
    induction h generalizing l6 with
    | init => simp [State.init] at e
    | @step s s' hs st ih =>
      have key : (∀ r, s'.log ≠ s.log ++ [.ret t (.wait c l ms) r]) → Out s t (.wait c l ms) l → Out s' t (.wait c l ms) l := by
        intro n1 o
        rcases Out_step st o with o | ⟨r, o⟩
        · exact o
        · exact absurd o (n1 r)
      rcases log_step st with e1 | ⟨x, e1⟩
      · refine key (fun r k => ?_) (ih l6 (e1 ▸ e) ht)
        rw [e1] at k; simp at k
      · rcases List.eq_nil_or_concat l6 with rfl | ⟨l7, y, rfl⟩
        · rw [List.append_nil, e1] at e
          cases List.append_inj_right' e rfl
          have e2 := List.append_inj_left' e rfl
          have po := posting hs e2 g hv (NoRet_append.1 ht).1
          have key2 : s.thr v = .run (.post c) (.ret (.cond .ok)) := by
            cases st with
            | @enter u op' h1 h2 => exact absurd (List.append_inj_right' e1 rfl) (by simp)
            | @ret u op' r h1 => cases List.append_inj_right' e1 rfl; exact h1
            | _ => exact absurd e1 (by simp)
          rcases po with ⟨po, hc⟩ | ⟨r, hr, po⟩ | po
          · rw [key2] at po; unfold Condition_Post at po; rw [if_neg hc] at po; cases po
          · rw [key2] at po; cases po; exact absurd rfl hr
          · refine key (fun r k => ?_) po
            rw [e1] at k; cases List.append_inj_right' k rfl
        · rw [List.concat_eq_append] at e ht
          rw [e1, ← List.append_assoc] at e
          cases List.append_inj_right' e rfl
          rw [← List.append_assoc] at ht
          have ht' := NoRet_append.1 ht
          refine key (fun r k => ?_) (ih l7 (List.append_inj_left' e rfl) ht'.1)
          rw [e1] at k
          cases List.append_inj_right' k rfl
          exact ht'.2 _ _ (List.mem_singleton.2 rfl)
  rcases this with ⟨code, k, h, _⟩ | h
  · exact Or.inl ⟨code, k, h⟩
  · exact Or.inr h

/-- A thread whose wait is over returns, unless another thread has or uses the lock. -/
theorem woken_returns {s : State} (h : Reach Allowed s) {t : Tid} {op : Op} {l code : Nat} {k : Nat → Prog} (hw : s.thr t = .woken op l code k) :
    (∃ s' r, Steps Allowed s s' ∧ s'.log = s.log ++ [.ret t op r]) ∨ Contended s.log t l := by
  obtain ⟨pts, hthr, j⟩ := Inv_reach h
  have g := j.good t
  have hw' := hw
  rw [hthr] at hw
  dsimp only at hw
  cases e : pts t <;> rw [e] at hw g <;> cases hw
  rename_i c ms
  obtain ⟨o, ho⟩ := (j.lv l g.2.1).2
  cases o with
  | none =>
    left
    have e1 := waitK_eq ms code
    exact ⟨_, .cond (waitEnd ms code), .step (.acquire hw' ho) (.step (.ret (t := t) (op := .wait c l ms) (r := .cond (waitEnd ms code)) (by simp [upd, e1])) .refl), rfl⟩
  | some u =>
    right
    refine ⟨u, ?_, ?_⟩
    · rintro rfl
      rcases (j.own u l).1 ho with k | k
      · rw [g.2.2] at k; cases k
      · rw [e] at k; exact k
    · rcases (j.own u l).1 ho with k | k
      · exact Or.inl k
      · obtain ⟨op, k1, k2⟩ := owns_uses k
        exact Or.inr ⟨op, by rw [j.call u, k1], k2⟩

/-- A thread inside `Lock` gets the lock, unless the operating system has refused, or another thread has or uses the lock. -/
theorem lock_succeeds {s : State} (h : Reach Allowed s) {t : Tid} {l : Nat} (hc : inCall s.log t = some (.lock l))
    (hr : s.thr t ≠ .run (.lock l) (.ret (.lock .error))) :
    (∃ s', Steps Allowed s s' ∧ s'.log = s.log ++ [.ret t (.lock l) (.lock .ok)]) ∨ Contended s.log t l := by
  obtain ⟨pts, hthr, j⟩ := Inv_reach h
  have g := j.good t
  have th : s.thr t = (pts t).thr := by rw [hthr]
  rw [j.call t] at hc
  cases e : pts t with
  | lDone p r =>
    rw [e] at hc th; cases hc
    cases r with
    | ok => exact Or.inl ⟨_, .step (.ret th) .refl, rfl⟩
    | error => exact absurd th hr
  | lStart p =>
    rw [e] at hc th g; cases hc
    obtain ⟨o, ho⟩ := (j.lv l g.1).2
    cases o with
    | none =>
      left
      exact ⟨_, .step (.call th (.mutexLock ho)) (.step (.ret (t := t) (op := .lock l) (r := .lock .ok) (by simp [upd, Pt.op])) .refl), rfl⟩
    | some u =>
      right
      refine ⟨u, ?_, ?_⟩
      · rintro rfl
        rcases (j.own u l).1 ho with k | k
        · rw [g.2] at k; cases k
        · rw [e] at k; exact k
      · rcases (j.own u l).1 ho with k | k
        · exact Or.inl k
        · obtain ⟨op, k1, k2⟩ := owns_uses k
          exact Or.inr ⟨op, by rw [j.call u, k1], k2⟩
  | _ => rw [e] at hc; cases hc

/-! ## Results -/

inductive Fits (op : Op) : Prog → Prop
  | ret {r} : Truthful op r → Fits op (.ret r)
  | call {c k} : (∀ r, Fits op (k r)) → Fits op (.call c k)

theorem body_fits (op : Op) : Fits op (body op) := by
  cases op <;> simp only [body, Lock_Init, Lock, Unlock, Lock_Deinit, Condition_Init, Condition_Post, Condition_Wait, Condition_Deinit] <;>
    repeat' first | split | (refine Fits.call fun r => ?_) | (refine Fits.ret ?_)
  all_goals simp_all [Truthful]

def ThrFits : Thr → Prop
  | .idle => True
  | .run op p => Fits op p
  | .sleep op _ _ _ k | .woken op _ _ k => ∀ r, Fits op (k r)

theorem thr_fits {s : State} (h : Reach allowed s) (t : Tid) : ThrFits (s.thr t) := by
  induction h with
  | init => trivial
  | @step s s' _ st ih =>
    cases st with
    | @enter u op h1 h2 => simp only [upd]; split; exact body_fits op; exact ih
    | @ret u op r h1 => simp only [upd]; split; trivial; exact ih
    | @call u op c k r mem' h1 h2 =>
      simp only [upd]; split
      · rename_i e; subst e; rw [h1] at ih; cases ih with | call ih => exact ih r
      · exact ih
    | @broadcast u op c k h1 =>
      simp only [upd]; split
      · rename_i e; subst e; rw [h1] at ih; cases ih with | call ih => exact ih 0
      · unfold wakeAll; revert ih; cases s.thr t <;> intro ih <;> dsimp only <;> (try split) <;> exact ih
    | @sleep u op c m timed k h1 =>
      simp only [upd]; split
      · rename_i e; subst e; rw [h1] at ih; cases ih with | call ih => exact ih
      · exact ih
    | @wake u op c m timed k code h1 h2 =>
      simp only [upd]; split
      · rename_i e; subst e; rw [h1] at ih; exact ih
      · exact ih
    | @acquire u op m code k h1 h2 =>
      simp only [upd]; split
      · rename_i e; subst e; rw [h1] at ih; exact ih code
      · exact ih

/-- Results are what the documentation says: `NULL` is refused, and a wait times out only if it has a limit. -/
theorem truthful {s : State} (h : Reach allowed s) {t : Tid} {op : Op} {r : Ret} (hr : Ev.ret t op r ∈ s.log) : Truthful op r := by
  induction h with
  | init => cases hr
  | @step s s' hs st ih =>
    cases st with
    | @enter u op h1 h2 =>
      rcases List.mem_append.1 hr with hr | hr
      · exact ih hr
      · cases hr with | tail _ hr => cases hr
    | @ret u op' r' h1 =>
      rcases List.mem_append.1 hr with hr | hr
      · exact ih hr
      · cases List.mem_singleton.1 hr
        have := thr_fits hs t
        rw [h1] at this
        cases this with | ret h => exact h
    | _ => exact ih hr

theorem woken_code {s : State} (h : Reach Allowed s) {t : Tid} {op : Op} {l code : Nat} {k : Nat → Prog} (hw : s.thr t = .woken op l code k) :
    code = 0 ∨ code = ETIMEDOUT ∧ ∃ c h ms, op = .wait c h ms ∧ ms > 0 := by
  induction h generalizing op l code k with
  | init => cases hw
  | @step s s' hs st ih =>
    have i := Inv_reach hs
    cases st with
    | @wake u op' c m timed k' code' h1 h2 =>
      simp only [upd] at hw
      split at hw
      · rename_i e; subst e
        obtain ⟨pts, hthr, j⟩ := i
        cases hw
        rcases h2 with h2 | ⟨h2, h3⟩
        · exact Or.inl h2
        · right
          refine ⟨h3, ?_⟩
          rw [hthr] at h1
          dsimp only at h1
          cases e : pts t <;> rw [e] at h1 <;> cases h1
          exact ⟨_, _, _, rfl, of_decide_eq_true h2⟩
      · exact ih hw
    | @broadcast u op' c k' h1 =>
      simp only [upd] at hw
      split at hw
      · cases hw
      · unfold wakeAll at hw
        cases e : s.thr t <;> rw [e] at hw <;> dsimp only at hw
        · cases hw
        · cases hw
        · split at hw
          · cases hw; exact Or.inl rfl
          · cases hw
        · cases hw; exact ih e
    | @enter u op h1 h2 => simp only [upd] at hw; split at hw; cases hw; exact ih hw
    | @ret u op r h1 => simp only [upd] at hw; split at hw; cases hw; exact ih hw
    | @call u op c k r mem' h1 h2 => simp only [upd] at hw; split at hw; cases hw; exact ih hw
    | @sleep u op c m timed k h1 => simp only [upd] at hw; split at hw; cases hw; exact ih hw
    | @acquire u op m code k h1 h2 => simp only [upd] at hw; split at hw; cases hw; exact ih hw

/-- A wait that was ended by a post (or without reason) returns `COND_OK`, one that was ended by its limit `COND_TIMEOUT`. -/
theorem wait_result {s : State} (h : Reach Allowed s) {t : Tid} {op : Op} {l code : Nat} {k : Nat → Prog} (hw : s.thr t = .woken op l code k) :
    (code = 0 ∧ k code = .ret (.cond .ok)) ∨ (code = ETIMEDOUT ∧ k code = .ret (.cond .timeout) ∧ ∃ c h ms, op = .wait c h ms ∧ ms > 0) := by
  have hc := woken_code h hw
  obtain ⟨pts, hthr, j⟩ := Inv_reach h
  rw [hthr] at hw
  dsimp only at hw
  cases e : pts t <;> rw [e] at hw <;> cases hw
  rcases hc with rfl | ⟨rfl, c, h, ms, e, hm⟩
  · left; exact ⟨rfl, by rw [waitK_eq]; simp [waitEnd, ETIMEDOUT]⟩
  · right; cases e; exact ⟨rfl, by rw [waitK_eq]; simp [waitEnd, hm], _, _, _, rfl, hm⟩

end Verif.Sync
