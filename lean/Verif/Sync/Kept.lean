import Verif.Sync.Step
/-! # Every reachable state satisfies the invariant -/
namespace Verif.Sync
variable {pts : Tid → Pt} {mem : Nat → Cell} {log : Log}

theorem upd_thr {t : Tid} {pt' : Pt} : upd (fun u => (pts u).thr) t pt'.thr = fun u => (upd pts t pt' u).thr := by
  funext u; simp only [upd]; split <;> rfl

theorem J_call (j : J pts mem log) {t : Tid} {op : Op} {c : Sys} {k : Nat → Prog} {r : Nat} {mem' : Nat → Cell}
    (ht : (pts t).thr = .run op (.call c k)) (ha : Answers t mem c r mem') :
    ∃ pt' : Pt, pt'.thr = .run op (k r) ∧ J (upd pts t pt') mem' log := by
  have g := j.good t
  have nz := j.nz t
  cases h : pts t with
  | iStart =>
    rw [h] at ht g nz; cases ht
    cases ha with
    | refused => exact ⟨.iDone 0, rfl, J_same j (by rw [h]; rfl) (by simp [h, Pt.owns]) (Or.inl rfl) (by simp [h, Pt.pend]) (by simp [Pt.waits])⟩
    | malloc h1 h2 =>
      exact ⟨.iRaw r, by simp [Pt.thr, Pt.op, Pt.prog, h1], J_mine j (by rw [h]; rfl) (by simp [Pt.owns]) (by simp [h, Pt.owns]) (by simp [h2]) (by simp)
        (by simp [Good, upd]) (Or.inr ⟨by simp [h, Pt.pend], h2, h1⟩) (Or.inl rfl) rfl⟩
  | iRaw p =>
    rw [h] at ht g nz; cases ht
    cases ha with
    | mutexInit =>
      exact ⟨.iDone p, rfl, J_mine j (by rw [h]; rfl) (by simp [Pt.owns]) (by simp [h, Pt.owns]) (by simp [show mem p = .raw from g]) (by simp)
        (by simp [Good, upd]) (Or.inl (by simp [h, Pt.pend])) (Or.inl (by simp [Pt.pend, nz p rfl])) rfl⟩
    | initFails hr => exact ⟨.iFree p, by simp [Pt.thr, Pt.op, Pt.prog, hr], J_same j (by rw [h]; rfl) (by simp [h, Pt.owns]) g (by simp [h, Pt.pend]) (by simp [Pt.waits])⟩
  | iFree p =>
    rw [h] at ht g nz; cases ht
    cases ha
    exact ⟨.iDone 0, rfl, J_mine j (by rw [h]; rfl) (by simp [Pt.owns]) (by simp [h, Pt.owns]) (by simp [show mem p = .raw from g]) (by simp)
        (by simp [Good, upd]) (Or.inl (by simp [h, Pt.pend])) (Or.inr ⟨by simp [Pt.pend], rfl⟩) rfl⟩
  | lStart q =>
    rw [h] at ht g nz; cases ht
    obtain ⟨g1, g2⟩ := g
    cases ha with
    | mutexLock h1 =>
      exact ⟨.lDone q .ok, rfl, J_mutex j (by rw [h]; rfl) g1 (Or.inl ⟨h1, rfl⟩) g2 (by intro; simp [Pt.owns, eq_comm]) (by simp [h, Pt.owns]) g1 rfl (by simp [h, Pt.pend]) (by simp [Pt.waits])⟩
    | lockFails hr => exact ⟨.lDone q .error, by simp [Pt.thr, Pt.op, Pt.prog, hr], J_same j (by rw [h]; rfl) (by simp [h, Pt.owns]) trivial (by simp [h, Pt.pend]) (by simp [Pt.waits])⟩
  | uStart q =>
    rw [h] at ht g nz; cases ht
    obtain ⟨g1, g2⟩ := g
    have own : mem q = .mutex (some t) := (j.own t q).2 (Or.inr (by rw [h]; rfl))
    cases ha with
    | mutexUnlock =>
      exact ⟨.uDone q .ok, rfl, J_mutex j (by rw [h]; rfl) g1 (Or.inr ⟨own, rfl⟩) g2 (by intro; simp [Pt.owns]) (by simp [h, Pt.owns, eq_comm]) trivial rfl (by simp [h, Pt.pend]) (by simp [Pt.waits])⟩
    | unlockFails hr =>
      have := (j.lv q g1).1
      exact ⟨.uDone q .error, by simp [Pt.thr, Pt.op, Pt.prog, hr], J_same j (by rw [h]; rfl) (by simp [h, Pt.owns, this]) (Or.inr g1) (by simp [h, Pt.pend]) (by simp [Pt.waits])⟩
  | dStart q =>
    rw [h] at ht g nz; cases ht
    cases ha with
    | mutexDestroy =>
      exact ⟨.dFree q, rfl, J_mine j (by rw [h]; rfl) (by simp [Pt.owns]) (by simp [h, Pt.owns]) (by simp [show mem q = .mutex none from g]) (by simp)
        (by simp [Good, upd]) (Or.inl (by simp [h, Pt.pend])) (Or.inl rfl) rfl⟩
    | destroyFails hr =>
      exact ⟨.dDone q .error, by simp [Pt.thr, Pt.op, Pt.prog, hr], J_same j (by rw [h]; rfl) (by simp [h, Pt.owns]) (Or.inr g) (by simp [h, Pt.pend, nz q rfl]) (by simp [Pt.waits])⟩
  | dFree q =>
    rw [h] at ht g nz; cases ht
    cases ha
    exact ⟨.dDone q .ok, rfl, J_mine j (by rw [h]; rfl) (by simp [Pt.owns]) (by simp [h, Pt.owns]) (by simp [show mem q = .raw from g]) (by simp)
        trivial (Or.inl (by simp [h, Pt.pend])) (Or.inr ⟨by simp [Pt.pend], rfl⟩) rfl⟩
  | ciStart =>
    rw [h] at ht g nz; cases ht
    cases ha with
    | refused => exact ⟨.ciDone 0, rfl, J_same j (by rw [h]; rfl) (by simp [h, Pt.owns]) (Or.inl rfl) (by simp [h, Pt.pend]) (by simp [Pt.waits])⟩
    | malloc h1 h2 =>
      exact ⟨.ciRaw r, by simp [Pt.thr, Pt.op, Pt.prog, h1], J_mine j (by rw [h]; rfl) (by simp [Pt.owns]) (by simp [h, Pt.owns]) (by simp [h2]) (by simp)
        (by simp [Good, upd]) (Or.inr ⟨by simp [h, Pt.pend], h2, h1⟩) (Or.inl rfl) rfl⟩
  | ciRaw p =>
    rw [h] at ht g nz; cases ht
    cases ha with
    | condInit =>
      exact ⟨.ciDone p, rfl, J_mine j (by rw [h]; rfl) (by simp [Pt.owns]) (by simp [h, Pt.owns]) (by simp [show mem p = .raw from g]) (by simp)
        (by simp [Good, upd]) (Or.inl (by simp [h, Pt.pend])) (Or.inl (by simp [Pt.pend, nz p rfl])) rfl⟩
  | pStart q =>
    rw [h] at ht g nz; cases ht
    cases ha with
    | broadcastFails hr => exact ⟨.pDone q .error, by simp [Pt.thr, Pt.op, Pt.prog, hr], J_same j (by rw [h]; rfl) (by simp [h, Pt.owns]) trivial (by simp [h, Pt.pend]) (by simp [Pt.waits])⟩
  | wStart q m ms =>
    rw [h] at ht g nz; cases ht
    cases ha
    exact ⟨.wCall q m ms, rfl, J_same j (by rw [h]; rfl) (by simp [h, Pt.owns]) g (by simp [h, Pt.pend]) (by simp [h, Pt.waits])⟩
  | wCall q m ms =>
    rw [h] at ht g nz; cases ht
    cases ha with
    | waitFails hr hr2 =>
      have h1 := (j.lvc q g.1).1
      have h2 := (j.lv m g.2.1).1
      exact ⟨.wDone q m ms (waitEnd ms r), by rw [waitK_eq]; rfl, J_same j (by rw [h]; rfl) (by simp [h, Pt.owns, h1, h2]) (Or.inr (Or.inr g.2.1)) (by simp [h, Pt.pend]) (by simp [Pt.waits])⟩
  | cdStart q =>
    rw [h] at ht g nz; cases ht
    cases ha
    exact ⟨.cdFree q, rfl, J_mine j (by rw [h]; rfl) (by simp [Pt.owns]) (by simp [h, Pt.owns]) (by simp [show mem q = .cond from g]) (by simp)
        (by simp [Good, upd]) (Or.inl (by simp [h, Pt.pend])) (Or.inl rfl) rfl⟩
  | cdFree q =>
    rw [h] at ht g nz; cases ht
    cases ha
    exact ⟨.cdDone q, rfl, J_mine j (by rw [h]; rfl) (by simp [Pt.owns]) (by simp [h, Pt.owns]) (by simp [show mem q = .raw from g]) (by simp)
        trivial (Or.inl (by simp [h, Pt.pend])) (Or.inr ⟨by simp [Pt.pend], rfl⟩) rfl⟩
  | _ => rw [h] at ht; cases ht

def Inv (s : State) : Prop := ∃ pts : Tid → Pt, s.thr = (fun t => (pts t).thr) ∧ J pts s.mem s.log

theorem J.owns_nz (j : J pts mem log) {t : Tid} {q : Nat} (k : (pts t).owns q) : q ≠ 0 ∧ live log q = true := by
  have g := j.good t
  have lv := j.lv q
  have : live log q = true := by
    cases h : pts t with
    | lDone p r => cases r <;> simp only [h, Pt.owns, Good] at * ; subst k; exact g
    | uDone p r => cases r <;> simp only [h, Pt.owns, Good] at * ; grind
    | _ => simp only [h, Pt.owns, Good] at * <;> grind
  exact ⟨(lv this).1, this⟩

theorem Inv_step {s s' : State} (i : Inv s) (h : Step Allowed s s') : Inv s' := by
  obtain ⟨pts, hthr, j⟩ := i
  obtain ⟨mem, thr, log⟩ := s
  dsimp only at hthr j
  subst hthr
  have th : ∀ {t : Tid}, (fun u => (pts u).thr) t = (pts t).thr := rfl
  cases h with
  | @enter t op h1 h2 =>
    have h1 : pts t = .idle := by
      dsimp only at h1
      cases e : pts t <;> rw [e] at h1 <;> first | rfl | cases h1
    exact ⟨upd pts t (start op), by dsimp only; rw [← start_thr, upd_thr], J_enter j h1 h2⟩
  | @ret t op r h1 => exact ⟨upd pts t .idle, by rw [← upd_thr]; rfl, J_ret j h1 fun q k => (j.owns_nz k).1⟩
  | @call t op c k r mem' h1 h2 =>
    obtain ⟨pt', e, j'⟩ := J_call j h1 h2
    exact ⟨upd pts t pt', by rw [← upd_thr, e], j'⟩
  | @broadcast t op c k h1 =>
    have h0 : pts t = .pStart c ∧ op = .post c ∧ k = fun r => if r = 0 then .ret (.cond .ok) else .ret (.cond .error) := by
      dsimp only at h1
      cases e : pts t <;> rw [e] at h1 <;> cases h1
      exact ⟨rfl, rfl, rfl⟩
    obtain ⟨h0, rfl, rfl⟩ := h0
    have j' := J_broadcast j (c := c)
    have e : wakePt c (pts t) = .pStart c := by rw [h0]; rfl
    refine ⟨upd (fun u => wakePt c (pts u)) t (.pDone c .ok), ?_, J_same j' (by rw [e]; rfl) (by simp [e, Pt.owns]) trivial (by simp [e, Pt.pend]) (by simp [Pt.waits])⟩
    dsimp only
    rw [wakePt_thr, ← upd_thr]
    rfl
  | @sleep t op c m timed k h1 =>
    have h0 : ∃ ms, pts t = .wCall c m ms ∧ op = .wait c m ms ∧ timed = Sync.timed ms ∧ k = waitK ms := by
      dsimp only at h1
      cases e : pts t <;> rw [e] at h1 <;> cases h1
      exact ⟨_, rfl, rfl, rfl, rfl⟩
    obtain ⟨ms, h0, rfl, rfl, rfl⟩ := h0
    have g := j.good t
    rw [h0] at g
    have own : mem m = .mutex (some t) := (j.own t m).2 (Or.inr (by rw [h0]; rfl))
    exact ⟨upd pts t (.wSleep c m ms), by rw [← upd_thr]; rfl, J_mutex j (by rw [h0]; rfl) g.2.1 (Or.inr ⟨own, rfl⟩) g.2.2 (by intro; simp [Pt.owns])
      (by simp [h0, Pt.owns, eq_comm]) g rfl (by simp [h0, Pt.pend]) (by simp [h0, Pt.waits])⟩
  | @wake t op c m timed k code h1 h2 =>
    have h0 : ∃ ms, pts t = .wSleep c m ms ∧ op = .wait c m ms ∧ timed = Sync.timed ms ∧ k = waitK ms := by
      dsimp only at h1
      cases e : pts t <;> rw [e] at h1 <;> cases h1
      exact ⟨_, rfl, rfl, rfl, rfl⟩
    obtain ⟨ms, h0, rfl, rfl, rfl⟩ := h0
    have g := j.good t
    rw [h0] at g
    exact ⟨upd pts t (.wWoken c m ms code), by rw [← upd_thr]; rfl, J_same j (by rw [h0]; rfl) (by simp [h0, Pt.owns]) g (by simp [h0, Pt.pend]) (by simp [h0, Pt.waits])⟩
  | @acquire t op m code k h1 h2 =>
    have h0 : ∃ c ms, pts t = .wWoken c m ms code ∧ op = .wait c m ms ∧ k = waitK ms := by
      dsimp only at h1
      cases e : pts t <;> rw [e] at h1 <;> cases h1
      exact ⟨_, _, rfl, rfl, rfl⟩
    obtain ⟨c, ms, h0, rfl, rfl⟩ := h0
    have g := j.good t
    rw [h0] at g
    have hh : held log t m = false := g.2.2
    have n1 := (j.lvc c g.1).1
    have n2 := (j.lv m g.2.1).1
    exact ⟨upd pts t (.wDone c m ms (waitEnd ms code)), by rw [← upd_thr, waitK_eq]; rfl, J_mutex j (by rw [h0]; rfl) g.2.1 (Or.inl ⟨h2, rfl⟩) hh
      (by intro; simp [Pt.owns, n1, n2, eq_comm]) (by simp [h0, Pt.owns]) (Or.inr (Or.inr g.2.1)) rfl (by simp [h0, Pt.pend]) (by simp [Pt.waits])⟩

theorem Inv_reach {s : State} (h : Reach Allowed s) : Inv s := by
  induction h with
  | init => exact ⟨fun _ => .idle, rfl, J_init⟩
  | step _ h ih => exact Inv_step ih h

end Verif.Sync
