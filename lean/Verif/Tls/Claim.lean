import Verif.Tls.Life

/-
The TLS IO over OpenSSL: what its user can rely on (C49, C59-C62), for every sequence of calls by
the user, of callbacks by the lower IO and of answers by OpenSSL, at any depth of re-entrance.

The log of a state has the newest event first: in `l1 ++ e :: l2` the events `l2` came before `e`
and the events `l1` after it.
-/
namespace Verif.Tls
open Verif.Game

/-- The states of the module that can come about in the standard environment. -/
abbrev Reachable (m : Mach Inst Op Call) : Prop := Reach (sys std) m

theorem claim_at {m : Mach Inst Op Call} (hm : Reachable m) {l1 l2 : List Event} {e : Event}
    (h : m.st.log = l1 ++ e :: l2) : Claim l2 e := by
  have hg := (sound.reach hm).holds
  rw [h] at hg
  exact hg.at

theorem reacts_at {m : Mach Inst Op Call} (hm : Reachable m) {l1 l2 : List Event} {e : Event}
    (h : m.st.log = l1 ++ e :: l2) (he : ∀ c, e ≠ .enter c) (hr : ∀ h o n bs, e ≠ .ret h o n bs) :
    Reacts l2 e := by
  have := claim_at hm h
  cases e with
  | enter c => exact absurd rfl (he c)
  | ret h' o n bs => exact absurd rfl (hr h' o n bs)
  | call h o => exact this.1
  | leave c r => exact this.1

/-- No field is read before it is written, no dead instance is touched. -/
theorem no_undefined_behaviour {m : Mach Inst Op Call} (hm : Reachable m) : m.wrong = false :=
  (sound.reach hm).right

/-! ### Phases, in terms of the events alone -/

/-- An open that has not been answered. -/
def Phase.pending (p : Phase) : Prop := p = .opening ∨ p = .handshake

/-- The events after which an open of `h` is no longer pending. -/
def ends (h : Nat) : Event → Bool
  | .enter (.close h' _ _) | .enter (.uClose h') | .enter (.uError h') => h' == h
  | .leave (.create ..) r => r.toNat == h
  | _ => false

theorem ends_other {h : Nat} {e : Event} (he : subject e ≠ h) : ends h e = false := by
  cases e with
  | enter c => cases c <;> simp_all [ends, subject, Call.handle]
  | leave c r => cases c <;> simp_all [ends, subject, Call.handle]
  | call => rfl
  | ret => rfl

theorem next_pending (v : View) (e : Event) (h : (v.next e).phase.pending) :
    (v.phase.pending ∧ ends (subject e) e = false ∧ (v.next e).cbs = v.cbs) ∨
    (∃ h' c, e = .enter (.open h' c) ∧ v.phase = .idle ∧ (v.next e).cbs = c) := by
  unfold Phase.pending at *
  unfold View.next at *
  split at h
  all_goals try (simp at h; done)
  all_goals try (exact Or.inl ⟨h, by simp [ends], rfl⟩)
  · split at h
    next hi => exact Or.inr ⟨_, _, rfl, hi, by simp only [if_pos hi]⟩
    next hi => exact Or.inl ⟨h, by simp [ends], by simp only [if_neg hi]⟩
  · split at h
    next hi => exact Or.inl ⟨Or.inl hi.1, by simp [ends], by simp only [if_pos hi]⟩
    next hi =>
      split at h
      next => simp at h
      next hj => exact Or.inl ⟨h, by simp [ends], by simp only [if_neg hi, if_neg hj]⟩
  · split at h
    next => simp at h
    next hi => exact absurd h hi
  · split at h
    next => simp at h
    next hi => exact absurd (h.elim Or.inl fun h => Or.inr (Or.inl h)) hi
  · split at h
    next hi => rcases hi with hi | hi <;> simp [hi] at h
    next => simp at h
  · split at h
    next => simp at h
    next hi => exact Or.inl ⟨h, by simp [ends], by simp only [if_neg hi]⟩

/-- An open that is pending was accepted, and nothing has ended it since. -/
theorem pending_origin {h : Nat} : ∀ {l : List Event}, (phase h l).pending →
    ∃ l4 c l5, l = l4 ++ .enter (.open h c) :: l5 ∧ phase h l5 = .idle ∧ (view h l).cbs = c ∧
      ∀ e ∈ l4, ends h e = false
  | [], hp => by simp [phase, view, Phase.pending] at hp
  | e :: l, hp => by
    by_cases he : subject e = h
    · unfold phase at hp
      rw [view_same he] at hp
      rcases next_pending _ _ hp with ⟨h1, h2, h3⟩ | ⟨h', c, h1, h2, h3⟩
      · obtain ⟨l4, c, l5, rfl, h5, h6, h7⟩ := pending_origin h1
        refine ⟨e :: l4, c, l5, rfl, h5, by rw [view_same he, h3, h6], ?_⟩
        intro x hx
        rcases List.mem_cons.1 hx with rfl | hx
        · rw [← he]; exact h2
        · exact h7 x hx
      · subst h1
        have : h' = h := he
        subst this
        exact ⟨[], c, l, rfl, h2, by rw [view_same he, h3], by simp⟩
    · have hv := view_other (l := l) he
      unfold phase at hp
      rw [hv] at hp
      obtain ⟨l4, c, l5, rfl, h5, h6, h7⟩ := pending_origin hp
      refine ⟨e :: l4, c, l5, rfl, h5, by rw [hv, h6], ?_⟩
      intro x hx
      rcases List.mem_cons.1 hx with rfl | hx
      · exact ends_other he
      · exact h7 x hx

/-- Only an open makes an open pending. -/
theorem pending_needs_open {h : Nat} {l : List Event} : ∀ {l' : List Event},
    (phase h (l' ++ l)).pending → (phase h l).pending ∨ ∃ c, .enter (.open h c) ∈ l'
  | [], hp => Or.inl hp
  | e :: l', hp => by
    by_cases he : subject e = h
    · unfold phase at hp
      rw [List.cons_append, view_same he] at hp
      rcases next_pending _ _ hp with ⟨h1, -, -⟩ | ⟨h', c, h1, -, -⟩
      · exact (pending_needs_open h1).imp id fun ⟨c, hc⟩ => ⟨c, List.mem_cons_of_mem _ hc⟩
      · subst h1
        have : h' = h := he
        subst this
        exact Or.inr ⟨c, List.mem_cons_self⟩
    · unfold phase at hp
      rw [List.cons_append, view_other he] at hp
      exact (pending_needs_open hp).imp id fun ⟨c, hc⟩ => ⟨c, List.mem_cons_of_mem _ hc⟩

/-- The events after which a TLS IO is no longer open. -/
def stops (h : Nat) : Event → Bool
  | .enter (.close h' _ _) => h' == h
  | .ret h' (.bioWrite _ bs _) n _ => h' == h && toSize n != bs.length
  | .leave (.create ..) r => r.toNat == h
  | _ => false

theorem stops_other {h : Nat} {e : Event} (he : subject e ≠ h) : stops h e = false := by
  cases e with
  | enter c => cases c <;> simp_all [stops, subject, Call.handle]
  | leave c r => cases c <;> simp_all [stops, subject, Call.handle]
  | call => rfl
  | ret h' o n bs => cases o <;> simp_all [stops, subject]

theorem next_live (v : View) (e : Event) (h : (v.next e).phase = .live) :
    (v.phase = .live ∧ stops (subject e) e = false ∧ (v.next e).cbs = v.cbs) ∨
    (∃ h' ssl n bs, e = .ret h' (.initFinished ssl) n bs ∧ n ≠ 0 ∧ v.phase = .handshake ∧
      (v.next e).cbs = v.cbs) := by
  unfold View.next at *
  split at h
  all_goals try (simp at h; done)
  all_goals try (exact Or.inl ⟨h, by simp [stops], rfl⟩)
  · split at h
    next hi => simp at h
    next hi => exact Or.inl ⟨h, by simp [stops], by simp only [if_neg hi]⟩
  · split at h
    next hi => simp at h
    next hi =>
      split at h
      next hj => exact Or.inr ⟨_, _, _, _, rfl, hj.2, hj.1, by simp only [if_neg hi, if_pos hj]⟩
      next hj => exact Or.inl ⟨h, by simp [stops], by simp only [if_neg hi, if_neg hj]⟩
  · split at h
    next => simp at h
    next hi => exact Or.inl ⟨h, by simp [stops], by simp only [if_neg hi]⟩
  · split at h
    next => simp at h
    next hi => exact Or.inl ⟨h, by simp [stops], by simp only [if_neg hi]⟩
  · split at h
    next hi => rcases hi with hi | hi <;> simp [hi] at h
    next => simp at h
  · split at h
    next => simp at h
    next hi =>
      refine Or.inl ⟨h, ?_, by simp only [if_neg hi]⟩
      simpa [stops, subject] using hi


/-- An open TLS IO has finished its handshake: OpenSSL said so for the open that is then pending,
and there was no close and no failure since. -/
theorem live_origin {h : Nat} : ∀ {l : List Event}, phase h l = .live →
    ∃ l4 ssl n bs l5, l = l4 ++ .ret h (.initFinished ssl) n bs :: l5 ∧ n ≠ 0 ∧
      phase h l5 = .handshake ∧ (view h l).cbs = (view h l5).cbs ∧ ∀ e ∈ l4, stops h e = false
  | [], hp => by simp [phase, view] at hp
  | e :: l, hp => by
    by_cases he : subject e = h
    · unfold phase at hp
      rw [view_same he] at hp
      rcases next_live _ _ hp with ⟨h1, h2, h3⟩ | ⟨h', ssl, n, bs, h1, h2, h4, h3⟩
      · obtain ⟨l4, ssl, n, bs, l5, rfl, h5, h6, h7, h8⟩ := live_origin h1
        refine ⟨e :: l4, ssl, n, bs, l5, rfl, h5, h6, by rw [view_same he, h3, h7], ?_⟩
        intro x hx
        rcases List.mem_cons.1 hx with rfl | hx
        · rw [← he]; exact h2
        · exact h8 x hx
      · subst h1
        have : h' = h := he
        subst this
        exact ⟨[], ssl, n, bs, l, rfl, h2, h4, by rw [view_same he, h3], by simp⟩
    · have hv := view_other (l := l) he
      unfold phase at hp
      rw [hv] at hp
      obtain ⟨l4, ssl, n, bs, l5, rfl, h5, h6, h7, h8⟩ := live_origin hp
      refine ⟨e :: l4, ssl, n, bs, l5, rfl, h5, h6, by rw [hv, h7], ?_⟩
      intro x hx
      rcases List.mem_cons.1 hx with rfl | hx
      · exact stops_other he
      · exact h8 x hx

/-- The open and the end of the handshake that made a TLS IO open. -/
theorem live_open {h : Nat} {l : List Event} (hp : phase h l = .live) :
    ∃ l3 ssl n bs l4 c l5,
      l = l3 ++ .ret h (.initFinished ssl) n bs :: (l4 ++ .enter (.open h c) :: l5) ∧ n ≠ 0 ∧
      phase h l5 = .idle ∧ (view h l).cbs = c ∧ (∀ e ∈ l3, stops h e = false) ∧
      ∀ e ∈ l4, ends h e = false := by
  obtain ⟨l3, ssl, n, bs, l', rfl, h1, h2, h3, h4⟩ := live_origin hp
  obtain ⟨l4, c, l5, rfl, h5, h6, h7⟩ := pending_origin (Or.inr h2)
  exact ⟨l3, ssl, n, bs, l4, c, l5, rfl, h1, h5, by rw [h3, h6], h4, h7⟩

/-- The last close that was accepted. -/
theorem next_shut (v : View) (e : Event) (h : (v.next e).phase = .shut) :
    (v.phase = .shut ∧ (∀ h', e ≠ .enter (.uClose h')) ∧ (v.next e).closeFn = v.closeFn ∧
      (v.next e).closeCtx = v.closeCtx) ∨
    (∃ h' fn ctx, e = .enter (.close h' fn ctx) ∧ v.phase ≠ .idle ∧ v.phase ≠ .shut ∧
      (v.next e).closeFn = fn ∧ (v.next e).closeCtx = ctx) := by
  unfold View.next at *
  split at h
  all_goals try (simp at h; done)
  all_goals try (refine Or.inl ⟨h, ?_, rfl, rfl⟩; simp; done)
  · split at h
    next hi => simp at h
    next hi => exact Or.inl ⟨h, by simp, by simp only [if_neg hi], by simp only [if_neg hi]⟩
  · split at h
    next hi => simp at h
    next hi =>
      split at h
      next hj => simp at h
      next hj =>
        exact Or.inl ⟨h, by simp, by simp only [if_neg hi, if_neg hj],
          by simp only [if_neg hi, if_neg hj]⟩
  · split at h
    next => simp at h
    next hi => exact Or.inl ⟨h, by simp, by simp only [if_neg hi], by simp only [if_neg hi]⟩
  · split at h
    next => simp at h
    next hi => exact absurd (Or.inr (Or.inr h)) hi
  · split at h
    next hi => exact Or.inl ⟨h, by simp, by simp only [if_pos hi], by simp only [if_pos hi]⟩
    next hi =>
      refine Or.inr ⟨_, _, _, rfl, fun hx => hi (Or.inl hx), fun hx => hi (Or.inr hx), ?_, ?_⟩ <;>
        simp only [if_neg hi]
  · split at h
    next => simp at h
    next hi => exact Or.inl ⟨h, by simp, by simp only [if_neg hi], by simp only [if_neg hi]⟩
  · next hx _ _ _ _ => exact Or.inl ⟨h, fun h' => hx h', rfl, rfl⟩

/-- A TLS IO that is being closed: its close was accepted, and the lower IO has not closed since. -/
theorem shut_origin {h : Nat} : ∀ {l : List Event}, phase h l = .shut →
    ∃ l4 fn ctx l5, l = l4 ++ .enter (.close h fn ctx) :: l5 ∧ phase h l5 ≠ .idle ∧
      phase h l5 ≠ .shut ∧ (view h l).closeFn = fn ∧ (view h l).closeCtx = ctx ∧
      .enter (.uClose h) ∉ l4
  | [], hp => by simp [phase, view] at hp
  | e :: l, hp => by
    by_cases he : subject e = h
    · unfold phase at hp
      rw [view_same he] at hp
      rcases next_shut _ _ hp with ⟨h1, h2, h3, h4⟩ | ⟨h', fn, ctx, h1, h2, h3, h4, h5⟩
      · obtain ⟨l4, fn, ctx, l5, rfl, h5, h6, h7, h8, h9⟩ := shut_origin h1
        refine ⟨e :: l4, fn, ctx, l5, rfl, h5, h6, by rw [view_same he, h3, h7],
          by rw [view_same he, h4, h8], ?_⟩
        intro hx
        rcases List.mem_cons.1 hx with hx | hx
        · exact h2 _ hx.symm
        · exact h9 hx
      · subst h1
        have : h' = h := he
        subst this
        exact ⟨[], fn, ctx, l, rfl, h2, h3, by rw [view_same he, h4], by rw [view_same he, h5],
          by simp⟩
    · have hv := view_other (l := l) he
      unfold phase at hp
      rw [hv] at hp
      obtain ⟨l4, fn, ctx, l5, rfl, h5, h6, h7, h8, h9⟩ := shut_origin hp
      refine ⟨e :: l4, fn, ctx, l5, rfl, h5, h6, by rw [hv, h7], by rw [hv, h8], ?_⟩
      intro hx
      rcases List.mem_cons.1 hx with hx | hx
      · exact he (by rw [← hx]; rfl)
      · exact h9 hx

/-- Only a close makes a TLS IO closing. -/
theorem shut_needs_close {h : Nat} {l : List Event} : ∀ {l' : List Event},
    phase h (l' ++ l) = .shut → phase h l = .shut ∨ ∃ fn ctx, .enter (.close h fn ctx) ∈ l'
  | [], hp => Or.inl hp
  | e :: l', hp => by
    by_cases he : subject e = h
    · unfold phase at hp
      rw [List.cons_append, view_same he] at hp
      rcases next_shut _ _ hp with ⟨h1, -⟩ | ⟨h', fn, ctx, h1, -⟩
      · exact (shut_needs_close h1).imp id fun ⟨f, c, hc⟩ => ⟨f, c, List.mem_cons_of_mem _ hc⟩
      · subst h1
        have : h' = h := he
        subst this
        exact Or.inr ⟨fn, ctx, List.mem_cons_self⟩
    · unfold phase at hp
      rw [List.cons_append, view_other he] at hp
      exact (shut_needs_close hp).imp id fun ⟨f, c, hc⟩ => ⟨f, c, List.mem_cons_of_mem _ hc⟩

/-- The end of the outermost delivery. -/
theorem next_cut (v : View) (e : Event) (h : (v.next e).cut = true) :
    (v.cut = true ∧ ∀ h' bs r, e = .leave (.uBytes h' bs) r → v.depth ≠ 1) ∨
    (stops (subject e) e = true ∧ v.phase = .live ∧ v.depth ≠ 0) := by
  unfold View.next at *
  split at h
  all_goals try (simp at h; done)
  all_goals try (refine Or.inl ⟨h, ?_⟩; simp; done)
  · split at h <;> exact Or.inl ⟨h, by simp⟩
  · split at h
    · exact Or.inl ⟨h, by simp⟩
    · split at h <;> exact Or.inl ⟨h, by simp⟩
  · split at h <;> exact Or.inl ⟨h, by simp⟩
  · split at h <;> exact Or.inl ⟨h, by simp⟩
  · split at h
    · exact Or.inl ⟨h, by simp⟩
    · simp only [Bool.or_eq_true, Bool.and_eq_true, beq_iff_eq, bne_iff_ne] at h
      rcases h with h | h
      · exact Or.inl ⟨h, by simp⟩
      · exact Or.inr ⟨by simp [stops, subject, Call.handle], h.1, h.2⟩
  · split at h
    next hi =>
      simp only [Bool.or_eq_true, Bool.and_eq_true, beq_iff_eq, bne_iff_ne] at h
      rcases h with h | h
      · exact Or.inl ⟨h, by simp⟩
      · exact Or.inr ⟨by simpa [stops, subject] using hi, h.1, h.2⟩
    next => exact Or.inl ⟨h, by simp⟩
  · simp only [Bool.and_eq_true, bne_iff_ne] at h
    exact Or.inl ⟨h.1, fun _ _ _ _ => h.2⟩
  · next hx => exact Or.inl ⟨h, fun h' bs r he => absurd he (hx h' bs r)⟩

/-- The TLS IO was open when it was closed, or broke, while bytes the lower IO had delivered were
being processed; and they still are. -/
theorem cut_origin {h : Nat} : ∀ {l : List Event}, (view h l).cut = true →
    ∃ l4 e l5, l = l4 ++ e :: l5 ∧ stops h e = true ∧ phase h l5 = .live ∧ (view h l5).depth ≠ 0 ∧
      ∀ l6 bs r l7, l4 = l6 ++ .leave (.uBytes h bs) r :: l7 → (view h (l7 ++ e :: l5)).depth ≠ 1
  | [], hp => by simp [view] at hp
  | e :: l, hp => by
    by_cases he : subject e = h
    · rw [view_same he] at hp
      rcases next_cut _ _ hp with ⟨h1, h2⟩ | ⟨h1, h2, h3⟩
      · obtain ⟨l4, e', l5, rfl, h5, h6, h7, h8⟩ := cut_origin h1
        refine ⟨e :: l4, e', l5, rfl, h5, h6, h7, ?_⟩
        intro l6 bs r l7 hx
        cases l6 with
        | nil => injection hx with hx1 hx2; subst hx2; exact h2 _ _ _ hx1
        | cons a l6 => injection hx with hx1 hx2; exact h8 l6 bs r l7 hx2
      · refine ⟨[], e, l, rfl, he ▸ h1, h2, h3, ?_⟩
        intro l6 bs r l7 hx
        cases l6 <;> cases hx
    · rw [view_other he] at hp
      obtain ⟨l4, e', l5, rfl, h5, h6, h7, h8⟩ := cut_origin hp
      refine ⟨e :: l4, e', l5, rfl, h5, h6, h7, ?_⟩
      intro l6 bs r l7 hx
      cases l6 with
      | nil => injection hx with hx1 hx2; exact absurd (by rw [hx1]; rfl) he
      | cons a l6 => injection hx with hx1 hx2; exact h8 l6 bs r l7 hx2

/-- What follows an entrance or a return is as specified. -/
theorem answers {m : Mach Inst Op Call} (hm : Reachable m) {l1 l2 : List Event} {e e' : Event}
    (h : m.st.log = l1 ++ e :: e' :: l2) (he : e'.asks = true) : Reacts (e' :: l2) e := by
  have ht := hm.turns h he
  refine reacts_at hm h ?_ ?_
  · intro c hc; rw [hc] at ht; cases ht
  · intro h o n bs hc; rw [hc] at ht; cases ht

/-! ### C49: opening, closing, sending, receiving -/

/-- Success is reported only to the callback of an open that was accepted and has not ended since,
right after OpenSSL has said that the handshake has finished. -/
theorem ok_justified {m : Mach Inst Op Call} (hm : Reachable m) {l1 l2 : List Event}
    {h fn ctx : Nat} (hl : m.st.log = l1 ++ .call h (.onOpen fn ctx .ok) :: l2) :
    ∃ n bs l4 c l5,
      l2 = .ret h (.initFinished (view h l2).ssl) n bs :: (l4 ++ .enter (.open h c) :: l5) ∧
      n ≠ 0 ∧ phase h l5 = .idle ∧ fn = c.openFn ∧ ctx = c.openCtx ∧ ∀ e ∈ l4, ends h e = false := by
  obtain ⟨-, ssl, n, bs, l', h1, h2, h3, h4, -, h5, h6⟩ := claim_at hm hl
  obtain ⟨l4, c, l5, h7, h8, h9, h10⟩ := pending_origin (Or.inr h4)
  rw [h9] at h5 h6
  refine ⟨n, bs, l4, c, l5, ?_, h3, h8, h5, h6, h10⟩
  rw [← h7, ← h2]
  exact h1

/-- Success is reported at most once for an open: between two reports there is another open. -/
theorem ok_once {m : Mach Inst Op Call} (hm : Reachable m) {l1 l2 l3 : List Event}
    {h fn ctx fn' ctx' : Nat} (hl : m.st.log = l1 ++ .call h (.onOpen fn ctx .ok) ::
      (l2 ++ .call h (.onOpen fn' ctx' .ok) :: l3)) : ∃ c, .enter (.open h c) ∈ l2 := by
  obtain ⟨-, ssl, n, bs, l', h1, -, h3, h4, -⟩ := claim_at hm hl
  obtain ⟨-, ssl2, n2, bs2, l4, h5, -, h6, h7, -⟩ :=
    claim_at hm (show m.st.log = (l1 ++ .call h (.onOpen fn ctx .ok) :: l2) ++
      .call h (.onOpen fn' ctx' .ok) :: l3 by rw [hl]; simp)
  have hlive : phase h (.call h (.onOpen fn' ctx' .ok) :: l3) = .live := by
    subst h5
    unfold phase at h7 ⊢
    rw [view_same (show subject (.call h (.onOpen fn' ctx' .ok)) = h from rfl),
      view_same (show subject (.ret h (.initFinished ssl2) n2 bs2) = h from rfl)]
    simp [View.next, h7, h6]
  cases l2 with
  | nil =>
    injection h1 with h1
    cases h1
  | cons e l2 =>
    injection h1 with _ h1
    subst h1
    rcases pending_needs_open (Or.inr h4) with hx | ⟨c, hc⟩
    · rw [hlive] at hx
      rcases hx with hx | hx <;> cases hx
    · exact ⟨c, List.mem_cons_of_mem _ hc⟩

/-- When OpenSSL says that the handshake has finished, the callback of the open is called at once. -/
theorem ok_reported {m : Mach Inst Op Call} (hm : Reachable m) {l1 l2 : List Event} {e : Event}
    {h ssl : Nat} {n : Int} {bs : Bytes}
    (hl : m.st.log = l1 ++ e :: .ret h (.initFinished ssl) n bs :: l2) (hn : n ≠ 0)
    (hp : phase h l2 = .handshake) (hfn : (view h l2).cbs.openFn ≠ 0) :
    e = .call h (.onOpen (view h l2).cbs.openFn (view h l2).cbs.openCtx .ok) := by
  have := answers hm hl rfl
  simpa [Reacts, hp, hn, hfn] using this

/-- When the lower IO fails or closes while an open is pending, its callback is told at once. -/
theorem failure_reported {m : Mach Inst Op Call} (hm : Reachable m) {l1 l2 : List Event}
    {e e' : Event} {h : Nat} (hl : m.st.log = l1 ++ e :: e' :: l2)
    (he : e' = .enter (.uError h) ∨ e' = .enter (.uClose h)) (hp : (phase h l2).pending) :
    ∃ l4 c l5, l2 = l4 ++ .enter (.open h c) :: l5 ∧ phase h l5 = .idle ∧
      (∀ x ∈ l4, ends h x = false) ∧
      (c.openFn ≠ 0 → e = .call h (.onOpen c.openFn c.openCtx .error)) := by
  obtain ⟨l4, c, l5, h1, h2, h3, h4⟩ := pending_origin hp
  refine ⟨l4, c, l5, h1, h2, h4, fun hc => ?_⟩
  rw [← h3] at hc ⊢
  rcases he with rfl | rfl
  · have := answers hm hl rfl
    simpa [Reacts, show phase h l2 = .opening ∨ phase h l2 = .handshake from hp, tells, hc] using this
  · have := answers hm hl rfl
    simpa [Reacts, show phase h l2 = .opening ∨ phase h l2 = .handshake from hp, tells, hc] using this

/-- A second open is refused while the first is pending or the TLS IO is open or closing; the
callbacks stay those of the first. -/
theorem open_refused {m : Mach Inst Op Call} (hm : Reachable m) {l1 l2 : List Event} {e : Event}
    {h : Nat} {c : Cbs} (hl : m.st.log = l1 ++ e :: .enter (.open h c) :: l2)
    (hp : phase h l2 ≠ .idle) :
    (∃ r, r ≠ 0 ∧ e = .leave (.open h c) r) ∧ view h (.enter (.open h c) :: l2) = view h l2 := by
  have := answers hm hl rfl
  refine ⟨by simpa [Reacts, hp, refuses] using this, ?_⟩
  unfold phase at hp
  rw [view_same (show subject (.enter (.open h c)) = h from rfl)]
  simp [View.next, hp]

/-- A close is refused unless the TLS IO is opening, open or broken. -/
theorem close_refused {m : Mach Inst Op Call} (hm : Reachable m) {l1 l2 : List Event} {e : Event}
    {h fn ctx : Nat} (hl : m.st.log = l1 ++ e :: .enter (.close h fn ctx) :: l2)
    (hp : phase h l2 = .idle ∨ phase h l2 = .shut) :
    ∃ r, r ≠ 0 ∧ e = .leave (.close h fn ctx) r := by
  have := answers hm hl rfl
  rcases hp with hp | hp <;> simpa [Reacts, hp, refuses] using this

/-- An open that is accepted opens the lower IO; it succeeds exactly if that does. -/
theorem open_result {m : Mach Inst Op Call} (hm : Reachable m) {l1 l2 : List Event} {e : Event}
    {h io c1 c2 c3 : Nat} {n : Int} {bs : Bytes}
    (hl : m.st.log = l1 ++ e :: .ret h (.xioOpen io c1 c2 c3) n bs :: l2) :
    ∃ c r, e = .leave (.open h c) r ∧ (r = 0 ↔ n = 0) := answers hm hl rfl

/-- If OpenSSL says that the handshake has finished before it has begun, which it does for a TLS IO
that was open before (the SSL object is not renewed), the lower IO is closed again. -/
theorem reopen_gives_up {m : Mach Inst Op Call} (hm : Reachable m) {l1 l2 : List Event} {e : Event}
    {h ssl : Nat} {n : Int} {bs : Bytes}
    (hl : m.st.log = l1 ++ e :: .ret h (.initFinished ssl) n bs :: l2) (hn : n ≠ 0)
    (hp : phase h l2 = .opening) : e = .call h (.xioClose (view h l2).io h) := by
  have := answers hm hl rfl
  simpa [Reacts, hp, hn] using this

/-- A send is refused at once unless the TLS IO is open: nothing is passed to anyone. -/
theorem send_refused {m : Mach Inst Op Call} (hm : Reachable m) {l1 l2 : List Event} {e : Event}
    {h fn ctx : Nat} {bs : Bytes} (hl : m.st.log = l1 ++ e :: .enter (.send h bs fn ctx) :: l2)
    (hp : phase h l2 ≠ .live) : ∃ r, r ≠ 0 ∧ e = .leave (.send h bs fn ctx) r := by
  have := answers hm hl rfl
  simpa [Reacts, hp, refuses] using this

/-- A send that succeeds was made on an open TLS IO, and OpenSSL was given, and took, exactly the
bytes of the caller. -/
theorem send_accepted {m : Mach Inst Op Call} (hm : Reachable m) {l1 l2 : List Event}
    {h fn ctx : Nat} {bs : Bytes} (hl : m.st.log = l1 ++ .leave (.send h bs fn ctx) 0 :: l2) :
    ∃ l0 ssl bs' l', l2 = l0 ++ .ret h (.sslWrite ssl bs bs.length) bs.length bs' ::
        .call h (.sslWrite ssl bs bs.length) :: .enter (.send h bs fn ctx) :: l' ∧
      phase h l' = .live := by
  obtain ⟨-, -, h2⟩ := claim_at hm hl
  obtain ⟨l0, ssl, bs', l', h3, h4, -⟩ := h2 rfl
  exact ⟨l0, ssl, bs', l', h3, h4⟩

/-- OpenSSL is given only the bytes a send has just been called with, for an open TLS IO. -/
theorem written {m : Mach Inst Op Call} (hm : Reachable m) {l1 l2 : List Event} {h ssl : Nat}
    {bs : Bytes} {num : Int} (hl : m.st.log = l1 ++ .call h (.sslWrite ssl bs num) :: l2) :
    ∃ fn ctx l', l2 = .enter (.send h bs fn ctx) :: l' ∧ phase h l' = .live ∧
      ssl = (view h l').ssl := by
  obtain ⟨-, fn, ctx, l', h1, h2, h3, -⟩ := claim_at hm hl
  exact ⟨fn, ctx, l', h1, h2, h3⟩

/-- Bytes are delivered to the callback of the open, exactly as OpenSSL has just decrypted them,
and only if the TLS IO is open, or was when it was closed or broke while the bytes the lower IO
had delivered were being processed. -/
theorem delivered_partial {m : Mach Inst Op Call} (hm : Reachable m) {l1 l2 : List Event} {h fn ctx : Nat}
    {bs : Bytes} (hl : m.st.log = l1 ++ .call h (.onBytes fn ctx bs) :: l2) :
    ∃ l', l2 = .ret h (.sslRead (view h l2).ssl 64) bs.length bs :: l' ∧ bs ≠ [] ∧
      fn = (view h l').cbs.bytesFn ∧ ctx = (view h l').cbs.bytesCtx ∧
      (phase h l' = .live ∨
        ∃ l4 e l5, l' = l4 ++ e :: l5 ∧ stops h e = true ∧ phase h l5 = .live ∧
          (view h l5).depth ≠ 0 ∧ ∀ l6 bs r l7, l4 = l6 ++ .leave (.uBytes h bs) r :: l7 →
            (view h (l7 ++ e :: l5)).depth ≠ 1) := by
  obtain ⟨-, ssl, n, l', h1, h2, h3, h4, h5, -, h6, h7⟩ := claim_at hm hl
  refine ⟨l', by rw [← h2, ← h3]; exact h1, ?_, h6, h7, ?_⟩
  · rintro rfl
    rw [h3] at h4
    exact absurd h4 (by simp)
  · exact h5.imp id cut_origin

/-- Everything OpenSSL decrypts is delivered, in order: as long as it gives bytes, the next thing
that happens is their delivery (if there is a callback), and then the next read. -/
theorem all_delivered {m : Mach Inst Op Call} (hm : Reachable m) {l1 l2 : List Event} {e : Event}
    {h ssl : Nat} {n num : Int} {bs : Bytes}
    (hl : m.st.log = l1 ++ e :: .ret h (.sslRead ssl num) n bs :: l2) (hn : 0 < n)
    (hf : (view h l2).cbs.bytesFn ≠ 0) :
    e = .call h (.onBytes (view h l2).cbs.bytesFn (view h l2).cbs.bytesCtx bs) := by
  have := answers hm hl rfl
  simpa [Reacts, hf, show ¬ n ≤ 0 by omega] using this

/-- After a delivery the next read follows at once. -/
theorem reads_on {m : Mach Inst Op Call} (hm : Reachable m) {l1 l2 : List Event} {e : Event}
    {h fn ctx : Nat} {n : Int} {bs bs' : Bytes}
    (hl : m.st.log = l1 ++ e :: .ret h (.onBytes fn ctx bs) n bs' :: l2) :
    e = .call h (.sslRead (view h l2).ssl 64) := answers hm hl rfl

/-- The end of a close is reported to the callback of the last close that was accepted, when the
lower IO has closed. -/
theorem close_reported {m : Mach Inst Op Call} (hm : Reachable m) {l1 l2 : List Event}
    {h fn ctx : Nat} (hl : m.st.log = l1 ++ .call h (.onClose fn ctx) :: l2) :
    ∃ l4 l5, l2 = .enter (.uClose h) :: (l4 ++ .enter (.close h fn ctx) :: l5) ∧
      phase h l5 ≠ .idle ∧ phase h l5 ≠ .shut ∧ .enter (.uClose h) ∉ l4 := by
  obtain ⟨-, l', h1, h2, -, h3, h4⟩ := claim_at hm hl
  obtain ⟨l4, fn', ctx', l5, h5, h6, h7, h8, h9, h10⟩ := shut_origin h2
  rw [h8] at h3
  rw [h9] at h4
  subst h3 h4
  exact ⟨l4, l5, by rw [h1, h5], h6, h7, h10⟩

/-- It is reported at most once. -/
theorem close_once {m : Mach Inst Op Call} (hm : Reachable m) {l1 l2 l3 : List Event}
    {h fn ctx fn' ctx' : Nat} (hl : m.st.log = l1 ++ .call h (.onClose fn ctx) ::
      (l2 ++ .call h (.onClose fn' ctx') :: l3)) : ∃ f c, .enter (.close h f c) ∈ l2 := by
  obtain ⟨-, l', h1, h2, -⟩ := claim_at hm hl
  obtain ⟨-, l4, h3, h4, -⟩ :=
    claim_at hm (show m.st.log = (l1 ++ .call h (.onClose fn ctx) :: l2) ++
      .call h (.onClose fn' ctx') :: l3 by rw [hl]; simp)
  have hidle : phase h (.call h (.onClose fn' ctx') :: l3) = .idle := by
    subst h3
    unfold phase at h4 ⊢
    rw [view_same (show subject (.call h (.onClose fn' ctx')) = h from rfl),
      view_same (show subject (.enter (.uClose h)) = h from rfl)]
    simp [View.next, h4]
  cases l2 with
  | nil =>
    injection h1 with h1
    cases h1
  | cons e l2 =>
    injection h1 with _ h1
    subst h1
    rcases shut_needs_close h2 with hx | ⟨f, c, hc⟩
    · rw [hidle] at hx; cases hx
    · exact ⟨f, c, List.mem_cons_of_mem _ hc⟩

/-- When the lower IO has closed and a close is going on, its callback is called at once. -/
theorem close_answered {m : Mach Inst Op Call} (hm : Reachable m) {l1 l2 : List Event} {e : Event}
    {h : Nat} (hl : m.st.log = l1 ++ e :: .enter (.uClose h) :: l2) (hp : phase h l2 = .shut)
    (hf : (view h l2).closeFn ≠ 0) :
    e = .call h (.onClose (view h l2).closeFn (view h l2).closeCtx) := by
  have := answers hm hl rfl
  simpa [Reacts, hp, tells, hf] using this

/-! ### C59: only what OpenSSL has encrypted is sent, and all of it -/

/-- The lower IO is given exactly the bytes OpenSSL has just put out for this TLS IO. -/
theorem ciphertext_only {m : Mach Inst Op Call} (hm : Reachable m) {l1 l2 : List Event}
    {h io buf size fn ctx : Nat} {bs : Bytes}
    (hl : m.st.log = l1 ++ .call h (.xioSend io buf bs size fn ctx) :: l2) :
    (∃ l', l2 = .ret h (.bioRead (view h l2).outBio buf bs.length) bs.length bs :: l') ∧
      io = (view h l2).io ∧ size = bs.length ∧ bs ≠ [] ∧
      ((fn = 0 ∧ ctx = 0 ∧ phase h l2 = .handshake) ∨
        ∃ bs0, lastEnter l2 = some (.send h bs0 fn ctx)) := by
  obtain ⟨-, bio, num, l', h1, h2, h3, h4, h5, h6, h7⟩ := claim_at hm hl
  refine ⟨⟨l', by rw [← h2, ← h5]; exact h1⟩, h3, h6, ?_, h7⟩
  rintro rfl
  rw [h5] at h4
  exact absurd h4 (by simp)

/-- What OpenSSL has received is what the lower IO has delivered. -/
theorem received {m : Mach Inst Op Call} (hm : Reachable m) {l1 l2 : List Event} {h bio : Nat}
    {bs : Bytes} {num : Int} (hl : m.st.log = l1 ++ .call h (.bioWrite bio bs num) :: l2) :
    ∃ l', l2 = .enter (.uBytes h bs) :: l' ∧ bio = (view h l').inBio ∧ num = toInt bs.length :=
  (claim_at hm hl).2

/-- A send succeeds exactly if OpenSSL had nothing to put out, or the lower IO has accepted all
that it put out. -/
theorem send_result {m : Mach Inst Op Call} (hm : Reachable m) {l1 l2 : List Event} {h fn ctx : Nat}
    {bs : Bytes} {r : Int} (hl : m.st.log = l1 ++ .leave (.send h bs fn ctx) r :: l2) : Sent l2 r :=
  (claim_at hm hl).2.1

/-! ### C60: resources, function by function (all together: `Ledger.lean`) -/

/-- A creation that succeeds gives a TLS IO that was not alive, and holds what it owns and nothing
else; one that fails holds nothing, except the lower IO if it was made. -/
theorem create_holds {m : Mach Inst Op Call} (hm : Reachable m) {l1 l2 : List Event}
    {cfg : Option Config} {lg : Nat} {r : Int}
    (hl : m.st.log = l1 ++ .leave (.create cfg lg) r :: l2) :
    if r = 0 then ∀ x, held x l2 = held x (beforeEnter l2) + one x .io (newIo l2)
    else cfg ≠ none ∧ (view r.toNat l2).logger = lg ∧ 0 < r ∧ r.toNat ∉ alives l2 ∧
      ∀ x, held x l2 = held x (beforeEnter l2) + own x r.toNat (view r.toNat l2) :=
  (claim_at hm hl).2

/-- Destruction releases exactly what the TLS IO owns. -/
theorem destroy_releases {m : Mach Inst Op Call} (hm : Reachable m) {l1 l2 : List Event} {h : Nat}
    {r : Int} (hl : m.st.log = l1 ++ .leave (.destroy h) r :: l2) (hh : h ≠ 0) (x : Res) :
    held x l2 = held x (beforeEnter l2) - own x h (view h l2) := by
  have := (claim_at hm hl).2.2 x
  rwa [if_neg hh] at this

/-- Setting the trusted certificates holds nothing more in the end, except, if it succeeds, the
certificate. -/
theorem setoption_holds {m : Mach Inst Op Call} (hm : Reachable m) {l1 l2 : List Event} {h value : Nat}
    {r : Int} (hl : m.st.log = l1 ++ .leave (.setoption h (some trustedCerts) value) r :: l2)
    (x : Res) :
    held x l2 = held x (beforeEnter l2) + if r = 0 then one x .cert (newCert l2) else 0 :=
  (claim_at hm hl).2 rfl x

end Verif.Tls
