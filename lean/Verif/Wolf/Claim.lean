import Verif.Wolf.Life

/-
The TLS IO over wolfSSL: what its user can rely on (C62-C65), for every sequence of calls by the
user, of callbacks by the lower IO and by wolfSSL, and of answers, at any depth of re-entrance.

The log of a state has the newest event first: in `l1 ++ e :: l2` the events `l2` came before `e`
and the events `l1` after it.
-/
namespace Verif.Wolf
open Verif.Game

/-- The states of the module that can come about in the standard environment. -/
abbrev Reachable (m : Mach Inst Op Call) : Prop := Reach (sys std) m

theorem claim_at {m : Mach Inst Op Call} (hm : Reachable m) {l1 l2 : List Event} {e : Event}
    (h : m.st.log = l1 ++ e :: l2) : Claim l2 e := by
  have hg := (sound.reach hm).holds
  rw [h] at hg
  exact hg.at

theorem reacts_at {m : Mach Inst Op Call} (hm : Reachable m) {l1 l2 : List Event} {e : Event}
    (h : m.st.log = l1 ++ e :: l2) (he : ∀ c, e ≠ .enter c) (hr : ∀ h o n bs, e ≠ .ret h o n bs) :
    Reacts l2 e := by
  have := claim_at hm h
  cases e with
  | enter c => exact absurd rfl (he c)
  | ret h' o n bs => exact absurd rfl (hr h' o n bs)
  | call h o => exact this.1
  | leave c r => exact this.2.1

/-- What follows an entrance or a return is as specified. -/
theorem answers {m : Mach Inst Op Call} (hm : Reachable m) {l1 l2 : List Event} {e e' : Event}
    (h : m.st.log = l1 ++ e :: e' :: l2) (he : e'.asks = true) : Reacts (e' :: l2) e := by
  have ht := hm.turns h he
  refine reacts_at hm h ?_ ?_
  · intro c hc; rw [hc] at ht; cases ht
  · intro h o n bs hc; rw [hc] at ht; cases ht

/-- No field is read before it is written, no dead instance is touched, nothing is read or stored
outside the block for received bytes. -/
theorem no_undefined_behaviour {m : Mach Inst Op Call} (hm : Reachable m) : m.wrong = false :=
  (sound.reach hm).right

/-! ### Phases, in terms of the events alone -/

/-- How a fact about a TLS IO came about. -/
theorem origin {h : Nat} {P : View → Prop} {ends : Event → Prop} {starts : View → Event → Prop}
    (h0 : ¬ P {}) (hs : ∀ v e, subject e = h → P (v.next e) → (P v ∧ ¬ ends e) ∨ starts v e)
    (ho : ∀ e, ends e → subject e = h) : ∀ {l : List Event}, P (view h l) →
    ∃ l4 e l5, l = l4 ++ e :: l5 ∧ subject e = h ∧ starts (view h l5) e ∧ ∀ x ∈ l4, ¬ ends x
  | [], hp => absurd hp h0
  | e :: l, hp => by
    have key : P (view h l) → ¬ ends e → ∃ l4 e' l5, e :: l = l4 ++ e' :: l5 ∧ subject e' = h ∧
        starts (view h l5) e' ∧ ∀ x ∈ l4, ¬ ends x := by
      intro h1 h2
      obtain ⟨l4, e', l5, rfl, h5, h6, h7⟩ := origin h0 hs ho h1
      refine ⟨e :: l4, e', l5, rfl, h5, h6, fun x hx => ?_⟩
      rcases List.mem_cons.1 hx with rfl | hx
      · exact h2
      · exact h7 x hx
    by_cases he : subject e = h
    · rw [view_same he] at hp
      rcases hs _ _ he hp with ⟨h1, h2⟩ | h1
      · exact key h1 h2
      · exact ⟨[], e, l, rfl, he, h1, by simp⟩
    · rw [view_other he] at hp
      exact key hp (fun hx => he (ho e hx))

/-- A fact that did not hold before was brought about since. -/
theorem brought {h : Nat} {P : View → Prop} {starts : View → Event → Prop}
    (hs : ∀ v e, subject e = h → P (v.next e) → P v ∨ starts v e) {l : List Event} : ∀ {l' : List Event},
    P (view h (l' ++ l)) → P (view h l) ∨ ∃ e ∈ l', subject e = h ∧ ∃ v, starts v e
  | [], hp => Or.inl hp
  | e :: l', hp => by
    have key : P (view h (l' ++ l)) → P (view h l) ∨ ∃ x ∈ e :: l', subject x = h ∧ ∃ v, starts v x :=
      fun h1 => (brought hs h1).imp id fun ⟨x, hx, h2⟩ => ⟨x, List.mem_cons_of_mem _ hx, h2⟩
    by_cases he : subject e = h
    · rw [List.cons_append, view_same he] at hp
      rcases hs _ _ he hp with h1 | h1
      · exact key h1
      · exact Or.inr ⟨e, List.mem_cons_self, he, _, h1⟩
    · rw [List.cons_append, view_other he] at hp
      exact key hp

/-- The lower IO is open now. -/
def lowerOpens (h : Nat) (e : Event) : Prop :=
  e = .enter (.uOpen h .ok) ∨ ∃ io c1 c2 c3 bs, e = .ret h (.xioOpen io c1 c2 c3) 0 bs

/-- The events that end a handshake, or the time after it. -/
inductive Stops (h : Nat) : Event → Prop
  | close (fn ctx : Nat) : Stops h (.enter (.close h fn ctx))
  | error : Stops h (.enter (.uError h))
  | noOpen (r : OpenResult) : r ≠ .ok → Stops h (.enter (.uOpen h r))
  | noSend (io : Nat) (bs : Bytes) (size fn ctx : Nat) (n : Int) (bs' : Bytes) : n ≠ 0 →
      Stops h (.ret h (.xioSend io bs size fn ctx) n bs')
  | created (cfg : Option Config) (lg : Nat) (r : Int) : r.toNat = h → Stops h (.leave (.create cfg lg) r)

theorem Stops.subject {h : Nat} {e : Event} (he : Stops h e) : subject e = h := by
  cases he <;> first | rfl | assumption

theorem next_handshake {h : Nat} (v : View) (e : Event) (he : subject e = h)
    (hp : (v.next e).phase = .handshake) :
    (v.phase = .handshake ∧ ¬ (Stops h e ∨ e = .enter (.wDone h))) ∨ lowerOpens h e := by
  by_cases hx : Stops h e ∨ e = .enter (.wDone h)
  · exfalso
    rcases hx with hx | rfl
    · cases hx <;> simp [View.next] at hp <;> first
        | (split at hp <;> simp_all; done)
        | simp_all
    · simp [View.next] at hp
      split at hp <;> simp_all
  · rw [and_iff_left hx]
    unfold View.next at hp
    split at hp <;> (try split at hp) <;> (try split at hp) <;>
      simp_all [subject, Call.handle, lowerOpens]

/-- A handshake is going on: the lower IO was opened, and there was no close, no failure and no end
of the handshake since. -/
theorem handshake_origin {h : Nat} {l : List Event} (hp : phase h l = .handshake) :
    ∃ l4 e l5, l = l4 ++ e :: l5 ∧ lowerOpens h e ∧
      ∀ x ∈ l4, ¬ (Stops h x ∨ x = .enter (.wDone h)) := by
  obtain ⟨l4, e, l5, h1, -, h2, h3⟩ := origin (P := fun v => v.phase = .handshake)
    (starts := fun _ e => lowerOpens h e) (by simp) next_handshake
    (by rintro e (hx | rfl) <;> first | exact hx.subject | rfl) hp
  exact ⟨l4, e, l5, h1, h2, h3⟩

theorem next_live {h : Nat} (v : View) (e : Event) (he : subject e = h)
    (hp : (v.next e).phase = .live) :
    (v.phase = .live ∧ ¬ (Stops h e ∨ lowerOpens h e)) ∨ (v.phase = .handshake ∧ e = .enter (.wDone h)) := by
  by_cases hx : Stops h e ∨ lowerOpens h e
  · exfalso
    rcases hx with hx | hx
    · cases hx <;> simp [View.next] at hp <;> first
        | (split at hp <;> simp_all; done)
        | simp_all
    · rcases hx with rfl | ⟨_, _, _, _, _, rfl⟩ <;> simp [View.next] at hp
  · rw [and_iff_left hx]
    unfold View.next at hp
    split at hp <;> (try split at hp) <;> (try split at hp) <;>
      simp_all [subject, Call.handle]

/-- A TLS IO is open: wolfSSL has said that the handshake has finished, and there was no close and
no failure since. -/
theorem live_origin {h : Nat} {l : List Event} (hp : phase h l = .live) :
    ∃ l4 l5, l = l4 ++ .enter (.wDone h) :: l5 ∧ phase h l5 = .handshake ∧
      ∀ x ∈ l4, ¬ (Stops h x ∨ lowerOpens h x) := by
  obtain ⟨l4, e, l5, h1, -, h2, h3⟩ := origin (P := fun v => v.phase = .live)
    (starts := fun v e => v.phase = .handshake ∧ e = .enter (.wDone h)) (by simp) next_live
    (by
      rintro e (hx | rfl | ⟨_, _, _, _, _, rfl⟩) <;> first | exact hx.subject | rfl) hp
  obtain ⟨h2, rfl⟩ := h2
  exact ⟨l4, l5, h1, h2, h3⟩

/-- An open that is accepted, or a creation: the callbacks change. -/
theorem next_cbs {h : Nat} {c : Cbs} (hc : c ≠ ⟨0, 0, 0, 0, 0, 0⟩) (v : View) (e : Event)
    (he : subject e = h) (hp : (v.next e).cbs = c) :
    (v.cbs = c ∧ ¬ ∃ cfg lg r, e = .leave (.create cfg lg) r ∧ r.toNat = h) ∨
      (v.phase = .idle ∧ e = .enter (.open h c)) := by
  by_cases hx : ∃ cfg lg r, e = .leave (.create cfg lg) r ∧ r.toNat = h
  · exfalso
    obtain ⟨_, _, _, rfl, _⟩ := hx
    exact hc hp.symm
  · rw [and_iff_left hx]
    unfold View.next at hp
    split at hp <;> (try split at hp) <;> (try split at hp) <;>
      simp_all [subject, Call.handle]

/-- The callbacks of a TLS IO are those of an open that was accepted. -/
theorem cbs_origin {h : Nat} {l : List Event} (hp : (view h l).cbs ≠ ⟨0, 0, 0, 0, 0, 0⟩) :
    ∃ l4 l5, l = l4 ++ .enter (.open h (view h l).cbs) :: l5 ∧ phase h l5 = .idle ∧
      ∀ cfg lg r, r.toNat = h → .leave (.create cfg lg) r ∉ l4 := by
  obtain ⟨l4, e, l5, h1, -, h2, h3⟩ := origin (P := fun v => v.cbs = (view h l).cbs)
    (ends := fun e => ∃ cfg lg r, e = .leave (.create cfg lg) r ∧ r.toNat = h)
    (starts := fun v e => v.phase = .idle ∧ e = .enter (.open h (view h l).cbs))
    (fun hx => hp hx.symm) (next_cbs hp)
    (by rintro e ⟨_, _, _, rfl, hr⟩; exact hr) (l := l) rfl
  obtain ⟨h2, rfl⟩ := h2
  exact ⟨l4, l5, h1, h2, fun cfg lg r hr hm => h3 _ hm ⟨cfg, lg, r, rfl, hr⟩⟩

theorem next_shut {h fn ctx : Nat} (v : View) (e : Event) (he : subject e = h)
    (hp : (v.next e).phase = .shut ∧ (v.next e).closeFn = fn ∧ (v.next e).closeCtx = ctx) :
    ((v.phase = .shut ∧ v.closeFn = fn ∧ v.closeCtx = ctx) ∧
        ¬ ∃ cfg lg r, e = .leave (.create cfg lg) r ∧ r.toNat = h) ∨
      ((v.phase ≠ .idle ∧ v.phase ≠ .shut) ∧ e = .enter (.close h fn ctx)) := by
  by_cases hx : ∃ cfg lg r, e = .leave (.create cfg lg) r ∧ r.toNat = h
  · exfalso
    obtain ⟨_, _, _, rfl, _⟩ := hx
    cases hp.1
  · rw [and_iff_left hx]
    unfold View.next at hp
    split at hp <;> (try split at hp) <;> (try split at hp) <;>
      simp_all [subject, Call.handle]

/-- A TLS IO that is being closed: the close was accepted, of a TLS IO that was not idle. -/
theorem shut_origin {h : Nat} {l : List Event} (hp : phase h l = .shut) :
    ∃ l4 l5, l = l4 ++ .enter (.close h (view h l).closeFn (view h l).closeCtx) :: l5 ∧
      phase h l5 ≠ .idle ∧ phase h l5 ≠ .shut ∧
      ∀ cfg lg r, r.toNat = h → .leave (.create cfg lg) r ∉ l4 := by
  obtain ⟨l4, e, l5, h1, -, h2, h3⟩ := origin
    (P := fun v => v.phase = .shut ∧ v.closeFn = (view h l).closeFn ∧ v.closeCtx = (view h l).closeCtx)
    (ends := fun e => ∃ cfg lg r, e = .leave (.create cfg lg) r ∧ r.toNat = h)
    (starts := fun v e => (v.phase ≠ .idle ∧ v.phase ≠ .shut) ∧
      e = .enter (.close h (view h l).closeFn (view h l).closeCtx))
    (by simp) next_shut
    (by rintro e ⟨_, _, _, rfl, hr⟩; exact hr) (l := l) ⟨hp, rfl, rfl⟩
  obtain ⟨⟨h2, h2'⟩, rfl⟩ := h2
  exact ⟨l4, l5, h1, h2, h2', fun cfg lg r hr hm => h3 _ hm ⟨cfg, lg, r, rfl, hr⟩⟩

/-! ### C62: the bytes of the lower IO reach wolfSSL, all of them, in order -/

theorem accepted_cons {h : Nat} {e : Event} {l : List Event}
    (h1 : ∀ h' p n m bs, e ≠ .ret h' (.realloc p n) m bs)
    (h2 : ∀ cfg lg r, e ≠ .leave (.create cfg lg) r) : accepted h (e :: l) = accepted h l := by
  cases e with
  | enter c => rfl
  | call h' o => rfl
  | ret h' o n bs => cases o <;> first | rfl | exact absurd rfl (h1 _ _ _ _ _)
  | leave c r => cases c <;> first | rfl | exact absurd rfl (h2 _ _ _)

theorem fetched_cons {h : Nat} {e : Event} {l : List Event}
    (h1 : ∀ h' p bs, e ≠ .call h' (.copyOut p bs))
    (h2 : ∀ cfg lg r, e ≠ .leave (.create cfg lg) r) : fetched h (e :: l) = fetched h l := by
  cases e with
  | enter c => rfl
  | call h' o => cases o <;> first | rfl | exact absurd rfl (h1 _ _ _)
  | ret h' o n bs => rfl
  | leave c r => cases c <;> first | rfl | exact absurd rfl (h2 _ _ _)

theorem pend_cons {h : Nat} {e : Event} {l : List Event}
    (h1 : ∀ h' p n m bs, e ≠ .ret h' (.realloc p n) m bs)
    (h2 : ∀ h' p bs, e ≠ .call h' (.copyOut p bs))
    (h3 : ∀ cfg lg r, e ≠ .leave (.create cfg lg) r) : (view h (e :: l)).pend = (view h l).pend := by
  rw [view_cons]
  split
  · unfold View.next
    split <;> first
      | rfl
      | exact absurd rfl (h1 _ _ _ _ _)
      | exact absurd rfl (h2 _ _ _)
      | exact absurd rfl (h3 _ _ _)
      | (split <;> rfl)
  · rfl

theorem stream_holds {h : Nat} : ∀ {l : List Event}, Holds Claim l →
    accepted h l = fetched h l ++ (view h l).pend
  | [], _ => rfl
  | e :: l, hc => by
    have ih := stream_holds (h := h) (Holds.tail (l1 := [e]) hc)
    have he : Claim l e := Holds.at (l1 := []) hc
    by_cases h1 : ∃ h' p n m bs, e = .ret h' (.realloc p n) m bs
    · obtain ⟨h', p, n, m, bs, rfl⟩ := h1
      rw [fetched_cons (by simp) (by simp)]
      obtain ⟨l0, rfl⟩ : ∃ l0, l = .call h' (.realloc p n) :: l0 := by
        have := he.2.2 rfl
        cases l with
        | nil => cases this
        | cons a l0 => injection this with this; exact ⟨l0, by rw [this]⟩
      have hcall : Claim l0 (.call h' (.realloc p n)) :=
        Holds.at (l1 := [.ret h' (.realloc p n) m bs]) hc
      obtain ⟨hre, hp, -, -, hcase⟩ := hcall
      rcases hcase with ⟨bs0, l', rfl, hn⟩ | ⟨hch, hn, -⟩
      · show (if h' = h ∧ m ≠ 0 then accepted h l' ++ bs0 else accepted h l') = _
        have e1 : accepted h (.call h' (.realloc p n) :: .enter (.uBytes h' bs0) :: l') =
            accepted h l' := rfl
        rw [e1] at ih
        by_cases hh : h' = h
        · subst hh
          have hv : view h' (.call h' (.realloc p n) :: .enter (.uBytes h' bs0) :: l') =
              { view h' l' with chunk := some bs0 } := by
            simp [view, View.next, subject, Call.handle]
          rw [hv] at ih
          rw [view_same (show subject (.ret h' (.realloc p n) m bs) = h' from rfl), hv]
          by_cases hm : m = 0
          · simp [hm, View.next, ih]
          · simp [hm, View.next, ih]
        · rw [if_neg (fun hx => hh hx.1), view_other (show subject (.ret h' (.realloc p n) m bs) ≠ h from hh)]
          exact ih
      · have e1 : accepted h (.ret h' (.realloc p n) m bs :: .call h' (.realloc p n) :: l0) =
            accepted h l0 := by
          cases l0 with
          | nil => rfl
          | cons a l0 =>
            cases a with
            | enter c =>
              cases c with
              | uBytes h2 bs2 =>
                exfalso
                have : h2 = h' := by
                  simp only [Reacts] at hre
                  injection hre with hre
                  exact hre.symm
                subst this
                simp [view, View.next, subject, Call.handle] at hch
              | _ => rfl
            | _ => rfl
        have e2 : accepted h (.call h' (.realloc p n) :: l0) = accepted h l0 := by
          exact accepted_cons (by simp) (by simp)
        rw [e1, ← e2, ih]
        congr 1
        by_cases hh : h' = h
        · subst hh
          have hv : view h' (.call h' (.realloc p n) :: l0) = view h' l0 := by
            simp [view, View.next, subject]
          rw [view_same (show subject (.ret h' (.realloc p n) m bs) = h' from rfl), hv]
          simp only [View.next, hch]
          split <;> rfl
        · rw [view_other (show subject (.ret h' (.realloc p n) m bs) ≠ h from hh)]
    · have h1 : ∀ h' p n m bs, e ≠ .ret h' (.realloc p n) m bs :=
        fun h' p n m bs hx => h1 ⟨h', p, n, m, bs, hx⟩
      by_cases h2 : ∃ h' p bs, e = .call h' (.copyOut p bs)
      · obtain ⟨h', p, bs, rfl⟩ := h2
        rw [accepted_cons h1 (by simp)]
        show _ = (if h' = h then fetched h l ++ bs else fetched h l) ++ _
        by_cases hh : h' = h
        · subst hh
          rw [if_pos rfl, view_same (show subject (.call h' (.copyOut p bs)) = h' from rfl)]
          obtain ⟨-, sz, -, ⟨t, ht⟩, -⟩ := he
          rw [ih, ← ht, List.append_assoc]
          simp [View.next, ← ht]
        · rw [if_neg hh, view_other (show subject (.call h' (.copyOut p bs)) ≠ h from hh)]
          exact ih
      · have h2 : ∀ h' p bs, e ≠ .call h' (.copyOut p bs) := fun h' p bs hx => h2 ⟨h', p, bs, hx⟩
        by_cases h3 : ∃ cfg lg r, e = .leave (.create cfg lg) r
        · obtain ⟨cfg, lg, r, rfl⟩ := h3
          show (if r.toNat = h then [] else accepted h l) = (if r.toNat = h then [] else fetched h l) ++ _
          by_cases hh : r.toNat = h
          · rw [if_pos hh, if_pos hh, view_same (show subject (.leave (.create cfg lg) r) = h from hh)]
            rfl
          · rw [if_neg hh, if_neg hh, view_other (show subject (.leave (.create cfg lg) r) ≠ h from hh)]
            exact ih
        · have h3 : ∀ cfg lg r, e ≠ .leave (.create cfg lg) r := fun a b c hx => h3 ⟨a, b, c, hx⟩
          rw [accepted_cons h1 h3, fetched_cons h2 h3, pend_cons h1 h2 h3]
          exact ih

/-- What wolfSSL has fetched is, at every moment, the beginning of what the lower IO has delivered
(except deliveries there was no memory for, each of which is reported as an error). -/
theorem fetched_in_order {m : Mach Inst Op Call} (hm : Reachable m) (h : Nat) :
    fetched h m.st.log <+: accepted h m.st.log :=
  ⟨_, (stream_holds (sound.reach hm).holds).symm⟩

theorem stream_at {m : Mach Inst Op Call} (hm : Reachable m) {l1 l2 : List Event}
    (hl : m.st.log = l1 ++ l2) (h : Nat) : accepted h l2 = fetched h l2 ++ (view h l2).pend := by
  have := (sound.reach hm).holds
  rw [hl] at this
  exact stream_holds (Holds.tail this)

/-- When wolfSSL asks for at most `sz` bytes and `rest` has been delivered and not fetched, it is
given the beginning of `rest` at once: as much as it has asked for, or all there is. -/
theorem recv_gets {m : Mach Inst Op Call} (hm : Reachable m) {l1 l2 : List Event} {e : Event}
    {h buf : Nat} {sz : Int} {rest : Bytes}
    (hl : m.st.log = l1 ++ e :: .enter (.wRecv h buf sz) :: l2)
    (hr : accepted h l2 = fetched h l2 ++ rest) (hne : rest ≠ []) (hsm : rest.length < 2 ^ 31)
    (hsz : 0 < sz) : e = .call h (.copyOut buf (rest.take sz.toNat)) := by
  have hs := stream_at hm (l1 := l1 ++ [e, .enter (.wRecv h buf sz)]) (by simpa using hl) h
  have hp : (view h l2).pend = rest := by
    rw [hr] at hs
    exact (List.append_cancel_left hs).symm
  have := answers hm hl rfl
  simp only [Reacts, hp] at this
  rw [if_neg hne] at this
  have hpos : 0 < rest.length := List.length_pos_iff.2 hne
  have hi : toInt rest.length = rest.length := by
    unfold toInt
    rw [Int.bmod_def]
    split <;> omega
  unfold fetches ready at this
  rw [hp, hi] at this
  by_cases hgt : (rest.length : Int) > sz
  · simp only [if_pos hgt] at this
    rwa [if_pos hsz] at this
  · simp only [if_neg hgt] at this
    rw [if_pos (by omega)] at this
    rw [this, List.take_of_length_le (by simp), List.take_of_length_le (by omega)]

/-- wolfSSL is told how many bytes it was given: a positive result is the length of what was copied,
and never more than it asked for. -/
theorem recv_result {m : Mach Inst Op Call} (hm : Reachable m) {l1 l2 : List Event}
    {h buf : Nat} {sz r : Int} (hl : m.st.log = l1 ++ .leave (.wRecv h buf sz) r :: l2)
    (hr : 0 < r) : r ≤ sz ∧ ∃ e1 e2 bs n bs' l3,
      l2 = e1 :: e2 :: .ret h (.copyOut buf bs) n bs' :: .call h (.copyOut buf bs) :: l3 ∧
      r = bs.length := by
  obtain ⟨hrun, -, h1, h2⟩ := claim_at hm hl
  refine ⟨by omega, ?_⟩
  have key : ∀ {e1 e2 h' b bs n bs' l0}, l2 = e1 :: e2 :: .ret h' (.copyOut b bs) n bs' :: l0 →
      inner e1 = true → inner e2 = true →
      ∃ l3, h' = h ∧ b = buf ∧ l0 = .call h (.copyOut buf bs) :: l3 := by
    intro e1 e2 h' b bs n bs' l0 hx i1 i2
    have hc := claim_at hm (l1 := l1 ++ [.leave (.wRecv h buf sz) r, e1, e2])
      (l2 := l0) (e := .ret h' (.copyOut b bs) n bs') (by rw [hl, hx]; simp)
    have hc := hc.2.2 rfl
    cases l0 with
    | nil => cases hc
    | cons a l3 =>
      injection hc with hc
      subst hc
      have hd := claim_at hm (l1 := l1 ++ [.leave (.wRecv h buf sz) r, e1, e2,
        .ret h' (.copyOut b bs) n bs']) (l2 := l3) (e := .call h' (.copyOut b bs))
        (by rw [hl, hx]; simp)
      obtain ⟨-, sz', hd, -⟩ := hd
      rw [hx, running_inner i1, running_inner i2, running_inner rfl, running_inner rfl, hd] at hrun
      injection hrun with hrun
      injection hrun with q1 q2 q3
      subst q1 q2
      exact ⟨l3, rfl, rfl, rfl⟩
  unfold Recv at h1
  split at h1
  · obtain ⟨l3, rfl, rfl, rfl⟩ := key rfl rfl rfl
    exact ⟨_, _, _, _, _, _, rfl, h1⟩
  · obtain ⟨l3, rfl, rfl, rfl⟩ := key rfl rfl rfl
    exact ⟨_, _, _, _, _, _, rfl, h1⟩
  · omega

/-- Whatever the lower IO delivers, there is an attempt to keep it, after what is there already. -/
theorem delivery_kept {m : Mach Inst Op Call} (hm : Reachable m) {l1 l2 : List Event} {e : Event}
    {h : Nat} {bs : Bytes} (hl : m.st.log = l1 ++ e :: .enter (.uBytes h bs) :: l2) :
    e = .call h (.realloc (view h l2).buf ((view h l2).pend.length + bs.length)) :=
  answers hm hl rfl

/-- Bytes are lost only if there is no memory for them; then the error callback is called at once,
and nothing can be sent any more. -/
theorem loss_reported {m : Mach Inst Op Call} (hm : Reachable m) {l1 l2 : List Event} {e : Event}
    {h p n : Nat} {bs bs' : Bytes}
    (hl : m.st.log = l1 ++ e :: .ret h (.realloc p n) 0 bs' :: .call h (.realloc p n) ::
      .enter (.uBytes h bs) :: l2) :
    phase h (.ret h (.realloc p n) 0 bs' :: .call h (.realloc p n) :: .enter (.uBytes h bs) :: l2) =
      .broken ∧
    ((view h l2).cbs.errFn ≠ 0 → e = .call h (.onError (view h l2).cbs.errFn (view h l2).cbs.errCtx)) := by
  refine ⟨by simp [phase, view, View.next, subject, Call.handle], fun hf => ?_⟩
  have := answers hm hl rfl
  simpa [Reacts, running, view, View.next, subject, Call.handle, tells, hf] using this

/-! ### C63: what is encrypted and decrypted -/

/-- A send is refused at once unless the TLS IO is open: nothing is passed to anyone. -/
theorem send_refused {m : Mach Inst Op Call} (hm : Reachable m) {l1 l2 : List Event} {e : Event}
    {h fn ctx : Nat} {bs : Bytes} (hl : m.st.log = l1 ++ e :: .enter (.send h bs fn ctx) :: l2)
    (hp : phase h l2 ≠ .live) : ∃ r, r ≠ 0 ∧ e = .leave (.send h bs fn ctx) r := by
  have := answers hm hl rfl
  simpa [Reacts, hp, refuses] using this

/-- wolfSSL is given only the bytes a send has just been called with, for a TLS IO that is open:
the handshake has finished, and there was no close and no failure since. -/
theorem written {m : Mach Inst Op Call} (hm : Reachable m) {l1 l2 : List Event} {h ssl : Nat}
    {bs : Bytes} {num : Int} (hl : m.st.log = l1 ++ .call h (.sslWrite ssl bs num) :: l2) :
    num = toInt bs.length ∧ ∃ fn ctx l4 l5,
      l2 = .enter (.send h bs fn ctx) :: (l4 ++ .enter (.wDone h) :: l5) ∧
      phase h l5 = .handshake ∧ ∀ x ∈ l4, ¬ (Stops h x ∨ lowerOpens h x) := by
  obtain ⟨-, fn, ctx, l', h1, h2, -, h4⟩ := claim_at hm hl
  obtain ⟨l4, l5, rfl, h5, h6⟩ := live_origin h2
  exact ⟨h4, fn, ctx, l4, l5, h1, h5, h6⟩

/-- A send succeeds exactly if wolfSSL has taken all the bytes. -/
theorem send_result {m : Mach Inst Op Call} (hm : Reachable m) {l1 l2 : List Event} {e : Event}
    {h ssl : Nat} {bs bs' : Bytes} {num n : Int}
    (hl : m.st.log = l1 ++ e :: .ret h (.sslWrite ssl bs num) n bs' :: l2) :
    ∃ fn ctx r, e = .leave (.send h bs fn ctx) r ∧ (r = 0 ↔ toSize n = bs.length) :=
  answers hm hl rfl

/-- The lower IO is given exactly the bytes wolfSSL has just encrypted, and the completion callback
of the last send that was accepted. -/
theorem ciphertext_only {m : Mach Inst Op Call} (hm : Reachable m) {l1 l2 : List Event}
    {h io size fn ctx : Nat} {bs : Bytes}
    (hl : m.st.log = l1 ++ .call h (.xioSend io bs size fn ctx) :: l2) :
    size = bs.length ∧ ∃ l', l2 = .enter (.wSend h bs) :: l' ∧ io = (view h l').io ∧
      fn = (view h l').sendFn ∧ ctx = (view h l').sendCtx := by
  obtain ⟨-, l', h1, h2, h3, h4, h5⟩ := claim_at hm hl
  exact ⟨h3, l', h1, h2, h4, h5⟩

/-- All that wolfSSL has encrypted is passed on, at once. -/
theorem ciphertext_all {m : Mach Inst Op Call} (hm : Reachable m) {l1 l2 : List Event} {e : Event}
    {h : Nat} {bs : Bytes} (hl : m.st.log = l1 ++ e :: .enter (.wSend h bs) :: l2) :
    e = .call h (.xioSend (view h l2).io bs bs.length (view h l2).sendFn (view h l2).sendCtx) :=
  answers hm hl rfl

/-- wolfSSL is told that the bytes were sent if the lower IO has accepted them; if not, that none
were, and the error callback is called. -/
theorem ciphertext_result {m : Mach Inst Op Call} (hm : Reachable m) {l1 l2 : List Event} {e : Event}
    {h io size fn ctx : Nat} {bs bs' : Bytes} {n : Int}
    (hl : m.st.log = l1 ++ e :: .ret h (.xioSend io bs size fn ctx) n bs' :: l2) :
    if n = 0 then e = .leave (.wSend h bs) bs.length
    else if (view h l2).cbs.errFn = 0 then e = .leave (.wSend h bs) 0
    else e = .call h (.onError (view h l2).cbs.errFn (view h l2).cbs.errCtx) := answers hm hl rfl

/-- Bytes are delivered to the callback of an open that was accepted, exactly as wolfSSL has just
decrypted them. -/
theorem delivered {m : Mach Inst Op Call} (hm : Reachable m) {l1 l2 : List Event} {h fn ctx : Nat}
    {bs : Bytes} (hl : m.st.log = l1 ++ .call h (.onBytes fn ctx bs) :: l2) :
    ∃ ssl l4 c l5, l2 = .ret h (.sslRead ssl 64) bs.length bs :: (l4 ++ .enter (.open h c) :: l5) ∧
      bs ≠ [] ∧ phase h l5 = .idle ∧ fn = c.bytesFn ∧ ctx = c.bytesCtx ∧
      ∀ cfg lg r, r.toNat = h → .leave (.create cfg lg) r ∉ l4 := by
  obtain ⟨-, ssl, n, l', h1, h2, h3, -, h4, h5, h6⟩ := claim_at hm hl
  obtain ⟨l4, l5, h7, h8, h9⟩ := cbs_origin (h := h) (l := l') (by
    intro hx
    rw [hx] at h5
    exact h4 h5)
  refine ⟨ssl, l4, (view h l').cbs, l5, by rw [← h7, ← h2]; exact h1, ?_, h8, h5, h6, h9⟩
  rintro rfl
  rw [h2] at h3
  exact absurd h3 (by simp)

/-- Everything wolfSSL decrypts is delivered, in order: as long as it gives bytes, the next thing
that happens is their delivery (if there is a callback), and then the next read. -/
theorem all_delivered {m : Mach Inst Op Call} (hm : Reachable m) {l1 l2 : List Event} {e : Event}
    {h ssl : Nat} {n num : Int} {bs : Bytes}
    (hl : m.st.log = l1 ++ e :: .ret h (.sslRead ssl num) n bs :: l2) (hn : 0 < n)
    (hf : (view h l2).cbs.bytesFn ≠ 0) :
    e = .call h (.onBytes (view h l2).cbs.bytesFn (view h l2).cbs.bytesCtx bs) := by
  have := answers hm hl rfl
  simpa [Reacts, hf, show ¬ n ≤ 0 by omega] using this

/-- After a delivery the next read follows at once. -/
theorem reads_on {m : Mach Inst Op Call} (hm : Reachable m) {l1 l2 : List Event} {e : Event}
    {h fn ctx : Nat} {n : Int} {bs bs' : Bytes}
    (hl : m.st.log = l1 ++ e :: .ret h (.onBytes fn ctx bs) n bs' :: l2) :
    e = .call h (.sslRead (view h l2).ssl 64) := answers hm hl rfl

/-! ### C64: opening and closing -/

/-- Success is reported only right after wolfSSL has said that the handshake has finished, to the
callback of an open that was accepted, and only if the lower IO was open, with no close and no
failure since. -/
theorem ok_justified {m : Mach Inst Op Call} (hm : Reachable m) {l1 l2 : List Event}
    {h fn ctx : Nat} (hl : m.st.log = l1 ++ .call h (.onOpen fn ctx .ok) :: l2) :
    (∃ l4 e l5, l2 = .enter (.wDone h) :: (l4 ++ e :: l5) ∧ lowerOpens h e ∧
      ∀ x ∈ l4, ¬ (Stops h x ∨ x = .enter (.wDone h))) ∧
    ∃ l4 c l5, l2 = l4 ++ .enter (.open h c) :: l5 ∧ phase h l5 = .idle ∧ fn = c.openFn ∧
      ctx = c.openCtx ∧ ∀ cfg lg r, r.toNat = h → .leave (.create cfg lg) r ∉ l4 := by
  obtain ⟨-, l', h1, h2, h3, h4, h5⟩ := claim_at hm hl
  subst h1
  refine ⟨?_, ?_⟩
  · obtain ⟨l4, e, l5, rfl, h7, h8⟩ := handshake_origin h2
    exact ⟨l4, e, l5, rfl, h7, h8⟩
  · obtain ⟨l4, l5, h6, h7, h8⟩ := cbs_origin (h := h) (l := l') (by
      intro hx
      rw [hx] at h4
      exact h3 h4)
    refine ⟨.enter (.wDone h) :: l4, (view h l').cbs, l5, by rw [List.cons_append, ← h6], h7, h4, h5, ?_⟩
    intro cfg lg r hr hx
    rcases List.mem_cons.1 hx with hx | hx
    · cases hx
    · exact h8 cfg lg r hr hx

/-- Between two reports of success the lower IO was opened once more, or said so once more.  (What
is missing: that there was another open.  It is false: see `two_oks` in `Demo.lean`.) -/
theorem ok_once_partial {m : Mach Inst Op Call} (hm : Reachable m) {l1 l2 l3 : List Event}
    {h fn ctx fn' ctx' : Nat} (hl : m.st.log = l1 ++ .call h (.onOpen fn ctx .ok) ::
      (l2 ++ .call h (.onOpen fn' ctx' .ok) :: l3)) : ∃ e ∈ l2, lowerOpens h e := by
  obtain ⟨-, l', h1, h2, -⟩ := claim_at hm hl
  obtain ⟨-, l4, h3, h4, -⟩ :=
    claim_at hm (show m.st.log = (l1 ++ .call h (.onOpen fn ctx .ok) :: l2) ++
      .call h (.onOpen fn' ctx' .ok) :: l3 by rw [hl]; simp)
  have hlive : phase h (.call h (.onOpen fn' ctx' .ok) :: l3) = .live := by
    subst h3
    unfold phase at h4 ⊢
    rw [view_same (show subject (.call h (.onOpen fn' ctx' .ok)) = h from rfl),
      view_same (show subject (.enter (.wDone h)) = h from rfl)]
    simp [View.next, h4]
  cases l2 with
  | nil =>
    injection h1 with h1
    cases h1
  | cons e l2 =>
    injection h1 with _ h1
    subst h1
    rcases brought (P := fun v => v.phase = .handshake) (starts := fun _ e => lowerOpens h e)
      (fun v e he hp => (next_handshake v e he hp).imp (fun h => h.1) id) h2 with hx | ⟨x, hx, -, -, hy⟩
    · unfold phase at hlive
      rw [hlive] at hx
      cases hx
    · exact ⟨x, List.mem_cons_of_mem _ hx, hy⟩

/-- When wolfSSL says that the handshake has finished, the callback of the open is called at once,
if a handshake was going on. -/
theorem ok_reported {m : Mach Inst Op Call} (hm : Reachable m) {l1 l2 : List Event} {e : Event}
    {h : Nat} (hl : m.st.log = l1 ++ e :: .enter (.wDone h) :: l2)
    (hp : phase h l2 = .handshake) (hfn : (view h l2).cbs.openFn ≠ 0) :
    e = .call h (.onOpen (view h l2).cbs.openFn (view h l2).cbs.openCtx .ok) := by
  have := answers hm hl rfl
  simpa [Reacts, hp, tells, hfn] using this

/-- Failure is reported to the callback of an open that was accepted, when the lower IO fails to
open, fails during the handshake, or wolfSSL fails. -/
theorem failure_justified {m : Mach Inst Op Call} (hm : Reachable m) {l1 l2 : List Event}
    {h fn ctx : Nat} (hl : m.st.log = l1 ++ .call h (.onOpen fn ctx .error) :: l2) :
    ((∃ l', l2 = .enter (.uError h) :: l' ∧ (phase h l' = .opening ∨ phase h l' = .handshake)) ∨
      (∃ r l', l2 = .enter (.uOpen h r) :: l' ∧ r ≠ .ok) ∨
      (∃ ssl n bs l', l2 = .ret h (.connect ssl) n bs :: l' ∧ n ≠ 1)) ∧
    ∃ l4 c l5, l2 = l4 ++ .enter (.open h c) :: l5 ∧ phase h l5 = .idle ∧ fn = c.openFn ∧
      ctx = c.openCtx := by
  obtain ⟨-, h1, h2, h3, h4⟩ := claim_at hm hl
  refine ⟨h4, ?_⟩
  obtain ⟨l4, l5, h6, h7, -⟩ := cbs_origin (h := h) (l := l2) (by
    intro hx
    rw [hx] at h2
    exact h1 h2)
  exact ⟨l4, (view h l2).cbs, l5, h6, h7, h2, h3⟩

/-- When the lower IO fails, or could not be opened, while an open is pending, its callback is told
at once. -/
theorem failure_reported {m : Mach Inst Op Call} (hm : Reachable m) {l1 l2 : List Event}
    {e e' : Event} {h : Nat} (hl : m.st.log = l1 ++ e :: e' :: l2)
    (he : (e' = .enter (.uError h) ∧ (phase h l2 = .opening ∨ phase h l2 = .handshake)) ∨
      ∃ r, r ≠ .ok ∧ e' = .enter (.uOpen h r)) (hf : (view h l2).cbs.openFn ≠ 0) :
    e = .call h (.onOpen (view h l2).cbs.openFn (view h l2).cbs.openCtx .error) := by
  rcases he with ⟨rfl, hp⟩ | ⟨r, hr, rfl⟩
  · have := answers hm hl rfl
    simpa [Reacts, hp, tells, hf] using this
  · have := answers hm hl rfl
    simpa [Reacts, hr, tells, hf] using this

/-- When the lower IO fails after the handshake, the error callback is called at once. -/
theorem error_reported {m : Mach Inst Op Call} (hm : Reachable m) {l1 l2 : List Event} {e : Event}
    {h : Nat} (hl : m.st.log = l1 ++ e :: .enter (.uError h) :: l2) (hp : phase h l2 = .live)
    (hf : (view h l2).cbs.errFn ≠ 0) :
    e = .call h (.onError (view h l2).cbs.errFn (view h l2).cbs.errCtx) := by
  have := answers hm hl rfl
  simpa [Reacts, hp, tells, hf] using this

/-- The error callback is called only if the lower IO has failed after the handshake, has refused
to send, or there was no memory for what it delivered. -/
theorem error_justified {m : Mach Inst Op Call} (hm : Reachable m) {l1 l2 : List Event}
    {h fn ctx : Nat} (hl : m.st.log = l1 ++ .call h (.onError fn ctx) :: l2) :
    ((∃ l', l2 = .enter (.uError h) :: l' ∧ phase h l' = .live) ∨
      (∃ p n bs bs' l', l2 = .ret h (.realloc p n) 0 bs :: l' ∧
        (running l').head? = some (.uBytes h bs')) ∨
      (∃ io bs size fn ctx n bs' l', l2 = .ret h (.xioSend io bs size fn ctx) n bs' :: l' ∧ n ≠ 0)) ∧
    ∃ l4 c l5, l2 = l4 ++ .enter (.open h c) :: l5 ∧ phase h l5 = .idle ∧ fn = c.errFn ∧
      ctx = c.errCtx := by
  obtain ⟨-, h1, h2, h3, h4⟩ := claim_at hm hl
  refine ⟨h4, ?_⟩
  obtain ⟨l4, l5, h6, h7, -⟩ := cbs_origin (h := h) (l := l2) (by
    intro hx
    rw [hx] at h2
    exact h1 h2)
  exact ⟨l4, (view h l2).cbs, l5, h6, h7, h2, h3⟩

/-- An open is refused unless the TLS IO is idle; the callbacks stay. -/
theorem open_refused {m : Mach Inst Op Call} (hm : Reachable m) {l1 l2 : List Event} {e : Event}
    {h : Nat} {c : Cbs} (hl : m.st.log = l1 ++ e :: .enter (.open h c) :: l2)
    (hp : phase h l2 ≠ .idle) :
    (∃ r, r ≠ 0 ∧ e = .leave (.open h c) r) ∧ view h (.enter (.open h c) :: l2) = view h l2 := by
  have := answers hm hl rfl
  refine ⟨by simpa [Reacts, hp, refuses] using this, ?_⟩
  unfold phase at hp
  rw [view_same (show subject (.enter (.open h c)) = h from rfl)]
  simp [View.next, hp]

/-- An open that is accepted opens the lower IO; if that fails, so does the open, and the TLS IO is
idle again; if not, the handshake begins. -/
theorem open_result {m : Mach Inst Op Call} (hm : Reachable m) {l1 l2 : List Event} {e : Event}
    {h io c1 c2 c3 : Nat} {n : Int} {bs : Bytes}
    (hl : m.st.log = l1 ++ e :: .ret h (.xioOpen io c1 c2 c3) n bs :: l2) :
    if n = 0 then e = .call h (.connect (view h l2).ssl)
    else ∃ c r, r ≠ 0 ∧ e = .leave (.open h c) r := by
  have := answers hm hl rfl
  simp only [Reacts] at this
  split
  next h0 => rwa [if_pos h0] at this
  next h0 =>
    rw [if_neg h0] at this
    obtain ⟨c, r, h1, h2⟩ := this
    exact ⟨c, r, h1, h2⟩

/-- The open succeeds exactly if wolfSSL has connected. -/
theorem connect_result {m : Mach Inst Op Call} (hm : Reachable m) {l1 l2 : List Event} {e : Event}
    {h ssl h' : Nat} {c : Cbs} {n : Int} {bs : Bytes}
    (hl : m.st.log = l1 ++ e :: .ret h (.connect ssl) n bs :: l2)
    (hr : (running l2).head? = some (.open h' c)) :
    ∃ r, e = .leave (.open h' c) r ∧ (r = 0 ↔ n = 1) := by
  have := answers hm hl rfl
  cases hx : running l2 with
  | nil => rw [hx] at hr; cases hr
  | cons a rest =>
    rw [hx] at hr
    injection hr with hr
    subst hr
    simpa only [Reacts, hx] using this

/-- A close is refused if the TLS IO is idle or closing; a close that is accepted closes the lower
IO, and succeeds exactly if that does. -/
theorem close_result {m : Mach Inst Op Call} (hm : Reachable m) {l1 l2 : List Event} {e : Event}
    {h fn ctx : Nat} (hl : m.st.log = l1 ++ e :: .enter (.close h fn ctx) :: l2) (hz : h ≠ 0) :
    if phase h l2 = .idle ∨ phase h l2 = .shut then ∃ r, r ≠ 0 ∧ e = .leave (.close h fn ctx) r
    else e = .call h (.xioClose (view h l2).io h) := by
  have := answers hm hl rfl
  simp only [Reacts] at this
  split
  next hp =>
    rwa [if_neg (by rintro ⟨-, h1, h2⟩; exact hp.elim h1 h2)] at this
  next hp =>
    rwa [if_pos ⟨hz, fun h => hp (Or.inl h), fun h => hp (Or.inr h)⟩] at this

/-- The end of a close is reported to the callback of the last close that was accepted, when the
lower IO has closed. -/
theorem close_reported {m : Mach Inst Op Call} (hm : Reachable m) {l1 l2 : List Event}
    {h fn ctx : Nat} (hl : m.st.log = l1 ++ .call h (.onClose fn ctx) :: l2) :
    ∃ l4 l5, l2 = .enter (.uClose h) :: (l4 ++ .enter (.close h fn ctx) :: l5) ∧
      phase h l5 ≠ .idle ∧ phase h l5 ≠ .shut ∧
      ∀ cfg lg r, r.toNat = h → .leave (.create cfg lg) r ∉ l4 := by
  obtain ⟨-, l', h1, h2, -, h3, h4⟩ := claim_at hm hl
  obtain ⟨l4, l5, h5, h6, h7, h8⟩ := shut_origin h2
  rw [← h3, ← h4] at h5
  exact ⟨l4, l5, by rw [h1, h5], h6, h7, h8⟩

/-- When the lower IO has closed and a close is going on, its callback is called at once. -/
theorem close_answered {m : Mach Inst Op Call} (hm : Reachable m) {l1 l2 : List Event} {e : Event}
    {h : Nat} (hl : m.st.log = l1 ++ e :: .enter (.uClose h) :: l2) (hp : phase h l2 = .shut)
    (hf : (view h l2).closeFn ≠ 0) :
    e = .call h (.onClose (view h l2).closeFn (view h l2).closeCtx) := by
  have := answers hm hl rfl
  simpa [Reacts, hp, tells, hf] using this

/-! ### C65: resources, function by function (all together: `Ledger.lean`) -/

/-- A creation that succeeds gives a TLS IO that was not alive, and holds what it owns and nothing
else; one that fails holds nothing, except the lower IO if it was made. -/
theorem create_holds {m : Mach Inst Op Call} (hm : Reachable m) {l1 l2 : List Event}
    {cfg : Option Config} {lg : Nat} {r : Int}
    (hl : m.st.log = l1 ++ .leave (.create cfg lg) r :: l2) :
    if r = 0 then ∀ x, held x l2 = held x (beforeEnter l2) + one x .io (newIo l2)
    else cfg ≠ none ∧ (view r.toNat l2).logger = lg ∧ 0 < r ∧ r.toNat ∉ alives l2 ∧
      ∀ x, held x l2 = held x (beforeEnter l2) + own x r.toNat (view r.toNat l2) := by
  have := (claim_at hm hl).2.2
  simp only [Leaves] at this
  split
  next h0 => rwa [if_pos h0] at this
  next h0 =>
    rw [if_neg h0] at this
    exact ⟨this.1, this.2.1, this.2.2.1, this.2.2.2.1, this.2.2.2.2.1⟩

/-- A new TLS IO is wired up: wolfSSL was told to send and to receive through this TLS IO and to
tell it of the end of the handshake. -/
theorem create_wired {m : Mach Inst Op Call} (hm : Reachable m) {l1 l2 : List Event}
    {cfg : Option Config} {lg : Nat} {r : Int}
    (hl : m.st.log = l1 ++ .leave (.create cfg lg) r :: l2) (hr : r ≠ 0) {o : Op}
    (ho : o ∈ [Op.setNonblock (view r.toNat l2).ssl, .setIoSend (view r.toNat l2).ctx,
      .setIoRecv (view r.toNat l2).ctx, .setHsDone (view r.toNat l2).ssl r.toNat,
      .setWriteCtx (view r.toNat l2).ssl r.toNat, .setReadCtx (view r.toNat l2).ssl r.toNat]) :
    ∃ l3 l4, l2 = l3 ++ .call r.toNat o :: l4 ∧ beforeEnter l4 = beforeEnter l2 := by
  have := (claim_at hm hl).2.2
  simp only [Leaves] at this
  rw [if_neg hr] at this
  exact this.2.2.2.2.2 o ho

/-- Destruction releases exactly what the TLS IO owns. -/
theorem destroy_releases {m : Mach Inst Op Call} (hm : Reachable m) {l1 l2 : List Event} {h : Nat}
    {r : Int} (hl : m.st.log = l1 ++ .leave (.destroy h) r :: l2) (hh : h ≠ 0) (x : Res)
    (hx : ∀ p, x ≠ .buf p) : held x l2 = held x (beforeEnter l2) - own x h (view h l2) := by
  have := (claim_at hm hl).2.2.2 x hx
  rwa [if_neg hh] at this

end Verif.Wolf
