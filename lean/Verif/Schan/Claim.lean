import Verif.Schan.Life

/-
The TLS IO over Schannel: what its user can rely on (C79-C82), for every sequence of calls by the
user, of callbacks by the lower IO and of answers of the lower IO and of SSPI, at any depth of
re-entrance.

The log of a state has the newest event first: in `l1 ++ e :: l2` the events `l2` came before `e`
and the events `l1` after it.
-/
namespace Verif.Schan
open Verif.Game

/-- The states of the module that can come about in the standard environment. -/
abbrev Reachable (m : Mach Inst Op Call) : Prop := Reach (sys std) m

theorem claim_at {m : Mach Inst Op Call} (hm : Reachable m) {l1 l2 : List Event} {e : Event}
    (h : m.st.log = l1 ++ e :: l2) : Claim l2 e := by
  have hg := (sound.reach hm).holds
  rw [h] at hg
  exact hg.at

theorem reacts_at {m : Mach Inst Op Call} (hm : Reachable m) {l1 l2 : List Event} {e : Event}
    (h : m.st.log = l1 ++ e :: l2) (he : ∀ c, e ≠ .enter c) (hr : ∀ h o n bs, e ≠ .ret h o n bs) :
    Reacts l2 e := by
  have := claim_at hm h
  cases e with
  | enter c => exact absurd rfl (he c)
  | ret h' o n bs => exact absurd rfl (hr h' o n bs)
  | call h o => exact this.1
  | leave c r => exact this.2.1

/-- What follows an entrance or a return is as specified. -/
theorem answers {m : Mach Inst Op Call} (hm : Reachable m) {l1 l2 : List Event} {e e' : Event}
    (h : m.st.log = l1 ++ e :: e' :: l2) (he : e'.asks = true) : Reacts (e' :: l2) e := by
  have ht := hm.turns h he
  refine reacts_at hm h ?_ ?_
  · intro c hc; rw [hc] at ht; cases ht
  · intro h o n bs hc; rw [hc] at ht; cases ht

/-- No field is read before it is written, no dead instance is touched, nothing is read or stored
outside the block for received bytes. -/
theorem no_undefined_behaviour {m : Mach Inst Op Call} (hm : Reachable m) : m.wrong = false :=
  (sound.reach hm).right

/-! ### Phases, in terms of the events alone -/

/-- How a fact about a TLS IO came about. -/
theorem origin {h : Nat} {P : View → Prop} {ends : Event → Prop} {starts : View → Event → Prop}
    (h0 : ¬ P {}) (hs : ∀ v e, subject e = h → P (v.next e) → (P v ∧ ¬ ends e) ∨ starts v e)
    (ho : ∀ e, ends e → subject e = h) : ∀ {l : List Event}, P (view h l) →
    ∃ l4 e l5, l = l4 ++ e :: l5 ∧ subject e = h ∧ starts (view h l5) e ∧ ∀ x ∈ l4, ¬ ends x
  | [], hp => absurd hp h0
  | e :: l, hp => by
    have key : P (view h l) → ¬ ends e → ∃ l4 e' l5, e :: l = l4 ++ e' :: l5 ∧ subject e' = h ∧
        starts (view h l5) e' ∧ ∀ x ∈ l4, ¬ ends x := by
      intro h1 h2
      obtain ⟨l4, e', l5, rfl, h5, h6, h7⟩ := origin h0 hs ho h1
      refine ⟨e :: l4, e', l5, rfl, h5, h6, fun x hx => ?_⟩
      rcases List.mem_cons.1 hx with rfl | hx
      · exact h2
      · exact h7 x hx
    by_cases he : subject e = h
    · rw [view_same he] at hp
      rcases hs _ _ he hp with ⟨h1, h2⟩ | h1
      · exact key h1 h2
      · exact ⟨[], e, l, rfl, he, h1, by simp⟩
    · rw [view_other he] at hp
      exact key hp (fun hx => he (ho e hx))

/-- A fact that did not hold before was brought about since. -/
theorem brought {h : Nat} {P : View → Prop} {starts : View → Event → Prop}
    (hs : ∀ v e, subject e = h → P (v.next e) → P v ∨ starts v e) {l : List Event} : ∀ {l' : List Event},
    P (view h (l' ++ l)) → P (view h l) ∨ ∃ e ∈ l', subject e = h ∧ ∃ v, starts v e
  | [], hp => Or.inl hp
  | e :: l', hp => by
    have key : P (view h (l' ++ l)) → P (view h l) ∨ ∃ x ∈ e :: l', subject x = h ∧ ∃ v, starts v x :=
      fun h1 => (brought hs h1).imp id fun ⟨x, hx, h2⟩ => ⟨x, List.mem_cons_of_mem _ hx, h2⟩
    by_cases he : subject e = h
    · rw [List.cons_append, view_same he] at hp
      rcases hs _ _ he hp with h1 | h1
      · exact key h1
      · exact Or.inr ⟨e, List.mem_cons_self, he, _, h1⟩
    · rw [List.cons_append, view_other he] at hp
      exact key hp

/-- The events that end a handshake, or the time after it. -/
inductive Stops (h : Nat) : Event → Prop
  | close (fn ctx : Nat) : Stops h (.enter (.close h fn ctx))
  | error : Stops h (.enter (.uError h))
  | opened (r : OpenResult) : Stops h (.enter (.uOpen h r))
  | created (cfg : Option Config) (lg : Nat) (r : Int) : r.toNat = h → Stops h (.leave (.create cfg lg) r)

theorem Stops.subject {h : Nat} {e : Event} (he : Stops h e) : subject e = h := by
  cases he <;> first | rfl | assumption

/-- SSPI has finished the handshake, and there is room for the bytes to come. -/
def finishes (h : Nat) (e : Event) : Prop :=
  ∃ p m n bs, e = .ret h (.realloc .hsDone p m) n bs ∧ n ≠ 0

/-- The client hello has been sent, or the last token of the peer was dealt with, and there is room
for the bytes to come. -/
def proceeds (h : Nat) (e : Event) : Prop :=
  (∃ io bs fn ctx bs', e = .ret h (.xioSend .hello io bs fn ctx) 0 bs') ∨
  ∃ site p m n bs, e = .ret h (.realloc site p m) n bs ∧ n ≠ 0 ∧ (site = .hello ∨ site = .hsNext)

theorem next_live {h : Nat} (v : View) (e : Event) (he : subject e = h)
    (hp : (v.next e).phase = .live) : (v.phase = .live ∧ ¬ Stops h e) ∨ finishes h e := by
  by_cases hx : Stops h e
  · exfalso
    cases hx <;> simp [View.next] at hp <;> first
      | (split at hp <;> simp_all; done)
      | simp_all
  · rw [and_iff_left hx]
    unfold View.next at hp
    split at hp <;> (try simp only [View.resized, View.absorb, View.keep] at hp) <;> (try split at hp) <;>
      (try split at hp) <;> simp_all [subject, Call.handle, finishes]
    exact Or.inr ⟨_, _, _, ⟨⟨rfl, rfl⟩, rfl⟩, by assumption⟩

/-- A TLS IO is open: SSPI has finished the handshake, and there was no close and no failure of the
lower IO since. -/
theorem live_origin {h : Nat} {l : List Event} (hp : phase h l = .live) :
    ∃ l4 e l5, l = l4 ++ e :: l5 ∧ finishes h e ∧ ∀ x ∈ l4, ¬ Stops h x := by
  obtain ⟨l4, e, l5, h1, -, h2, h3⟩ := origin (P := fun v => v.phase = .live)
    (starts := fun _ e => finishes h e) (by simp) next_live (fun _ hx => hx.subject) hp
  exact ⟨l4, e, l5, h1, h2, h3⟩

theorem next_handshake {h : Nat} (v : View) (e : Event) (he : subject e = h)
    (hp : (v.next e).phase = .handshake) : (v.phase = .handshake ∧ ¬ Stops h e) ∨ proceeds h e := by
  by_cases hx : Stops h e
  · exfalso
    cases hx <;> simp [View.next] at hp <;> first
      | (split at hp <;> simp_all; done)
      | simp_all
  · rw [and_iff_left hx]
    unfold View.next at hp
    split at hp <;> (try simp only [View.resized, View.absorb, View.keep] at hp) <;> (try split at hp) <;>
      (try split at hp) <;> simp_all [subject, Call.handle, proceeds]
    · exact Or.inr ⟨_, _, _, _, ⟨⟨rfl, rfl, rfl⟩, rfl⟩, by assumption, Or.inl rfl⟩
    · exact Or.inr ⟨_, _, _, _, ⟨⟨rfl, rfl, rfl⟩, rfl⟩, by assumption, Or.inr rfl⟩

/-- A handshake is going on: the client hello was sent, or the last token was dealt with, and there
was no close and no failure of the lower IO since. -/
theorem handshake_origin {h : Nat} {l : List Event} (hp : phase h l = .handshake) :
    ∃ l4 e l5, l = l4 ++ e :: l5 ∧ proceeds h e ∧ ∀ x ∈ l4, ¬ Stops h x := by
  obtain ⟨l4, e, l5, h1, -, h2, h3⟩ := origin (P := fun v => v.phase = .handshake)
    (starts := fun _ e => proceeds h e) (by simp) next_handshake (fun _ hx => hx.subject) hp
  exact ⟨l4, e, l5, h1, h2, h3⟩

/-- An open that is accepted, or a creation: the callbacks change. -/
theorem next_cbs {h : Nat} {c : Cbs} (hc : c ≠ ⟨0, 0, 0, 0, 0, 0⟩) (v : View) (e : Event)
    (he : subject e = h) (hp : (v.next e).cbs = c) :
    (v.cbs = c ∧ ¬ ∃ cfg lg r, e = .leave (.create cfg lg) r ∧ r.toNat = h) ∨
      (v.phase = .idle ∧ e = .enter (.open h c)) := by
  by_cases hx : ∃ cfg lg r, e = .leave (.create cfg lg) r ∧ r.toNat = h
  · exfalso
    obtain ⟨_, _, _, rfl, _⟩ := hx
    exact hc hp.symm
  · rw [and_iff_left hx]
    unfold View.next at hp
    split at hp <;> (try simp only [View.resized, View.absorb, View.keep] at hp) <;> (try split at hp) <;>
      (try split at hp) <;> simp_all [subject, Call.handle]

/-- The callbacks of a TLS IO are those of an open that was accepted. -/
theorem cbs_origin {h : Nat} {l : List Event} (hp : (view h l).cbs ≠ ⟨0, 0, 0, 0, 0, 0⟩) :
    ∃ l4 l5, l = l4 ++ .enter (.open h (view h l).cbs) :: l5 ∧ phase h l5 = .idle ∧
      ∀ cfg lg r, r.toNat = h → .leave (.create cfg lg) r ∉ l4 := by
  obtain ⟨l4, e, l5, h1, -, h2, h3⟩ := origin (P := fun v => v.cbs = (view h l).cbs)
    (ends := fun e => ∃ cfg lg r, e = .leave (.create cfg lg) r ∧ r.toNat = h)
    (starts := fun v e => v.phase = .idle ∧ e = .enter (.open h (view h l).cbs))
    (fun hx => hp hx.symm) (next_cbs hp)
    (by rintro e ⟨_, _, _, rfl, hr⟩; exact hr) (l := l) rfl
  obtain ⟨h2, rfl⟩ := h2
  exact ⟨l4, l5, h1, h2, fun cfg lg r hr hm => h3 _ hm ⟨cfg, lg, r, rfl, hr⟩⟩

theorem next_shut {h fn ctx : Nat} (v : View) (e : Event) (he : subject e = h)
    (hp : (v.next e).phase = .shut ∧ (v.next e).closeFn = fn ∧ (v.next e).closeCtx = ctx) :
    ((v.phase = .shut ∧ v.closeFn = fn ∧ v.closeCtx = ctx) ∧
        ¬ ∃ cfg lg r, e = .leave (.create cfg lg) r ∧ r.toNat = h) ∨
      ((v.phase ≠ .idle ∧ v.phase ≠ .shut) ∧ e = .enter (.close h fn ctx)) := by
  by_cases hx : ∃ cfg lg r, e = .leave (.create cfg lg) r ∧ r.toNat = h
  · exfalso
    obtain ⟨_, _, _, rfl, _⟩ := hx
    cases hp.1
  · rw [and_iff_left hx]
    unfold View.next at hp
    split at hp <;> (try simp only [View.resized, View.absorb, View.keep] at hp) <;> (try split at hp) <;>
      (try split at hp) <;> simp_all [subject, Call.handle]

/-- A TLS IO that is being closed: the close was accepted, of a TLS IO that was not idle. -/
theorem shut_origin {h : Nat} {l : List Event} (hp : phase h l = .shut) :
    ∃ l4 l5, l = l4 ++ .enter (.close h (view h l).closeFn (view h l).closeCtx) :: l5 ∧
      phase h l5 ≠ .idle ∧ phase h l5 ≠ .shut ∧
      ∀ cfg lg r, r.toNat = h → .leave (.create cfg lg) r ∉ l4 := by
  obtain ⟨l4, e, l5, h1, -, h2, h3⟩ := origin
    (P := fun v => v.phase = .shut ∧ v.closeFn = (view h l).closeFn ∧ v.closeCtx = (view h l).closeCtx)
    (ends := fun e => ∃ cfg lg r, e = .leave (.create cfg lg) r ∧ r.toNat = h)
    (starts := fun v e => (v.phase ≠ .idle ∧ v.phase ≠ .shut) ∧
      e = .enter (.close h (view h l).closeFn (view h l).closeCtx))
    (by simp) next_shut
    (by rintro e ⟨_, _, _, rfl, hr⟩; exact hr) (l := l) ⟨hp, rfl, rfl⟩
  obtain ⟨⟨h2, h2'⟩, rfl⟩ := h2
  exact ⟨l4, l5, h1, h2, h2', fun cfg lg r hr hm => h3 _ hm ⟨cfg, lg, r, rfl, hr⟩⟩

theorem next_spoilt {h : Nat} (v : View) (e : Event) (he : subject e = h)
    (hp : (v.next e).spoilt = true) :
    (v.spoilt = true ∧ ¬ False) ∨ ∃ n bs, e = .ret h .plain n bs ∧ n < 0 := by
  rw [and_iff_left (by simp)]
  unfold View.next at hp
  split at hp <;> (try simp only [View.resized, View.absorb, View.keep] at hp) <;> (try split at hp) <;>
    (try split at hp) <;> simp_all [subject, Call.handle]

/-- How it came that a message was spoilt. -/
theorem spoilt_origin {h : Nat} {l : List Event} (hp : (view h l).spoilt = true) :
    ∃ n bs, n < 0 ∧ .ret h .plain n bs ∈ l := by
  obtain ⟨l4, e, l5, rfl, -, ⟨n, bs, rfl, h2⟩, -⟩ := origin (P := fun v => v.spoilt = true)
    (ends := fun _ => False) (starts := fun _ e => ∃ n bs, e = .ret h .plain n bs ∧ n < 0)
    (by simp) next_spoilt (fun _ hx => hx.elim) hp
  exact ⟨n, bs, h2, by simp⟩

/-! ### C79: the bytes of the lower IO reach SSPI, all of them, in order -/

/-- A call out that does not come back in is followed by its return. -/
theorem ret_head {m : Mach Inst Op Call} (hm : Reachable m) {l1 l2 : List Event} {h : Nat} {o : Op}
    {n : Int} {bs : Bytes} (hl : m.st.log = l1 ++ .ret h o n bs :: l2) (ho : reenters o = false) :
    ∃ l3, l2 = .call h o :: l3 := by
  have := (claim_at hm hl).2.2.2.1 ho
  cases l2 with
  | nil => cases this
  | cons a l3 => injection this with this; exact ⟨l3, by rw [this]⟩

/-- What is known of the bytes that have been received. -/
structure Stream (h : Nat) (l : List Event) : Prop where
  /-- all that has been accepted has been used, waits to be used, or is being stored -/
  all : ∃ old, accepted h l = old ++ (view h l).raw ++ (view h l).chunk.getD [] ∧ old.length = used h l
  same : (view h l).pend.length = (view h l).raw.length
  /-- bytes are being stored only while memory is asked for -/
  chunk : ∀ bs, (view h l).chunk = some bs → (∃ l', l = .enter (.uBytes h bs) :: l' ∧
      (view h l').cap < (view h l').pend.length + bs.length) ∨
    ∃ p m l', l = .call h (.realloc .chunk p m) :: .enter (.uBytes h bs) :: l'

theorem accepted_cons {h : Nat} {e : Event} {l : List Event}
    (h1 : ∀ h' p n m bs, e ≠ .ret h' (.realloc .chunk p n) m bs)
    (h2 : ∀ cfg lg r, e ≠ .leave (.create cfg lg) r)
    (h3 : ∀ h' bs, e ≠ .enter (.uBytes h' bs)) : accepted h (e :: l) = accepted h l := by
  cases e with
  | enter c => cases c <;> first | rfl | exact absurd rfl (h3 _ _)
  | call h' o => rfl
  | ret h' o n bs =>
    cases o with
    | realloc site p m => cases site <;> first | rfl | exact absurd rfl (h1 _ _ _ _ _)
    | _ => rfl
  | leave c r => cases c <;> first | rfl | exact absurd rfl (h2 _ _ _)

theorem used_cons {h : Nat} {e : Event} {l : List Event}
    (h1 : ∀ h' m n bs, e ≠ .ret h' (.hsExtra m) n bs)
    (h2 : ∀ h' b a n bs, e ≠ .ret h' (.decExtra b a) n bs)
    (h3 : ∀ cfg lg r, e ≠ .leave (.create cfg lg) r) : used h (e :: l) = used h l := by
  cases e with
  | enter c => rfl
  | call h' o => rfl
  | ret h' o n bs =>
    cases o <;> first | rfl | exact absurd rfl (h1 _ _ _ _) | exact absurd rfl (h2 _ _ _ _ _)
  | leave c r => cases c <;> first | rfl | exact absurd rfl (h3 _ _ _)

/-- The events that have to do with received bytes. -/
def moves : Event → Bool
  | .enter (.uBytes ..) | .ret _ (.realloc .chunk _ _) _ _ | .ret _ (.hsExtra _) _ _
  | .ret _ (.decExtra _ _) _ _ | .ret _ (.decrypt _ _) _ _ | .leave (.create ..) _ => true
  | _ => false

theorem view_still {h : Nat} {e : Event} {l : List Event} (he : moves e = false) :
    (view h (e :: l)).raw = (view h l).raw ∧ (view h (e :: l)).pend = (view h l).pend ∧
      (view h (e :: l)).chunk = (view h l).chunk := by
  rw [view_cons]
  split
  · cases e with
    | enter c => cases c <;> first
        | exact ⟨rfl, rfl, rfl⟩
        | (cases he; done)
        | (simp only [View.next]; split <;> exact ⟨rfl, rfl, rfl⟩)
    | leave c r => cases c <;> first | exact ⟨rfl, rfl, rfl⟩ | (cases he; done)
    | call h' o => cases o <;> exact ⟨rfl, rfl, rfl⟩
    | ret h' o n bs =>
      cases o with
      | realloc site p m =>
        cases site <;> first
          | (cases he; done)
          | (simp only [View.next, View.resized]; split <;> exact ⟨rfl, rfl, rfl⟩)
      | xioSend w _ _ _ _ =>
        cases w <;> first
          | exact ⟨rfl, rfl, rfl⟩
          | (simp only [View.next]; split <;> first | exact ⟨rfl, rfl, rfl⟩ | (split <;> exact ⟨rfl, rfl, rfl⟩))
      | _ => first
        | (cases he; done)
        | exact ⟨rfl, rfl, rfl⟩
        | (simp only [View.next]; split <;> exact ⟨rfl, rfl, rfl⟩)
  · exact ⟨rfl, rfl, rfl⟩

/-- Nothing is being stored when a call out other than for memory is made, or has been answered, or
a function is entered or left. -/
theorem Stream.none {m : Mach Inst Op Call} (hm : Reachable m) {l1 l : List Event} {e : Event}
    {h : Nat} (hl : m.st.log = l1 ++ e :: l) (hs : Stream h l)
    (he : ∀ p n k bs, e ≠ .ret h (.realloc .chunk p n) k bs)
    (he' : ∀ p n, e ≠ .call h (.realloc .chunk p n)) : (view h l).chunk = none := by
  cases hc : (view h l).chunk with
  | none => rfl
  | some bs =>
    exfalso
    rcases hs.chunk bs hc with ⟨l', rfl, hlt⟩ | ⟨p, n, l', rfl⟩
    · have := answers hm hl rfl
      simp only [Reacts] at this
      rw [if_neg (by omega)] at this
      exact he' _ _ this
    · rcases hm.invited hl with ⟨c, rfl, hx⟩ | ⟨k, bs', hx⟩
      · cases hx
      · exact he _ _ _ _ hx

theorem stream_at {m : Mach Inst Op Call} (hm : Reachable m) (h : Nat) :
    ∀ {l1 l : List Event}, m.st.log = l1 ++ l → Stream h l
  | _, [], _ => ⟨⟨[], rfl, rfl⟩, rfl, fun _ hx => by cases hx⟩
  | l1, e :: l, hl => by
    have ih : Stream h l := stream_at hm h (l1 := l1 ++ [e]) (by simpa using hl)
    have hc := claim_at hm hl
    obtain ⟨old, ih1, ih2⟩ := ih.all
    cases hmv : moves e with
    | false =>
      obtain ⟨v1, v2, v3⟩ := view_still (h := h) (l := l) hmv
      refine ⟨⟨old, ?_, ?_⟩, by rw [v1, v2]; exact ih.same, ?_⟩
      · rw [accepted_cons (by rintro _ _ _ _ _ rfl; cases hmv) (by rintro _ _ _ rfl; cases hmv)
          (by rintro _ _ rfl; cases hmv), v1, v3]
        exact ih1
      · rw [used_cons (by rintro _ _ _ _ rfl; cases hmv) (by rintro _ _ _ _ _ rfl; cases hmv)
          (by rintro _ _ _ rfl; cases hmv)]
        exact ih2
      · intro bs hx
        rw [v3] at hx
        by_cases hcall : ∃ p n, e = .call h (.realloc .chunk p n)
        · obtain ⟨p, n, rfl⟩ := hcall
          rcases ih.chunk bs hx with ⟨l', rfl, -⟩ | ⟨p, n, l', rfl⟩
          · exact Or.inr ⟨_, _, _, rfl⟩
          · rcases hm.invited hl with ⟨c, hy, -⟩ | ⟨k, bs', hy⟩ <;> cases hy
        · have := ih.none hm hl (by rintro _ _ _ _ rfl; cases hmv) (fun p n hy => hcall ⟨p, n, hy⟩)
          rw [this] at hx
          cases hx
    | true =>
      unfold moves at hmv
      split at hmv
      next h' bs =>
        -- the lower IO delivers
        have hn := ih.none hm hl (by simp) (by simp)
        rw [hn] at ih1
        rw [Option.getD_none, List.append_nil] at ih1
        have ha : accepted h (.enter (.uBytes h' bs) :: l) =
          if h' = h then accepted h l ++ bs else accepted h l := rfl
        have hu : used h (.enter (.uBytes h' bs) :: l) = used h l := rfl
        by_cases hh : h' = h
        · subst hh
          rw [if_pos rfl] at ha
          have hv := view_same (show subject (.enter (.uBytes h' bs)) = h' from rfl) (l := l)
          simp only [View.next] at hv
          by_cases hroom : (view h' l).pend.length + bs.length ≤ (view h' l).cap
          · rw [if_pos hroom] at hv
            refine ⟨⟨old, ?_, hu ▸ ih2⟩, ?_, ?_⟩
            · rw [ha, hv, ih1]; simp [View.absorb]
            · rw [hv]; simp [View.absorb, ih.same]
            · intro bs' hx; rw [hv] at hx; cases hx
          · rw [if_neg hroom] at hv
            refine ⟨⟨old, ?_, hu ▸ ih2⟩, ?_, ?_⟩
            · rw [ha, hv, ih1]; rfl
            · rw [hv]; exact ih.same
            · intro bs' hx
              rw [hv] at hx
              injection hx with hx
              subst hx
              exact Or.inl ⟨l, rfl, by omega⟩
        · have hv := view_other (show subject (.enter (.uBytes h' bs)) ≠ h from hh) (l := l)
          rw [if_neg hh] at ha
          refine ⟨⟨old, by rw [ha, hv, ih1, hn]; simp, hu ▸ ih2⟩, by rw [hv]; exact ih.same, ?_⟩
          intro bs' hx
          rw [hv, hn] at hx
          cases hx
      next h' p n k bs =>
        -- the answer to a request for memory
        obtain ⟨l0, rfl⟩ := ret_head hm hl rfl
        have hcall := claim_at hm (l1 := l1 ++ [.ret h' (.realloc .chunk p n) k bs]) (l2 := l0)
          (e := .call h' (.realloc .chunk p n)) (by simpa using hl)
        obtain ⟨-, -, -, -, hch, -⟩ := hcall
        obtain ⟨bs0, l', rfl, hn, hcap⟩ := hch rfl
        have ha : accepted h (.ret h' (.realloc .chunk p n) k bs :: .call h' (.realloc .chunk p n) ::
            .enter (.uBytes h' bs0) :: l') =
          if h' = h ∧ k ≠ 0 then accepted h l' ++ bs0 else accepted h l' := rfl
        have hu : used h (.ret h' (.realloc .chunk p n) k bs :: .call h' (.realloc .chunk p n) ::
            .enter (.uBytes h' bs0) :: l') = used h (.call h' (.realloc .chunk p n) ::
            .enter (.uBytes h' bs0) :: l') := rfl
        have ha' : accepted h (.call h' (.realloc .chunk p n) :: .enter (.uBytes h' bs0) :: l') =
          if h' = h then accepted h l' ++ bs0 else accepted h l' := rfl
        by_cases hh : h' = h
        · subst hh
          have hv0 : view h' (.call h' (.realloc .chunk p n) :: .enter (.uBytes h' bs0) :: l') =
              { view h' l' with receiving := true, chunk := some bs0 } := by
            rw [view_call, view_same (show subject (.enter (.uBytes h' bs0)) = h' from rfl)]
            simp only [View.next]
            rw [if_neg (by omega)]
          rw [if_pos rfl] at ha'
          rw [ha', hv0] at ih1
          have ih1 : accepted h' l' ++ bs0 = old ++ (view h' l').raw ++ bs0 := ih1
          have ihs := ih.same
          rw [hv0] at ihs
          have hv := view_ret (h := h') (o := .realloc .chunk p n) (n := k) (bs := bs)
            (l := .call h' (.realloc .chunk p n) :: .enter (.uBytes h' bs0) :: l')
          rw [hv0] at hv
          simp only [View.next, View.resized] at hv
          by_cases hk : k = 0
          · rw [if_pos hk] at hv
            rw [if_neg (by simp [hk])] at ha
            refine ⟨⟨old, ?_, hu ▸ ih2⟩, by rw [hv]; exact ihs, ?_⟩
            · rw [ha, hv]
              have := List.append_cancel_right ih1
              simpa using this
            · intro bs' hx; rw [hv] at hx; cases hx
          · rw [if_neg hk] at hv
            rw [if_pos ⟨rfl, hk⟩] at ha
            refine ⟨⟨old, ?_, hu ▸ ih2⟩, ?_, ?_⟩
            · rw [ha, hv, ih1]; simp [View.absorb]
            · rw [hv]; simpa [View.absorb] using ihs
            · intro bs' hx; rw [hv] at hx; cases hx
        · have hv := view_other (show subject (.ret h' (.realloc .chunk p n) k bs) ≠ h from hh)
            (l := .call h' (.realloc .chunk p n) :: .enter (.uBytes h' bs0) :: l')
          have hn := ih.none hm hl (by simp [hh]) (by simp)
          rw [if_neg (fun hx => hh hx.1)] at ha
          rw [if_neg hh] at ha'
          refine ⟨⟨old, by rw [ha, hv, ← ha', ih1], hu ▸ ih2⟩, by rw [hv]; exact ih.same, ?_⟩
          intro bs' hx
          rw [hv, hn] at hx
          cases hx
      next h' k n bs =>
        -- SSPI has dealt with a token
        have hn := ih.none hm hl (by simp) (by simp)
        obtain ⟨l0, rfl⟩ := ret_head hm hl rfl
        have hcall := claim_at hm (l1 := l1 ++ [.ret h' (.hsExtra k) n bs]) (l2 := l0)
          (e := .call h' (.hsExtra k)) (by simpa using hl)
        obtain ⟨-, hk, -⟩ := hcall
        have hf : n ≤ k := hc.2.2.2.2
        have ha : accepted h (.ret h' (.hsExtra k) n bs :: .call h' (.hsExtra k) :: l0) =
          accepted h (.call h' (.hsExtra k) :: l0) := rfl
        have hu : used h (.ret h' (.hsExtra k) n bs :: .call h' (.hsExtra k) :: l0) =
          if h' = h then used h (.call h' (.hsExtra k) :: l0) + (k - n.toNat)
          else used h (.call h' (.hsExtra k) :: l0) := rfl
        by_cases hh : h' = h
        · subst hh
          rw [if_pos rfl] at hu
          have hv := view_ret (h := h') (o := .hsExtra k) (n := n) (bs := bs) (l := .call h' (.hsExtra k) :: l0)
          simp only [View.next] at hv
          have hkl : k = (view h' (.call h' (.hsExtra k) :: l0)).pend.length := by
            rw [view_call]; exact hk
          have hs := ih.same
          generalize view h' (.call h' (.hsExtra k) :: l0) = v at *
          refine ⟨⟨old ++ v.raw.take (v.raw.length - n.toNat), ?_, ?_⟩, ?_, ?_⟩
          · rw [ha, hv, ih1, hn]
            simp only [View.keep, lastN, hn, Option.getD_none, List.append_nil, List.append_assoc,
              List.take_append_drop]
          · rw [hu, List.length_append, ih2, List.length_take]; omega
          · rw [hv]; simp only [View.keep, lastN, List.length_drop]; omega
          · intro bs' hx
            rw [hv] at hx
            simp only [View.keep, hn] at hx
            cases hx
        · have hv := view_other (show subject (.ret h' (.hsExtra k) n bs) ≠ h from hh)
            (l := .call h' (.hsExtra k) :: l0)
          rw [if_neg hh] at hu
          refine ⟨⟨old, by rw [ha, hv, ih1], hu ▸ ih2⟩, by rw [hv]; exact ih.same, ?_⟩
          intro bs' hx
          rw [hv, hn] at hx
          cases hx
      next h' b a n bs =>
        -- SSPI has dealt with a record
        have hn := ih.none hm hl (by simp) (by simp)
        obtain ⟨l0, rfl⟩ := ret_head hm hl rfl
        have hcall := claim_at hm (l1 := l1 ++ [.ret h' (.decExtra b a) n bs]) (l2 := l0)
          (e := .call h' (.decExtra b a)) (by simpa using hl)
        obtain ⟨-, -, hk, hlen, -⟩ := hcall
        have hf : n ≤ b.length := hc.2.2.2.2.1
        have ha : accepted h (.ret h' (.decExtra b a) n bs :: .call h' (.decExtra b a) :: l0) =
          accepted h (.call h' (.decExtra b a) :: l0) := rfl
        have hu : used h (.ret h' (.decExtra b a) n bs :: .call h' (.decExtra b a) :: l0) =
          if h' = h then used h (.call h' (.decExtra b a) :: l0) + (b.length - n.toNat)
          else used h (.call h' (.decExtra b a) :: l0) := rfl
        by_cases hh : h' = h
        · subst hh
          rw [if_pos rfl] at hu
          have hv := view_ret (h := h') (o := .decExtra b a) (n := n) (bs := bs)
            (l := .call h' (.decExtra b a) :: l0)
          simp only [View.next] at hv
          have hkl : b.length = (view h' (.call h' (.decExtra b a) :: l0)).pend.length := by
            rw [view_call, hlen, hk]; rfl
          have hs := ih.same
          generalize view h' (.call h' (.decExtra b a) :: l0) = v at *
          refine ⟨⟨old ++ v.raw.take (v.raw.length - n.toNat), ?_, ?_⟩, ?_, ?_⟩
          · rw [ha, hv, ih1, hn]
            simp only [View.keep, lastN, hn, Option.getD_none, List.append_nil, List.append_assoc,
              List.take_append_drop]
          · rw [hu, List.length_append, ih2, List.length_take]; omega
          · rw [hv]; simp only [View.keep, lastN, List.length_drop]; omega
          · intro bs' hx
            rw [hv] at hx
            simp only [View.keep, hn] at hx
            cases hx
        · have hv := view_other (show subject (.ret h' (.decExtra b a) n bs) ≠ h from hh)
            (l := .call h' (.decExtra b a) :: l0)
          rw [if_neg hh] at hu
          refine ⟨⟨old, by rw [ha, hv, ih1], hu ▸ ih2⟩, by rw [hv]; exact ih.same, ?_⟩
          intro bs' hx
          rw [hv, hn] at hx
          cases hx
      next h' s b n bs =>
        -- SSPI has decrypted in place
        have hn := ih.none hm hl (by simp) (by simp)
        obtain ⟨l0, rfl⟩ := ret_head hm hl rfl
        have hcall := claim_at hm (l1 := l1 ++ [.ret h' (.decrypt s b) n bs]) (l2 := l0)
          (e := .call h' (.decrypt s b)) (by simpa using hl)
        obtain ⟨-, -, -, -, hk, -⟩ := hcall
        have hf : bs.length = b.length := hc.2.2.2.2.1
        have ha : accepted h (.ret h' (.decrypt s b) n bs :: .call h' (.decrypt s b) :: l0) =
          accepted h (.call h' (.decrypt s b) :: l0) := rfl
        have hu : used h (.ret h' (.decrypt s b) n bs :: .call h' (.decrypt s b) :: l0) =
          used h (.call h' (.decrypt s b) :: l0) := rfl
        by_cases hh : h' = h
        · subst hh
          have hv := view_ret (h := h') (o := .decrypt s b) (n := n) (bs := bs)
            (l := .call h' (.decrypt s b) :: l0)
          simp only [View.next] at hv
          have hkl : b.length = (view h' (.call h' (.decrypt s b) :: l0)).pend.length := by
            rw [view_call, hk]; rfl
          refine ⟨⟨old, by rw [ha, hv, ih1], hu ▸ ih2⟩, ?_, ?_⟩
          · rw [hv]; show bs.length = _; rw [hf, hkl]; exact ih.same
          · intro bs' hx
            rw [hv] at hx
            simp only [hn] at hx
            cases hx
        · have hv := view_other (show subject (.ret h' (.decrypt s b) n bs) ≠ h from hh)
            (l := .call h' (.decrypt s b) :: l0)
          refine ⟨⟨old, by rw [ha, hv, ih1], hu ▸ ih2⟩, by rw [hv]; exact ih.same, ?_⟩
          intro bs' hx
          rw [hv, hn] at hx
          cases hx
      next cfg lg r =>
        -- a new TLS IO
        have hn := ih.none hm hl (by simp) (by simp)
        have ha : accepted h (.leave (.create cfg lg) r :: l) =
          if r.toNat = h then [] else accepted h l := rfl
        have hu : used h (.leave (.create cfg lg) r :: l) = if r.toNat = h then 0 else used h l := rfl
        by_cases hh : r.toNat = h
        · have hv := view_same (show subject (.leave (.create cfg lg) r) = h from hh) (l := l)
          rw [if_pos hh] at ha hu
          refine ⟨⟨[], by rw [ha, hv]; rfl, hu.symm⟩, by rw [hv]; rfl, ?_⟩
          intro bs' hx
          rw [hv] at hx
          cases hx
        · have hv := view_other (show subject (.leave (.create cfg lg) r) ≠ h from hh) (l := l)
          rw [if_neg hh] at ha hu
          refine ⟨⟨old, by rw [ha, hv, ih1], hu ▸ ih2⟩, by rw [hv]; exact ih.same, ?_⟩
          intro bs' hx
          rw [hv, hn] at hx
          cases hx
      next => cases hmv

/-- SSPI has, at every moment, used a part of what the lower IO has delivered. -/
theorem used_le {m : Mach Inst Op Call} (hm : Reachable m) (h : Nat) :
    used h m.st.log ≤ (accepted h m.st.log).length := by
  obtain ⟨old, h1, h2⟩ := (stream_at hm h (l1 := []) rfl).all
  rw [h1, ← h2]
  simp

theorem raw_at {m : Mach Inst Op Call} (hm : Reachable m) {l1 l : List Event} {e : Event} {h : Nat}
    (hl : m.st.log = l1 ++ e :: l) (he : ∀ p n k bs, e ≠ .ret h (.realloc .chunk p n) k bs)
    (he' : ∀ p n, e ≠ .call h (.realloc .chunk p n)) :
    (view h l).raw = (accepted h l).drop (used h l) ∧ (view h l).pend.length = (view h l).raw.length := by
  have hs := stream_at hm h (l1 := l1 ++ [e]) (l := l) (by simpa using hl)
  obtain ⟨old, h1, h2⟩ := hs.all
  rw [hs.none hm hl he he'] at h1
  refine ⟨?_, hs.same⟩
  rw [h1, ← h2]
  simp

/-- During the handshake SSPI is given exactly the bytes that the lower IO has delivered and SSPI
has not used (unless SSPI has spoilt a message before). -/
theorem handshake_given {m : Mach Inst Op Call} (hm : Reachable m) {l1 l2 : List Event}
    {h cred s host : Nat} {bs : Bytes}
    (hl : m.st.log = l1 ++ .call h (.initNext cred s host bs) :: l2)
    (hp : ∀ n bs, .ret h .plain n bs ∈ l2 → 0 ≤ n) : bs = (accepted h l2).drop (used h l2) := by
  obtain ⟨-, -, -, -, -, -, -, -, h1⟩ := claim_at hm hl
  rw [← (raw_at hm hl (by simp) (by simp)).1]
  refine h1 ?_
  cases hx : (view h l2).spoilt with
  | false => rfl
  | true =>
    obtain ⟨n, bs', h2, h3⟩ := spoilt_origin hx
    have := hp n bs' h3
    omega

/-- After the handshake, likewise. -/
theorem record_given {m : Mach Inst Op Call} (hm : Reachable m) {l1 l2 : List Event}
    {h s : Nat} {bs : Bytes} (hl : m.st.log = l1 ++ .call h (.decrypt s bs) :: l2)
    (hp : ∀ n bs, .ret h .plain n bs ∈ l2 → 0 ≤ n) : bs = (accepted h l2).drop (used h l2) := by
  obtain ⟨-, -, -, -, -, -, h1⟩ := claim_at hm hl
  rw [← (raw_at hm hl (by simp) (by simp)).1]
  refine h1 ?_
  cases hx : (view h l2).spoilt with
  | false => rfl
  | true =>
    obtain ⟨n, bs', h2, h3⟩ := spoilt_origin hx
    have := hp n bs' h3
    omega

/-- In any case it is given as many. -/
theorem given_length {m : Mach Inst Op Call} (hm : Reachable m) {l1 l2 : List Event}
    {h s : Nat} {o : Op} {bs : Bytes} (hl : m.st.log = l1 ++ .call h o :: l2)
    (ho : o = .decrypt s bs ∨ ∃ cred host, o = .initNext cred s host bs) :
    bs.length + used h l2 = (accepted h l2).length := by
  have key : bs = (view h l2).pend → bs.length + used h l2 = (accepted h l2).length := by
    intro hb
    have hs := stream_at hm h (l1 := l1 ++ [.call h o]) (l := l2) (by simpa using hl)
    obtain ⟨old, h1, h2⟩ := hs.all
    rw [hs.none hm hl (by simp) (by rcases ho with rfl | ⟨_, _, rfl⟩ <;> simp)] at h1
    rw [h1, ← h2, hb, hs.same]
    simp; omega
  rcases ho with rfl | ⟨cred, host, rfl⟩
  · obtain ⟨-, -, -, -, h1, -⟩ := claim_at hm hl
    exact key h1
  · obtain ⟨-, -, -, -, -, -, h1, -⟩ := claim_at hm hl
    exact key h1

/-- As soon as there are as many bytes as are waited for, all that wait are given to SSPI: here the
delivery fits the buffer. -/
theorem given_at_once {m : Mach Inst Op Call} (hm : Reachable m) {l1 l2 : List Event} {e : Event}
    {h : Nat} {bs : Bytes} (hl : m.st.log = l1 ++ e :: .enter (.uBytes h bs) :: l2)
    (hroom : (view h l2).pend.length + bs.length ≤ (view h l2).cap)
    {n : Nat} (hn : (view h l2).need = some n) (hle : n ≤ bs.length) :
    (phase h l2 = .handshake → e = .call h (.initNext ((view h l2).cred.getD 0)
      ((view h l2).sec.getD 0) (view h l2).host ((view h l2).pend ++ bs))) ∧
    (phase h l2 = .live → e = .call h (.decrypt ((view h l2).sec.getD 0) ((view h l2).pend ++ bs))) := by
  have := answers hm hl rfl
  simp only [Reacts] at this
  rw [if_pos hroom, view_same (show subject (.enter (.uBytes h bs)) = h from rfl)] at this
  simp only [View.next] at this
  rw [if_pos hroom] at this
  simp only [gives, View.absorb, hn, Option.map_some, show n - bs.length = 0 by omega] at this
  constructor
  · intro hp
    unfold phase at hp
    simpa [hp] using this
  · intro hp
    unfold phase at hp
    simpa [hp] using this

/-- Here it does not fit: there is a request for memory, and if it is granted the bytes are given. -/
theorem given_after_growth {m : Mach Inst Op Call} (hm : Reachable m) {l1 l2 : List Event} {e : Event}
    {h p k : Nat} {r : Int} {bs bs' : Bytes}
    (hl : m.st.log = l1 ++ e :: .ret h (.realloc .chunk p k) r bs' :: .call h (.realloc .chunk p k) ::
      .enter (.uBytes h bs) :: l2)
    (hroom : (view h l2).cap < (view h l2).pend.length + bs.length) (hr : r ≠ 0)
    {n : Nat} (hn : (view h l2).need = some n) (hle : n ≤ bs.length) :
    (phase h l2 = .handshake → e = .call h (.initNext ((view h l2).cred.getD 0)
      ((view h l2).sec.getD 0) (view h l2).host ((view h l2).pend ++ bs))) ∧
    (phase h l2 = .live → e = .call h (.decrypt ((view h l2).sec.getD 0) ((view h l2).pend ++ bs))) := by
  have := answers hm hl rfl
  simp only [Reacts] at this
  rw [if_neg hr, view_ret, view_call, view_same (show subject (.enter (.uBytes h bs)) = h from rfl)] at this
  simp only [View.next] at this
  rw [if_neg (by omega)] at this
  simp only [View.resized] at this
  rw [if_neg hr] at this
  simp only [gives, View.absorb, hn, Option.map_some, Option.getD_some,
    show n - bs.length = 0 by omega] at this
  constructor
  · intro hp
    unfold phase at hp
    simpa [hp] using this
  · intro hp
    unfold phase at hp
    simpa [hp] using this

/-- SSPI is asked only in a handshake that is going on, or after it, and when there are as many bytes
as it has asked for. -/
theorem asked_when_due {m : Mach Inst Op Call} (hm : Reachable m) {l1 l2 : List Event}
    {h cred s host : Nat} {bs : Bytes} :
    (m.st.log = l1 ++ .call h (.initNext cred s host bs) :: l2 →
      phase h l2 = .handshake ∧ (view h l2).need = some 0) ∧
    (m.st.log = l1 ++ .call h (.decrypt s bs) :: l2 →
      phase h l2 = .live ∧ (view h l2).need = some 0) := by
  constructor
  · intro hl
    obtain ⟨-, h1, h2, -⟩ := claim_at hm hl
    exact ⟨h2, h1⟩
  · intro hl
    obtain ⟨-, h1, h2, -⟩ := claim_at hm hl
    exact ⟨h2, h1⟩

/-- A delivery is lost only if there is no memory for it. -/
theorem delivery_kept {m : Mach Inst Op Call} (hm : Reachable m) {l1 l2 : List Event} {e : Event}
    {h : Nat} {bs : Bytes} (hl : m.st.log = l1 ++ e :: .enter (.uBytes h bs) :: l2) :
    ((view h l2).pend.length + bs.length ≤ (view h l2).cap ∧
      (view h (.enter (.uBytes h bs) :: l2)).raw = (view h l2).raw ++ bs) ∨
    e = .call h (.realloc .chunk (view h l2).buf ((view h l2).pend.length + bs.length)) := by
  have := answers hm hl rfl
  simp only [Reacts] at this
  by_cases hroom : (view h l2).pend.length + bs.length ≤ (view h l2).cap
  · refine Or.inl ⟨hroom, ?_⟩
    rw [view_same (show subject (.enter (.uBytes h bs)) = h from rfl)]
    simp only [View.next]
    rw [if_pos hroom]
    rfl
  · rw [if_neg hroom] at this
    exact Or.inr this

/-! ### C80: what is decrypted and encrypted -/

/-- Bytes are delivered to the callback of an open that was accepted, exactly as SSPI has just
decrypted them. -/
theorem delivered {m : Mach Inst Op Call} (hm : Reachable m) {l1 l2 : List Event} {h fn ctx : Nat}
    {bs : Bytes} (hl : m.st.log = l1 ++ .call h (.onBytes fn ctx bs) :: l2) :
    ∃ s ct ct' l3 c l4 l5, l2 = .ret h .plain bs.length bs :: .call h .plain ::
        .ret h (.decrypt s ct) 0 ct' :: .call h (.decrypt s ct) :: l3 ∧
      l3 = l4 ++ .enter (.open h c) :: l5 ∧
      phase h l5 = .idle ∧ fn = c.bytesFn ∧ ctx = c.bytesCtx ∧
      ∀ cfg lg r, r.toNat = h → .leave (.create cfg lg) r ∉ l4 := by
  obtain ⟨-, h1, h2, h3, l', rfl⟩ := claim_at hm hl
  obtain ⟨l0, rfl⟩ := ret_head hm (l1 := l1 ++ [.call h (.onBytes fn ctx bs)])
    (h := h) (o := .plain) (n := bs.length) (bs := bs) (l2 := l') (by rw [hl]; simp) rfl
  obtain ⟨-, s, ct, ct', l'', rfl⟩ := claim_at hm (l1 := l1 ++ [.call h (.onBytes fn ctx bs),
    .ret h .plain bs.length bs]) (e := .call h .plain) (l2 := l0) (by rw [hl]; simp)
  obtain ⟨l3, rfl⟩ := ret_head hm (l1 := l1 ++ [.call h (.onBytes fn ctx bs), 
    .ret h .plain bs.length bs, .call h .plain]) (h := h) (o := .decrypt s ct) (n := 0) (bs := ct')
    (l2 := l'') (by rw [hl]; simp) rfl
  have hv : (view h (.ret h .plain (bs.length : Int) bs :: .call h .plain ::
        .ret h (.decrypt s ct) 0 ct' :: .call h (.decrypt s ct) :: l3)).cbs = (view h l3).cbs := by
    simp only [view_ret, view_call, View.next]
    rw [if_neg (by omega)]
  rw [hv] at h2 h3
  obtain ⟨l4, l5, h7, h8, h9⟩ := cbs_origin (h := h) (l := l3) (by
    intro hx
    rw [hx] at h2
    exact h1 h2)
  exact ⟨s, ct, ct', l3, _, l4, l5, rfl, h7, h8, h2, h3, h9⟩

/-- Everything SSPI decrypts is delivered at once, if there is a callback. -/
theorem all_delivered {m : Mach Inst Op Call} (hm : Reachable m) {l1 l2 : List Event} {e : Event}
    {h : Nat} {n : Int} {bs : Bytes}
    (hl : m.st.log = l1 ++ e :: .ret h .plain n bs :: l2) (hn : 0 ≤ n)
    (hf : (view h l2).cbs.bytesFn ≠ 0) :
    e = .call h (.onBytes (view h l2).cbs.bytesFn (view h l2).cbs.bytesCtx bs) := by
  have := answers hm hl rfl
  simpa [Reacts, hf, show ¬ n < 0 by omega] using this

/-- If SSPI says that it has decrypted a message, its output is fetched at once. -/
theorem output_fetched {m : Mach Inst Op Call} (hm : Reachable m) {l1 l2 : List Event} {e : Event}
    {h s : Nat} {bs bs' : Bytes}
    (hl : m.st.log = l1 ++ e :: .ret h (.decrypt s bs) 0 bs' :: l2) : e = .call h .plain := by
  have := answers hm hl rfl
  simp only [Reacts] at this
  rwa [if_neg (by decide), if_pos trivial] at this

/-- A send that has something to send is refused at once unless the TLS IO is open: nothing is passed
to anyone. -/
theorem send_refused {m : Mach Inst Op Call} (hm : Reachable m) {l1 l2 : List Event} {e : Event}
    {h fn ctx : Nat} {null : Bool} {bs : Bytes}
    (hl : m.st.log = l1 ++ e :: .enter (.send h null bs fn ctx) :: l2) (hb : bs ≠ [])
    (hp : h = 0 ∨ null = true ∨ phase h l2 ≠ .live) :
    ∃ r, r ≠ 0 ∧ e = .leave (.send h null bs fn ctx) r := by
  have hr : Reacts (.enter (.send h null bs fn ctx) :: l2) e := answers hm hl rfl
  have hp' : ¬ (h ≠ 0 ∧ null = false ∧ phase h (.enter (.send h null bs fn ctx) :: l2) = .live) := by
    have : phase h (.enter (.send h null bs fn ctx) :: l2) = phase h l2 := by
      simp [phase, view, View.next, subject, Call.handle]
    rw [this]
    rintro ⟨h1, h2, h3⟩
    rcases hp with hp | hp | hp
    · exact h1 hp
    · rw [h2] at hp; cases hp
    · exact hp h3
  simp only [Reacts, sendsOn, frames] at hr
  rw [if_neg (Ne.symm hb), if_neg hp'] at hr
  obtain ⟨c, r, h1, rfl⟩ := hr
  have hc := (claim_at hm hl).1
  simp only [running, frames, List.map_cons, List.head?_cons] at hc
  injection hc with hc
  subst hc
  exact ⟨r, h1, rfl⟩

/-- SSPI is given only the next piece of what the send in progress was called with, at most 16384
bytes, for a TLS IO that is open: the handshake has finished, and there was no close and no failure
of the lower IO since. -/
theorem encrypted {m : Mach Inst Op Call} (hm : Reachable m) {l1 l2 : List Event} {h s hdr trl : Nat}
    {bs : Bytes} (hl : m.st.log = l1 ++ .call h (.encrypt s hdr bs trl) :: l2) :
    (∃ whole fn ctx sent cur fs, frames l2 = ⟨.send h false whole fn ctx, sent, cur⟩ :: fs ∧
      sent <+: whole ∧ bs = (whole.drop sent.length).take 16384 ∧ bs ≠ []) ∧
    ∃ l4 e l5, l2 = l4 ++ e :: l5 ∧ finishes h e ∧ ∀ x ∈ l4, ¬ Stops h x := by
  obtain ⟨-, hp, -, whole, fn, ctx, sent, cur, fs, h1, h2, h3, h4, -⟩ := claim_at hm hl
  exact ⟨⟨whole, fn, ctx, sent, cur, fs, h1, h2, h3, h4⟩, live_origin hp⟩

/-- The buffer SSPI encrypts into is as long as what SSPI has said it needs. -/
theorem record_fits {m : Mach Inst Op Call} (hm : Reachable m) {l1 l2 : List Event} {h s hdr trl : Nat}
    {bs : Bytes} (hl : m.st.log = l1 ++ .call h (.encrypt s hdr bs trl) :: l2) :
    ∃ a b c e f i k l', l2 = .ret h (.mallocOut (hdr + bs.length + trl)) a b :: c ::
      .ret h .trailer trl e :: f :: .ret h .header hdr i :: k :: l' ∧ a ≠ 0 := by
  obtain ⟨-, -, -, whole, fn, ctx, sent, cur, fs, -, -, -, -, a, b, c, d, e, f, g, i, k, l', h1, h2, rfl,
    rfl⟩ := claim_at hm hl
  exact ⟨a, b, c, e, f, i, k, l', h1, h2⟩

/-- The lower IO is given exactly the record SSPI has just put out; the completion callback of the
user goes with the last piece, and with no other. -/
theorem ciphertext_only {m : Mach Inst Op Call} (hm : Reachable m) {l1 l2 : List Event}
    {h io fn ctx : Nat} {bs : Bytes}
    (hl : m.st.log = l1 ++ .call h (.xioSend .data io bs fn ctx) :: l2) :
    ∃ s hdr pt trl n l' whole fn0 sent fs,
      l2 = .ret h (.encrypt s hdr pt trl) n bs :: .call h (.encrypt s hdr pt trl) :: l' ∧ 0 ≤ n ∧
      io = (view h l').io ∧ frames l2 = ⟨.send h false whole fn0 ctx, sent, pt⟩ :: fs ∧
      fn = if sent ++ pt = whole then fn0 else 0 := by
  obtain ⟨-, hio, ⟨s, hdr, pt, trl, n, l', rfl, hn⟩, whole, fn0, sent, cur, fs, hf, hfn⟩ := claim_at hm hl
  obtain ⟨l0, rfl⟩ := ret_head hm (l1 := l1 ++ [.call h (.xioSend .data io bs fn ctx)])
    (h := h) (o := .encrypt s hdr pt trl) (n := n) (bs := bs) (l2 := l') (by rw [hl]; simp) rfl
  have hcur : cur = pt := by
    simp only [frames] at hf
    cases hx : frames l0 with
    | nil => rw [hx] at hf; cases hf
    | cons f fs' =>
      rw [hx] at hf
      injection hf with hf
      injection hf with _ _ hf
      exact hf.symm
  subst hcur
  refine ⟨s, hdr, cur, trl, n, l0, whole, fn0, sent, fs, rfl, hn, ?_, hf, hfn⟩
  rw [hio, view_ret, view_call]
  rfl

/-- All that SSPI has encrypted is passed on at once. -/
theorem ciphertext_all {m : Mach Inst Op Call} (hm : Reachable m) {l1 l2 : List Event} {e : Event}
    {h s hdr trl : Nat} {pt bs : Bytes} {n : Int}
    (hl : m.st.log = l1 ++ e :: .ret h (.encrypt s hdr pt trl) n bs :: l2) (hn : 0 ≤ n) :
    ∃ fn ctx, e = .call h (.xioSend .data (view h l2).io bs fn ctx) := by
  have := answers hm hl rfl
  simp only [Reacts] at this
  rwa [if_neg (by omega)] at this

/-- A send returns 0 exactly if all of its bytes were encrypted and accepted by the lower IO, piece by
piece, in order; in any case a beginning of them was. -/
theorem send_result {m : Mach Inst Op Call} (hm : Reachable m) {l1 l2 : List Event}
    {h fn ctx : Nat} {null : Bool} {bs : Bytes} {r : Int}
    (hl : m.st.log = l1 ++ .leave (.send h null bs fn ctx) r :: l2) :
    ∃ sent cur fs, frames l2 = ⟨.send h null bs fn ctx, sent, cur⟩ :: fs ∧ sent <+: bs ∧
      (r = 0 ↔ sent = bs) := by
  obtain ⟨hrun, -, c, sent, cur, fs, h1, h2, h3⟩ := claim_at hm hl
  rw [running, h1] at hrun
  injection hrun with hrun
  have hrun : c = _ := hrun
  exact ⟨sent, cur, fs, by rw [h1, hrun], h2, h3⟩

/-! ### C81: opening and closing -/

/-- Success is reported only right after SSPI has finished the handshake, with the answer it was last
asked for, in a handshake that is going on; to the callback of an open that was accepted. -/
theorem ok_justified {m : Mach Inst Op Call} (hm : Reachable m) {l1 l2 : List Event}
    {h fn ctx : Nat} (hl : m.st.log = l1 ++ .call h (.onOpen fn ctx .ok) :: l2) :
    (∃ p k n bs j n' bs' cr s g i t l3, l2 = .ret h (.realloc .hsDone p k) n bs ::
        .call h (.realloc .hsDone p k) :: .ret h (.hsExtra j) n' bs' :: .call h (.hsExtra j) ::
        .ret h (.initNext cr s g i) 0 t :: .call h (.initNext cr s g i) :: l3 ∧ n ≠ 0 ∧
      phase h l3 = .handshake) ∧
    ∃ l4 c l5, l2 = l4 ++ .enter (.open h c) :: l5 ∧ phase h l5 = .idle ∧ fn = c.openFn ∧
      ctx = c.openCtx ∧ ∀ cfg lg r, r.toNat = h → .leave (.create cfg lg) r ∉ l4 := by
  obtain ⟨-, h1, h2, h3, p, k, n, bs, l', rfl, hn⟩ := claim_at hm hl
  refine ⟨?_, ?_⟩
  · obtain ⟨l0, rfl⟩ := ret_head hm (l1 := l1 ++ [.call h (.onOpen fn ctx .ok)])
      (h := h) (o := .realloc .hsDone p k) (n := n) (bs := bs) (l2 := l') (by rw [hl]; simp) rfl
    have hcl := claim_at hm (l1 := l1 ++ [.call h (.onOpen fn ctx .ok), .ret h (.realloc .hsDone p k) n bs])
      (e := .call h (.realloc .hsDone p k)) (l2 := l0) (by rw [hl]; simp)
    obtain ⟨j, n', bs', c, cr, s, g, i, t, l3, rfl⟩ := hcl.2.2.2.2.2 rfl
    obtain ⟨l6, h6⟩ := ret_head hm (l1 := l1 ++ [.call h (.onOpen fn ctx .ok),
      .ret h (.realloc .hsDone p k) n bs, .call h (.realloc .hsDone p k)])
      (h := h) (o := .hsExtra j) (n := n') (bs := bs')
      (l2 := c :: .ret h (.initNext cr s g i) 0 t :: l3) (by rw [hl]; simp) rfl
    injection h6 with h6
    subst h6
    obtain ⟨l7, rfl⟩ := ret_head hm (l1 := l1 ++ [.call h (.onOpen fn ctx .ok),
      .ret h (.realloc .hsDone p k) n bs, .call h (.realloc .hsDone p k), .ret h (.hsExtra j) n' bs',
      .call h (.hsExtra j)]) (h := h) (o := .initNext cr s g i) (n := 0) (bs := t)
      (l2 := l3) (by rw [hl]; simp) rfl
    have hcl := claim_at hm (l1 := l1 ++ [.call h (.onOpen fn ctx .ok),
      .ret h (.realloc .hsDone p k) n bs, .call h (.realloc .hsDone p k), .ret h (.hsExtra j) n' bs',
      .call h (.hsExtra j), .ret h (.initNext cr s g i) 0 t]) (e := .call h (.initNext cr s g i))
      (l2 := l7) (by rw [hl]; simp)
    exact ⟨p, k, n, bs, j, n', bs', cr, s, g, i, t, l7, rfl, hn, hcl.2.2.1⟩
  · obtain ⟨l4, l5, h6, h7, h8⟩ := cbs_origin (h := h) (l := .ret h (.realloc .hsDone p k) n bs :: l') (by
      intro hx
      rw [hx] at h2
      exact h1 h2)
    exact ⟨l4, _, l5, h6, h7, h2, h3, h8⟩

/-- When SSPI has finished the handshake, the memory for what comes is asked for; if it is granted,
success is reported, if not, failure. -/
theorem ok_reported {m : Mach Inst Op Call} (hm : Reachable m) {l1 l2 : List Event} {e : Event}
    {h p k : Nat} {n : Int} {bs : Bytes}
    (hl : m.st.log = l1 ++ e :: .ret h (.realloc .hsDone p k) n bs :: l2)
    (hfn : (view h l2).cbs.openFn ≠ 0) :
    e = .call h (.onOpen (view h l2).cbs.openFn (view h l2).cbs.openCtx (if n = 0 then .error else .ok)) := by
  have := answers hm hl rfl
  simpa [Reacts, tellsOpen, tells, hfn] using this

/-- What SSPI has not used of the last token of the handshake is asked for at once, and kept. -/
theorem handshake_end {m : Mach Inst Op Call} (hm : Reachable m) {l1 l2 : List Event} {e : Event}
    {h cr s g : Nat} {i t : Bytes}
    (hl : m.st.log = l1 ++ e :: .ret h (.initNext cr s g i) 0 t :: l2) :
    e = .call h (.hsExtra (view h l2).pend.length) := by
  have := answers hm hl rfl
  simp only [Reacts] at this
  rwa [if_neg (by decide), if_pos trivial] at this

/-- Each token SSPI puts out is sent to the peer at once, whole. -/
theorem token_sent {m : Mach Inst Op Call} (hm : Reachable m) {l1 l2 : List Event} {e : Event}
    {h cr s g : Nat} {i t : Bytes} {n : Int}
    (hl : m.st.log = l1 ++ e :: .ret h (.initNext cr s g i) n t :: l2) (hn : goesOn n = true)
    (ht : t ≠ []) : e = .call h (.xioSend .token (view h l2).io t 0 0) := by
  have := answers hm hl rfl
  simp only [Reacts] at this
  rwa [if_neg (by rintro rfl; revert hn; decide), if_neg (by rintro rfl; revert hn; decide), if_pos hn,
    if_neg ht] at this

/-- Failure of an open is reported to the callback of an open that was accepted, when the lower IO
fails, SSPI does not trust the peer, a token cannot be sent, or there is no memory. -/
theorem failure_justified {m : Mach Inst Op Call} (hm : Reachable m) {l1 l2 : List Event}
    {h fn ctx : Nat} (hl : m.st.log = l1 ++ .call h (.onOpen fn ctx .error) :: l2) :
    ((∃ l', l2 = .enter (.uError h) :: l' ∧ (phase h l' = .opening ∨ phase h l' = .handshake)) ∨
      (∃ c s g bs bs' l', l2 = .ret h (.initNext c s g bs) untrustedRoot bs' :: l') ∨
      (∃ io bs fn ctx n bs' l', l2 = .ret h (.xioSend .token io bs fn ctx) n bs' :: l' ∧ n ≠ 0) ∨
      ∃ site p k bs l', l2 = .ret h (.realloc site p k) 0 bs :: l') ∧
    ∃ l4 c l5, l2 = l4 ++ .enter (.open h c) :: l5 ∧ phase h l5 = .idle ∧ fn = c.openFn ∧
      ctx = c.openCtx := by
  obtain ⟨-, h1, h2, h3, h4⟩ := claim_at hm hl
  refine ⟨?_, ?_⟩
  · rcases h4 with h4 | h4 | h4 | h4 | h4 | h4
    · exact Or.inl h4
    · exact Or.inr (Or.inl h4)
    · exact Or.inr (Or.inr (Or.inl h4))
    all_goals
      obtain ⟨p, k, r, bs, l', h5, h6⟩ := h4
      have h6 : r = 0 := h6
      subst h6
      exact Or.inr (Or.inr (Or.inr ⟨_, p, k, bs, l', h5⟩))
  · obtain ⟨l4, l5, h6, h7, -⟩ := cbs_origin (h := h) (l := l2) (by
      intro hx
      rw [hx] at h2
      exact h1 h2)
    exact ⟨l4, _, l5, h6, h7, h2, h3⟩

/-- No open is ever reported as cancelled. -/
theorem never_cancelled {m : Mach Inst Op Call} (hm : Reachable m) {l1 l2 : List Event}
    {h fn ctx : Nat} : m.st.log ≠ l1 ++ .call h (.onOpen fn ctx .cancelled) :: l2 := fun hl =>
  (claim_at hm hl).2

/-- When the lower IO fails while an open is pending, or SSPI does not trust the peer, the callback of
the open is told at once. -/
theorem failure_reported {m : Mach Inst Op Call} (hm : Reachable m) {l1 l2 : List Event}
    {e e' : Event} {h : Nat} (hl : m.st.log = l1 ++ e :: e' :: l2)
    (he : (e' = .enter (.uError h) ∧ (phase h l2 = .opening ∨ phase h l2 = .handshake)) ∨
      (∃ c s g bs bs', e' = .ret h (.initNext c s g bs) untrustedRoot bs') ∨
      ∃ io bs fn ctx n bs', n ≠ 0 ∧ e' = .ret h (.xioSend .token io bs fn ctx) n bs')
    (hf : (view h l2).cbs.openFn ≠ 0) :
    e = .call h (.onOpen (view h l2).cbs.openFn (view h l2).cbs.openCtx .error) := by
  rcases he with ⟨rfl, hp⟩ | ⟨c, s, g, bs, bs', rfl⟩ | ⟨io, bs, fn, ctx, n, bs', hn, rfl⟩
  · have := answers hm hl rfl
    rcases hp with hp | hp <;> simpa [Reacts, hp, tellsOpen, tells, hf] using this
  · have := answers hm hl rfl
    simp only [Reacts] at this
    rw [if_neg (by decide), if_neg (by decide), if_neg (by decide), if_pos trivial] at this
    simpa [tellsOpen, tells, hf] using this
  · have := answers hm hl rfl
    simpa [Reacts, hn, tellsOpen, tells, hf] using this

/-- When the lower IO fails after the handshake, the error callback is called at once. -/
theorem error_reported {m : Mach Inst Op Call} (hm : Reachable m) {l1 l2 : List Event} {e : Event}
    {h : Nat} (hl : m.st.log = l1 ++ e :: .enter (.uError h) :: l2) (hp : phase h l2 = .live)
    (hf : (view h l2).cbs.errFn ≠ 0) :
    e = .call h (.onError (view h l2).cbs.errFn (view h l2).cbs.errCtx) := by
  have := answers hm hl rfl
  simpa [Reacts, hp, tellsError, tells, hf] using this

/-- The error callback is called only if the lower IO has failed after the handshake, has said that it
is open when that was not asked for, has refused the client hello, SSPI has given no credentials or
has put out no data for a message it had decrypted, or there was no memory. -/
theorem error_justified {m : Mach Inst Op Call} (hm : Reachable m) {l1 l2 : List Event}
    {h fn ctx : Nat} (hl : m.st.log = l1 ++ .call h (.onError fn ctx) :: l2) :
    ((∃ l', l2 = .enter (.uError h) :: l' ∧ phase h l' = .live) ∨
      (∃ r l', l2 = .enter (.uOpen h r) :: l' ∧ phase h l' ≠ .opening) ∨
      (∃ bs l', l2 = .ret h .acquire 0 bs :: l') ∨
      (∃ io bs fn ctx n bs' l', l2 = .ret h (.xioSend .hello io bs fn ctx) n bs' :: l' ∧ n ≠ 0) ∨
      (∃ n bs l', l2 = .ret h .plain n bs :: l' ∧ n < 0) ∨
      ∃ site p k bs l', l2 = .ret h (.realloc site p k) 0 bs :: l') ∧
    ∃ l4 c l5, l2 = l4 ++ .enter (.open h c) :: l5 ∧ phase h l5 = .idle ∧ fn = c.errFn ∧
      ctx = c.errCtx := by
  obtain ⟨-, h1, h2, h3, h4⟩ := claim_at hm hl
  refine ⟨?_, ?_⟩
  · rcases h4 with h4 | h4 | h4 | h4 | h4 | h4 | h4 | h4
    · exact Or.inl h4
    · exact Or.inr (Or.inl h4)
    · exact Or.inr (Or.inr (Or.inl h4))
    · exact Or.inr (Or.inr (Or.inr (Or.inl h4)))
    · exact Or.inr (Or.inr (Or.inr (Or.inr (Or.inl h4))))
    all_goals
      obtain ⟨p, k, r, bs, l', h5, h6⟩ := h4
      have h6 : r = 0 := h6
      subst h6
      exact Or.inr (Or.inr (Or.inr (Or.inr (Or.inr ⟨_, p, k, bs, l', h5⟩))))
  · obtain ⟨l4, l5, h6, h7, -⟩ := cbs_origin (h := h) (l := l2) (by
      intro hx
      rw [hx] at h2
      exact h1 h2)
    exact ⟨l4, _, l5, h6, h7, h2, h3⟩

/-- An open is refused unless the TLS IO is idle; the callbacks stay. -/
theorem open_refused {m : Mach Inst Op Call} (hm : Reachable m) {l1 l2 : List Event} {e : Event}
    {h : Nat} {c : Cbs} (hl : m.st.log = l1 ++ e :: .enter (.open h c) :: l2)
    (hp : h = 0 ∨ phase h l2 ≠ .idle) :
    (∃ r, r ≠ 0 ∧ e = .leave (.open h c) r) ∧
      (phase h l2 ≠ .idle → view h (.enter (.open h c) :: l2) = view h l2) := by
  have := answers hm hl rfl
  simp only [Reacts] at this
  rw [if_neg (by rintro ⟨h1, h2⟩; rcases hp with hp | hp <;> contradiction)] at this
  obtain ⟨c', r, h1, rfl⟩ := this
  have hc := (claim_at hm hl).1
  simp only [running, frames, List.map_cons, List.head?_cons] at hc
  injection hc with hc
  subst hc
  refine ⟨⟨r, h1, rfl⟩, fun hp => ?_⟩
  unfold phase at hp
  rw [view_same (show subject (.enter (.open h c)) = h from rfl)]
  simp [View.next, hp]

/-- An open that is accepted opens the lower IO, with the callbacks of this TLS IO; it succeeds
exactly if that does. -/
theorem open_result {m : Mach Inst Op Call} (hm : Reachable m) {l1 l2 : List Event} {e : Event}
    {h : Nat} :
    (∀ {c}, m.st.log = l1 ++ e :: .enter (.open h c) :: l2 → h ≠ 0 → phase h l2 = .idle →
      e = .call h (.xioOpen (view h l2).io h h h)) ∧
    ∀ {io c1 c2 c3 n bs}, m.st.log = l1 ++ e :: .ret h (.xioOpen io c1 c2 c3) n bs :: l2 →
      ∃ c r, e = .leave c r ∧ (r = 0 ↔ n = 0) ∧ (running l2).head? = some c := by
  constructor
  · intro c hl hz hp
    have := answers hm hl rfl
    simp only [Reacts] at this
    rwa [if_pos ⟨hz, hp⟩] at this
  · intro io c1 c2 c3 n bs hl
    obtain ⟨c, r, rfl, h2⟩ := answers hm hl rfl
    have hc := (claim_at hm hl).1
    rw [running_inner rfl] at hc
    exact ⟨c, r, rfl, h2, hc⟩

/-- A close is refused if the TLS IO is idle or closing; a close that is accepted closes the lower
IO. -/
theorem close_result {m : Mach Inst Op Call} (hm : Reachable m) {l1 l2 : List Event} {e : Event}
    {h fn ctx : Nat} (hl : m.st.log = l1 ++ e :: .enter (.close h fn ctx) :: l2) (hz : h ≠ 0) :
    if phase h l2 = .idle ∨ phase h l2 = .shut then ∃ r, r ≠ 0 ∧ e = .leave (.close h fn ctx) r
    else e = .call h (.xioClose (view h l2).io h) := by
  have := answers hm hl rfl
  simp only [Reacts] at this
  split
  next hp =>
    rw [if_neg (by rintro ⟨-, h1, h2⟩; exact hp.elim h1 h2)] at this
    obtain ⟨c', r, h1, rfl⟩ := this
    have hc := (claim_at hm hl).1
    simp only [running, frames, List.map_cons, List.head?_cons] at hc
    injection hc with hc
    subst hc
    exact ⟨r, h1, rfl⟩
  next hp =>
    rwa [if_pos ⟨hz, fun h => hp (Or.inl h), fun h => hp (Or.inr h)⟩] at this

/-- The end of a close is reported to the callback of the last close that was accepted, when the
lower IO has closed, or fails. -/
theorem close_reported {m : Mach Inst Op Call} (hm : Reachable m) {l1 l2 : List Event}
    {h fn ctx : Nat} (hl : m.st.log = l1 ++ .call h (.onClose fn ctx) :: l2) :
    ∃ e l4 l5, (e = .enter (.uClose h) ∨ e = .enter (.uError h)) ∧
      l2 = e :: (l4 ++ .enter (.close h fn ctx) :: l5) ∧
      phase h l5 ≠ .idle ∧ phase h l5 ≠ .shut ∧
      ∀ cfg lg r, r.toNat = h → .leave (.create cfg lg) r ∉ l4 := by
  obtain ⟨-, -, h1, h2, l', h3, h4⟩ := claim_at hm hl
  obtain ⟨l4, l5, h5, h6, h7, h8⟩ := shut_origin h4
  have hv : (view h l2).closeFn = (view h l').closeFn ∧ (view h l2).closeCtx = (view h l').closeCtx := by
    unfold phase at h4
    rcases h3 with rfl | rfl
    · simp [view, View.next, subject, Call.handle, h4]
    · simp [view, View.next, subject, Call.handle, h4]
  rw [hv.1] at h1
  rw [hv.2] at h2
  rw [← h1, ← h2] at h5
  rcases h3 with rfl | rfl
  · exact ⟨_, l4, l5, Or.inl rfl, by rw [h5], h6, h7, h8⟩
  · exact ⟨_, l4, l5, Or.inr rfl, by rw [h5], h6, h7, h8⟩

/-- When the lower IO has closed, or fails, and a close is going on, its callback is called at once. -/
theorem close_answered {m : Mach Inst Op Call} (hm : Reachable m) {l1 l2 : List Event} {e e' : Event}
    {h : Nat} (hl : m.st.log = l1 ++ e :: e' :: l2)
    (he : e' = .enter (.uClose h) ∨ e' = .enter (.uError h)) (hp : phase h l2 = .shut)
    (hf : (view h l2).closeFn ≠ 0) :
    e = .call h (.onClose (view h l2).closeFn (view h l2).closeCtx) := by
  rcases he with rfl | rfl
  · have := answers hm hl rfl
    simpa [Reacts, hp, tellsClose, tells, hf] using this
  · have := answers hm hl rfl
    simpa [Reacts, hp, tellsClose, tells, hf] using this

/-! ### C82: resources, function by function (all together: `Ledger.lean`) -/

/-- A creation that succeeds gives a TLS IO that was not alive, and holds what it owns and nothing
else; one that fails holds nothing. -/
theorem create_holds {m : Mach Inst Op Call} (hm : Reachable m) {l1 l2 : List Event}
    {cfg : Option Config} {lg : Nat} {r : Int}
    (hl : m.st.log = l1 ++ .leave (.create cfg lg) r :: l2) :
    if r = 0 then ∀ x, held x l2 = held x (beforeEnter l2)
    else cfg ≠ none ∧ (view r.toNat l2).logger = lg ∧ 0 < r ∧ r.toNat ∉ alives l2 ∧
      ∀ x, held x l2 = held x (beforeEnter l2) + own x r.toNat (view r.toNat l2) := by
  have := (claim_at hm hl).2.2
  simp only [Leaves] at this
  split
  next h0 => rwa [if_pos h0] at this
  next h0 =>
    rw [if_neg h0] at this
    exact ⟨this.1, this.2.1, this.2.2.1, this.2.2.2.1, this.2.2.2.2.1⟩

/-- Destruction releases exactly what the TLS IO owns. -/
theorem destroy_releases {m : Mach Inst Op Call} (hm : Reachable m) {l1 l2 : List Event} {h : Nat}
    {r : Int} (hl : m.st.log = l1 ++ .leave (.destroy h) r :: l2) (hh : h ≠ 0) (x : Res)
    (hx : ∀ p, x ≠ .buf p) (hy : ∀ p, x ≠ .cred p) :
    held x l2 = held x (beforeEnter l2) - own x h (view h l2) := by
  have := (claim_at hm hl).2.2.2 x hx hy
  rwa [if_neg hh] at this

end Verif.Schan
