import Verif.Wc.HSpec
/-! # What holds of every life of a `WolfSSLConnection` -/
set_option linter.unusedSimpArgs false
set_option linter.unusedVariables false
namespace Verif.Wc
open Verif.Mb (Wire Put Text)

variable {Peer : Text → Wire → Prop} {W : Prop}

/-! ## Steps -/

theorem Put.eq {w w' : Wire} {bs : Text} {ok : Prop} (h : Put True w bs ok w') : ∃ u, u <+: bs ∧ w' = w.sent u ∧ (ok → u = bs) := by
  obtain ⟨n, hn, rfl, hk⟩ := h
  exact ⟨bs.take n, List.take_prefix _ _, rfl, fun h => by rw [hk h trivial, List.take_length]⟩

/-- all the ways an object changes -/
theorem step_cases {o o' : Ob} {op : Op} {out : Out} {evs : List TEv} (h : step Peer W o op out o' evs) :
    (∃ host port r, op = .connect host port ∧ out = .num r ∧ Connected Peer o host r o' evs) ∨
    (o.live ≠ none ∧ op = .close ∧ o' = { o with refs := o.refs - 1, fd := none, live := none } ∧ evs = .ctxFree o.ctx :: closing o.fd) ∨
    (o' = o ∧ (evs = [] ∨ ∃ u r, evs = [.trust o.ctx u r]) ∧ ∀ host port, op ≠ .connect host port) ∨
    (∃ w w', o.live = some w ∧ o' = { o with live := some w' } ∧ evs = [] ∧ ∀ host port, op ≠ .connect host port) := by
  unfold step at h
  cases op with
  | connect host port => obtain ⟨r, h1, h2⟩ := h; exact .inl ⟨host, port, r, rfl, h1, h2⟩
  | isConnected => exact .inr (.inr (.inl ⟨h.2.1, .inl h.2.2, fun _ _ h => by cases h⟩))
  | send bs =>
    obtain ⟨r, _, h, he⟩ := h
    unfold Sent at h
    cases hl : o.live with
    | none => rw [hl] at h; exact .inr (.inr (.inl ⟨h.2, .inl he, fun _ _ h => by cases h⟩))
    | some w => rw [hl] at h; obtain ⟨w', h, _⟩ := h; exact .inr (.inr (.inr ⟨w, w', rfl, h, he, fun _ _ h => by cases h⟩))
  | receive n =>
    obtain ⟨he, ⟨_, h⟩ | h⟩ := h
    · exact .inr (.inr (.inl ⟨h, .inl he, fun _ _ h => by cases h⟩))
    cases hl : o.live with
    | none => rw [hl] at h; exact .inr (.inr (.inl ⟨h.1, .inl he, fun _ _ h => by cases h⟩))
    | some w =>
      rw [hl] at h
      dsimp only at h
      split at h
      · exact .inr (.inr (.inl ⟨h.1, .inl he, fun _ _ h => by cases h⟩))
      · obtain ⟨k, _, _, _, h, _⟩ := h
        exact .inr (.inr (.inr ⟨w, w.got k, rfl, h, he, fun _ _ h => by cases h⟩))
  | close =>
    obtain ⟨r, _, _, h⟩ := h
    cases hl : o.live with
    | none => rw [hl] at h; exact .inr (.inr (.inl ⟨h.1, .inl h.2, fun _ _ h => by cases h⟩))
    | some w => rw [hl] at h; exact .inr (.inl ⟨by simp, rfl, h.1, h.2⟩)
  | load u =>
    obtain ⟨r, _, h, hL⟩ := h
    unfold Loaded at hL
    refine .inr (.inr (.inl ⟨h, ?_, fun _ _ h => by cases h⟩))
    split at hL
    · exact .inl hL.2
    · obtain ⟨e, _, he⟩ := hL; exact .inr ⟨u, e, he⟩

/-- objects stay as they can be; numbers of sockets aside -/
structure Fit (o : Ob) : Prop where
  none : o.ctx = 0 → o.refs = 0 ∧ o.live = none
  some : o.ctx ≠ 0 → 0 < o.refs
  live : o.live ≠ Option.none → 1 < o.refs ∧ o.fd ≠ Option.none

theorem Constructed.fit {o : Ob} {evs : List TEv} (h : Constructed o evs) : Fit o := by
  rcases h with ⟨rfl, _⟩ | ⟨x, hx, rfl, _⟩
  · exact ⟨by simp, by simp, by simp⟩
  · exact ⟨fun h => absurd h hx, by simp, by simp⟩

theorem step_fit {o o' : Ob} {op : Op} {out : Out} {evs : List TEv} (ho : Fit o) (h : step Peer W o op out o' evs) : Fit o' := by
  rcases step_cases h with ⟨host, port, r, _, _, h⟩ | ⟨hl, _, rfl, _⟩ | ⟨rfl, _⟩ | ⟨w, w', hl, rfl, _⟩
  · cases h with
    | noCtx => exact ho
    | again => exact ho
    | noSocket => exact ho
    | unreached hx => exact ⟨ho.none, ho.some, fun h => ⟨(ho.live h).1, by simp⟩⟩
    | refused hx hf => exact ⟨fun h => absurd h hx, fun _ => by simp, fun h => absurd hf (ho.live h).2⟩
    | done hx => exact ⟨fun h => absurd h hx, fun _ => by simp, fun _ => ⟨by have := ho.some hx; simp; omega, by simp⟩⟩
  · have := ho.live hl
    exact ⟨fun h => absurd (ho.none h).2 hl, fun _ => by simp; omega, fun h => absurd rfl h⟩
  · exact ho
  · exact ⟨fun h => absurd (ho.none h).2 (by rw [hl]; simp), ho.some, fun _ => ho.live (by rw [hl]; simp)⟩

theorem Steps.fit {o o' : Ob} {ops : List Op} {outs : List Out} {evss : List (List TEv)} (h : Steps Peer W o ops outs o' evss) : Fit o → Fit o' := by
  induction h with
  | nil => exact id
  | cons h _ ih => exact fun ho => ih (step_fit ho h)

/-! ## Sockets -/

theorem sockets_append : ∀ (a b : List TEv) (fd : Option Nat), sockets fd (a ++ b) = (sockets fd a).bind (sockets · b)
  | [], b, fd => by cases fd <;> rfl
  | e :: a, b, fd => by
    cases e with
    | close n =>
      cases fd with
      | none => simp [sockets]
      | some m =>
        simp only [List.cons_append, sockets]
        split
        · exact sockets_append a b none
        · rfl
    | socket n => cases fd <;> simp [sockets, sockets_append a b]
    | _ => cases fd <;> simp [sockets, sockets_append a b]

theorem sockets_closing {fd : Option Nat} : sockets fd (closing fd) = some none := by
  cases fd <;> simp [closing, sockets]

theorem step_sockets {o o' : Ob} {op : Op} {out : Out} {evs : List TEv} (ho : Fit o) (h : step Peer W o op out o' evs) : sockets o.fd evs = some o'.fd := by
  rcases step_cases h with ⟨host, port, r, _, _, h⟩ | ⟨hl, _, rfl, rfl⟩ | ⟨rfl, rfl | ⟨u, r, rfl⟩, _⟩ | ⟨w, w', hl, rfl, rfl, _⟩
  · cases h with
    | noCtx => cases o.fd <;> rfl
    | again => cases o.fd <;> rfl
    | noSocket => cases o.fd <;> rfl
    | unreached _ hf => rw [hf]; rfl
    | refused _ hf => rw [hf]; rfl
    | done _ hf => rw [hf]; rfl
  · cases hf : o.fd with
    | none => rfl
    | some n => simp [closing, sockets]
  · cases o'.fd <;> rfl
  · cases o'.fd <;> rfl
  · cases o.fd <;> rfl

theorem Steps.sockets {o o' : Ob} {ops : List Op} {outs : List Out} {evss : List (List TEv)} (h : Steps Peer W o ops outs o' evss) :
    Fit o → Wc.sockets o.fd evss.flatten = some o'.fd := by
  induction h with
  | nil => intro _; cases h : (_ : Ob).fd <;> rfl
  | cons h _ ih =>
    intro ho
    rw [List.flatten_cons, sockets_append, step_sockets ho h]
    exact ih (step_fit ho h)

/-- C94: an object has at most one socket; it is closed once, at the latest when the object is destroyed, and no other socket is. -/
theorem sockets_closed {ops : List Op} {outs : List Out} {o : Ob} {evs : List TEv} (h : Lives Peer W ops outs o evs) :
    sockets none evs = some o.fd ∧ sockets none (evs ++ destroying o) = some none := by
  obtain ⟨o0, evs0, evss, h0, hs, rfl⟩ := h
  have e0 : sockets none evs0 = some o0.fd := by rcases h0 with ⟨rfl, rfl⟩ | ⟨x, _, rfl, rfl⟩ <;> rfl
  have e1 : sockets none (evs0 ++ evss.flatten) = some o.fd := by rw [sockets_append, e0]; exact hs.sockets h0.fit
  refine ⟨e1, ?_⟩
  rw [sockets_append, e1]
  show sockets o.fd (destroying o) = some none
  unfold destroying
  split
  · show sockets o.fd (.cleanup :: closing o.fd) = some none
    cases hf : o.fd <;> simp [closing, sockets]
  · show sockets o.fd (.ctxFree o.ctx :: .cleanup :: closing o.fd) = some none
    cases hf : o.fd <;> simp [closing, sockets]

/-! ## Contexts -/

theorem freed_append {a b : List TEv} : freed (a ++ b) = freed a + freed b := List.countP_append
theorem obtained_append {a b : List TEv} : obtained (a ++ b) = obtained a + obtained b := List.countP_append
theorem freed_closing {fd : Option Nat} : freed (closing fd) = 0 := by cases fd <;> rfl
theorem obtained_closing {fd : Option Nat} : obtained (closing fd) = 0 := by cases fd <;> rfl

theorem step_refs {o o' : Ob} {op : Op} {out : Out} {evs : List TEv} (ho : Fit o) (h : step Peer W o op out o' evs) : freed evs + o'.refs = obtained evs + o.refs := by
  rcases step_cases h with ⟨host, port, r, _, _, h⟩ | ⟨hl, _, rfl, rfl⟩ | ⟨rfl, rfl | ⟨u, r, rfl⟩, _⟩ | ⟨w, w', hl, rfl, rfl, _⟩
  · cases h with
    | noCtx => rfl
    | again => rfl
    | noSocket => rfl
    | unreached _ hf => rfl
    | refused _ hf => simp [freed, obtained, List.countP_cons]; omega
    | done _ hf => simp [freed, obtained, List.countP_cons]; omega
  · have h1 : freed (.ctxFree o.ctx :: closing o.fd) = 1 := by have := freed_closing (fd := o.fd); unfold freed at *; rw [List.countP_cons, this]; rfl
    have h2 : obtained (.ctxFree o.ctx :: closing o.fd) = 0 := by have := obtained_closing (fd := o.fd); unfold obtained at *; rw [List.countP_cons, this]; rfl
    have := ho.live hl
    rw [h1, h2]
    show 1 + (o.refs - 1) = 0 + o.refs
    omega
  · rfl
  · rfl
  · rfl

theorem Steps.refs {o o' : Ob} {ops : List Op} {outs : List Out} {evss : List (List TEv)} (h : Steps Peer W o ops outs o' evss) :
    Fit o → freed evss.flatten + o'.refs = obtained evss.flatten + o.refs := by
  induction h with
  | nil => intro _; rfl
  | cons h _ ih =>
    intro ho
    have h1 := step_refs ho h
    have h2 := ih (step_fit ho h)
    rw [List.flatten_cons, freed_append, obtained_append]
    omega

theorem Lives.refs {ops : List Op} {outs : List Out} {o : Ob} {evs : List TEv} (h : Lives Peer W ops outs o evs) : freed evs + o.refs = obtained evs ∧ Fit o := by
  obtain ⟨o0, evs0, evss, h0, hs, rfl⟩ := h
  have h1 := hs.refs h0.fit
  refine ⟨?_, hs.fit h0.fit⟩
  rw [freed_append, obtained_append]
  rcases h0 with ⟨rfl, rfl⟩ | ⟨x, _, rfl, rfl⟩ <;> simp [freed, obtained, List.countP_cons] at h1 ⊢ <;> omega

/-- C94: until the destructor runs a reference on the context is left, so it is not used after it was released; the destructor gives up no more than there are. -/
theorem context_alive {ops : List Op} {outs : List Out} {o : Ob} {evs : List TEv} (h : Lives Peer W ops outs o evs) :
    (o.ctx ≠ 0 → freed evs < obtained evs) ∧ freed (evs ++ destroying o) ≤ obtained evs := by
  obtain ⟨h1, hf⟩ := h.refs
  have := hf.some
  have e : freed (destroying o) = if o.ctx = 0 then 0 else 1 := by
    unfold destroying
    rw [freed_append, freed_append, freed_closing]
    split <;> rfl
  refine ⟨fun hx => by have := this hx; omega, ?_⟩
  rw [freed_append, e]
  split
  · omega
  · rename_i hx
    have := this hx
    omega

/-- handshakes that failed -/
def failedHandshakes : List Out → List (List TEv) → Nat
  | out :: outs, evs :: evss => (if out ≠ .num 0 ∧ obtained evs = 1 then 1 else 0) + failedHandshakes outs evss
  | _, _ => 0

theorem step_failed {o o' : Ob} {op : Op} {out : Out} {evs : List TEv} (ho : Fit o) (h : step Peer W o op out o' evs) (hx : o.ctx ≠ 0) :
    o'.refs + (if o.live.isSome then 1 else 0) = o.refs + (if o'.live.isSome then 1 else 0) + (if out ≠ .num 0 ∧ obtained evs = 1 then 1 else 0) ∧ o'.ctx = o.ctx := by
  rcases step_cases h with ⟨host, port, r, _, ho2, hc⟩ | ⟨hl, hop, rfl, rfl⟩ | ⟨rfl, rfl | ⟨u, r, rfl⟩, _⟩ | ⟨w, w', hl, rfl, rfl, _⟩
  · clear h
    subst ho2
    cases hc with
    | noCtx => simp [obtained]
    | again => simp [obtained]
    | noSocket => simp [obtained]
    | unreached _ hf => simp [obtained, List.countP_cons]
    | refused _ hf hr => simp [obtained, List.countP_cons, hr]; omega
    | done _ hf =>
      have hl : o.live = none := by
        cases hl : o.live with
        | none => rfl
        | some w => exact absurd hf (ho.live (by rw [hl]; simp)).2
      simp [obtained, List.countP_cons, hl]
  · have h2 : obtained (.ctxFree o.ctx :: closing o.fd) = 0 := by have := obtained_closing (fd := o.fd); unfold obtained at *; rw [List.countP_cons, this]; rfl
    have := ho.live hl
    rw [h2]
    cases hl' : o.live with
    | none => exact absurd hl' hl
    | some w => simp; omega
  · simp [obtained]
  · simp [obtained, List.countP_cons]
  · simp [obtained, hl]

theorem Steps.failed {o o' : Ob} {ops : List Op} {outs : List Out} {evss : List (List TEv)} (h : Steps Peer W o ops outs o' evss) : Fit o → o.ctx ≠ 0 →
    o'.refs + (if o.live.isSome then 1 else 0) = o.refs + (if o'.live.isSome then 1 else 0) + failedHandshakes outs evss ∧ o'.ctx = o.ctx := by
  induction h with
  | nil => intro _ _; simp [failedHandshakes]
  | cons h _ ih =>
    intro ho hx
    obtain ⟨h1, e⟩ := step_failed ho h hx
    obtain ⟨h2, e2⟩ := ih (step_fit ho h) (by rw [e]; exact hx)
    refine ⟨?_, by rw [e2, e]⟩
    rw [failedHandshakes]
    omega

/-- C94 (in part): the references on the context that are left when the object is destroyed are one for each handshake that failed, and one if it was destroyed while connected.  (Sessions
are never released, whatever happens.) -/
theorem context_left_partial {o0 o : Ob} {evs0 : List TEv} {ops : List Op} {outs : List Out} {evss : List (List TEv)} (h0 : Constructed o0 evs0) (hs : Steps Peer W o0 ops outs o evss) (hx : o0.ctx ≠ 0) :
    o.refs - 1 = failedHandshakes outs evss + (if o.live.isSome then 1 else 0) := by
  have := (hs.failed h0.fit hx).1
  rcases h0 with ⟨rfl, _⟩ | ⟨x, _, rfl, _⟩
  · exact absurd rfl hx
  · simp at this
    omega

/-! ## Connections -/

theorem stuck {o o' : Ob} {op : Op} {out : Out} {evs : List TEv} (hl : o.live = none) (hf : o.fd ≠ none) (h : step Peer W o op out o' evs) :
    (o'.live = none ∧ o'.fd ≠ none) ∧ (∀ host port, op = .connect host port → ∃ r, out = .num r ∧ r ≠ 0) ∧ (∀ bs, op = .send bs → out = .num 0) ∧ (op = .isConnected → out = .bool false) := by
  refine ⟨?_, ?_, ?_, ?_⟩
  · rcases step_cases h with ⟨host, port, r, _, _, h⟩ | ⟨hl', _⟩ | ⟨rfl, _⟩ | ⟨w, w', hl', _⟩
    · cases h with
      | noCtx => exact ⟨hl, hf⟩
      | again => exact ⟨hl, hf⟩
      | noSocket => exact ⟨hl, hf⟩
      | unreached _ hf' => exact absurd hf' hf
      | refused _ hf' => exact absurd hf' hf
      | done _ hf' => exact absurd hf' hf
    · exact absurd hl hl'
    · exact ⟨hl, hf⟩
    · rw [hl] at hl'; cases hl'
  · rintro host port rfl
    obtain ⟨r, ho, h⟩ := h
    refine ⟨r, ho, ?_⟩
    cases h with
    | noCtx _ h => exact h
    | again _ _ h => exact h
    | noSocket _ _ h => exact h
    | unreached _ hf' => exact absurd hf' hf
    | refused _ hf' => exact absurd hf' hf
    | done _ hf' => exact absurd hf' hf
  · rintro bs rfl
    obtain ⟨r, ho, h, _⟩ := h
    unfold Sent at h
    rw [hl] at h
    rw [ho, h.1]
  · rintro rfl
    rw [h.1, hl]; rfl

theorem Steps.stuck {o o' : Ob} {ops : List Op} {outs : List Out} {evss : List (List TEv)} (h : Steps Peer W o ops outs o' evss) : o.live = none → o.fd ≠ none → ∀ j : Nat,
    (∀ host port, ops[j]? = some (.connect host port) → ∃ r, outs[j]? = some (.num r) ∧ r ≠ 0) ∧ (∀ bs, ops[j]? = some (.send bs) → outs[j]? = some (.num 0)) ∧
    (ops[j]? = some .isConnected → outs[j]? = some (.bool false)) := by
  induction h with
  | nil => intro _ _ j; simp
  | cons h _ ih =>
    intro hl hf j
    obtain ⟨⟨h1, h2⟩, h3, h4, h5⟩ := Wc.stuck hl hf h
    cases j with
    | zero =>
      simp only [List.getElem?_cons_zero, Option.some.injEq]
      exact ⟨h3, h4, h5⟩
    | succ j => simpa using ih h1 h2 j

/-- C95 (what the code does wrong): once `connect` has failed with a socket at hand, the object can never be connected again: every further `connect` fails, `close` changes nothing, `send` sends nothing and
returns 0. -/
theorem never_again {o o' : Ob} {ops : List Op} {outs : List Out} {evss : List (List TEv)} (h : Steps Peer W o ops outs o' evss) : Fit o → ∀ (k : Nat) host port r evs,
    ops[k]? = some (.connect host port) → outs[k]? = some (.num r) → r ≠ 0 → evss[k]? = some evs → evs ≠ [] → ∀ j, k < j →
    (∀ host port, ops[j]? = some (.connect host port) → ∃ r, outs[j]? = some (.num r) ∧ r ≠ 0) ∧ (∀ bs, ops[j]? = some (.send bs) → outs[j]? = some (.num 0)) ∧
    (ops[j]? = some .isConnected → outs[j]? = some (.bool false)) := by
  induction h with
  | nil => intro _ k host port r evs h; simp at h
  | @cons o op out o1 evs1 ops outs o2 evss h hs ih =>
    intro ho k host port r evs e1 e2 hr e3 he j hj
    have hnone : o.fd = none → o.live = none := fun hf => by
      cases hl : o.live with
      | none => rfl
      | some w => exact absurd hf (ho.live (by rw [hl]; simp)).2
    cases k with
    | zero =>
      simp only [List.getElem?_cons_zero, Option.some.injEq] at e1 e2 e3
      subst e1 e2 e3
      obtain ⟨r', hr', h⟩ := h
      cases hr'
      have : ∃ j', j = j' + 1 := ⟨j - 1, by omega⟩
      obtain ⟨j, rfl⟩ := this
      simp only [List.getElem?_cons_succ]
      cases h with
      | noCtx => exact absurd rfl he
      | again => exact absurd rfl he
      | noSocket => exact absurd rfl he
      | unreached _ hf => exact hs.stuck (hnone hf) (by simp) j
      | refused _ hf => exact hs.stuck (hnone hf) (by simp) j
      | done => exact absurd rfl hr
    | succ k =>
      have : ∃ j', j = j' + 1 := ⟨j - 1, by omega⟩
      obtain ⟨j, rfl⟩ := this
      simp only [List.getElem?_cons_succ] at e1 e2 e3 ⊢
      exact ih (step_fit ho h) k host port r evs e1 e2 hr e3 he j (by omega)

/-- C95 (in part): an object that was connected and closed goes through all of `connect` again: it is not refused as one that has a socket, and the connection is a new one. -/
theorem closed_again_partial {o o1 o2 : Ob} {out out2 : Out} {evs evs2 : List TEv} {host : Text} {port : Nat} (ho : Fit o) (hl : o.live ≠ none) (h : step Peer W o .close out o1 evs)
    (h2 : step Peer W o1 (.connect host port) out2 o2 evs2) :
    out = .bool true ∧ o1.fd = none ∧ o1.live = none ∧ o1.ctx = o.ctx ∧ o.ctx ≠ 0 ∧
    ((out2 = .num 0 ∧ ∃ fd s w, evs2 = [.socket fd, .session o.ctx s] ∧ Peer host w ∧ w.out = [] ∧ w.pos = 0 ∧ o2.live = some w) ∨
     (o2.live = none ∧ (∃ r, out2 = .num r ∧ r ≠ 0) ∧ (evs2 = [] ∧ o2.fd = none ∨ ∃ fd, o2.fd = some fd ∧ (evs2 = [.socket fd] ∨ ∃ s, evs2 = [.socket fd, .session o.ctx s])))) := by
  obtain ⟨r, rfl, rfl, h⟩ := h
  cases hw : o.live with
  | none => exact absurd hw hl
  | some w =>
    rw [hw] at h
    obtain ⟨rfl, rfl⟩ := h
    have hx : o.ctx ≠ 0 := fun h => hl (ho.none h).2
    refine ⟨rfl, rfl, rfl, rfl, hx, ?_⟩
    obtain ⟨r, rfl, h2⟩ := h2
    cases h2 with
    | noCtx h => exact absurd h hx
    | again _ h => exact absurd rfl h
    | noSocket _ _ h => exact .inr ⟨rfl, ⟨_, rfl, h⟩, .inl ⟨rfl, rfl⟩⟩
    | unreached _ _ h => exact .inr ⟨rfl, ⟨_, rfl, h⟩, .inr ⟨_, rfl, .inl rfl⟩⟩
    | refused _ _ h => exact .inr ⟨rfl, ⟨_, rfl, h⟩, .inr ⟨_, rfl, .inr ⟨_, rfl⟩⟩⟩
    | done _ _ _ h1 h2 h3 => exact .inl ⟨rfl, _, _, _, rfl, h1, h2, h3, rfl⟩

/-- what a call put on the connection -/
def SentBy (op : Op) (out : Out) (u : Text) : Prop :=
  match op with
  | .send bs => u <+: bs ∧ (out = .num bs.length → u = bs)
  | _ => u = []

/-- what a call received: the data returned, with their number -/
def GotBy (op : Op) (out : Out) (v : Text) : Prop :=
  match op, out with
  | .receive n, .data r vs => if 0 < r then r = v.length ∧ vs = bytesV v ++ List.replicate (n - v.length) .undef else v = []
  | _, _ => v = []

/-- the connection after some calls, the last of which that succeeded to connect was at position `i` -/
def Told (Peer : Text → Wire → Prop) (ops : List Op) (outs : List Out) (w : Wire) : Prop :=
  ∃ (i : Nat) (host : Text) (port : Nat) (w0 : Wire) (us vs : List Text), ops[i]? = some (.connect host port) ∧ outs[i]? = some (.num 0) ∧ Peer host w0 ∧ w.srv = w0.srv ∧ w.fin = w0.fin ∧
    us.length = ops.length - (i + 1) ∧ vs.length = ops.length - (i + 1) ∧
    (∀ (k : Nat) op out u, ops[i + 1 + k]? = some op → outs[i + 1 + k]? = some out → us[k]? = some u → SentBy op out u) ∧ w.out = us.flatten ∧
    (∀ (k : Nat) op out v, ops[i + 1 + k]? = some op → outs[i + 1 + k]? = some out → vs[k]? = some v → GotBy op out v) ∧ w.pos = vs.flatten.length ∧
    ((∀ a b, w0.srv a <+: w0.srv (a ++ b)) → vs.flatten <+: w0.srv w.out)

theorem Steps.snoc {o o1 o2 : Ob} {ops : List Op} {outs : List Out} {evss : List (List TEv)} {op : Op} {out : Out} {evs : List TEv} (h : Steps Peer W o ops outs o1 evss)
    (h2 : step Peer W o1 op out o2 evs) : Steps Peer W o (ops ++ [op]) (outs ++ [out]) o2 (evss ++ [evs]) := by
  induction h with
  | nil => exact .cons h2 .nil
  | cons h _ ih => exact .cons h (ih h2)

theorem Steps.lengths {o o' : Ob} {ops : List Op} {outs : List Out} {evss : List (List TEv)} (h : Steps Peer W o ops outs o' evss) : outs.length = ops.length := by
  induction h with
  | nil => rfl
  | cons _ _ ih => simp [ih]

theorem last_getElem {α} {l : List α} {x y : α} {k : Nat} (h : (l ++ [x])[k]? = some y) : (k < l.length ∧ l[k]? = some y) ∨ (k = l.length ∧ y = x) := by
  by_cases hk : k < l.length
  · rw [List.getElem?_append_left hk] at h; exact .inl ⟨hk, h⟩
  · have := (List.getElem?_eq_some_iff.1 h).1
    simp at this
    have : k = l.length := by omega
    subst this
    rw [List.getElem?_append_right (by omega), Nat.sub_self] at h
    cases h
    exact .inr ⟨rfl, rfl⟩

theorem told_snoc {ops : List Op} {outs : List Out} {w w' : Wire} {op : Op} {out : Out} {u v : Text} (hl : outs.length = ops.length) (h : Told Peer ops outs w) (hu : SentBy op out u) (hv : GotBy op out v)
    (h1 : w'.out = w.out ++ u) (h2 : w'.srv = w.srv) (h3 : w'.fin = w.fin) (h4 : w'.pos = w.pos + v.length) (h5 : v <+: (w.srv w'.out).drop w.pos) : Told Peer (ops ++ [op]) (outs ++ [out]) w' := by
  obtain ⟨i, host, port, w0, us, vs, a1, a2, a3, a4, a5, a6, b6, a7, a8, b7, b8, b9⟩ := h
  have hi : i < ops.length := (List.getElem?_eq_some_iff.1 a1).1
  refine ⟨i, host, port, w0, us ++ [u], vs ++ [v], ?_, ?_, a3, by rw [h2, a4], by rw [h3, a5], ?_, ?_, ?_, by rw [h1, a8]; simp, ?_, by rw [h4, b8]; simp, ?_⟩
  · rw [List.getElem?_append_left hi]; exact a1
  · rw [List.getElem?_append_left (by omega)]; exact a2
  · simp; omega
  · simp; omega
  · intro k op' out' u' e1 e2 e3
    rcases last_getElem e1 with ⟨k1, e1⟩ | ⟨k1, e1⟩ <;> rcases last_getElem e2 with ⟨k2, e2⟩ | ⟨k2, e2⟩ <;> rcases last_getElem e3 with ⟨k3, e3⟩ | ⟨k3, e3⟩ <;> first
      | omega
      | exact a7 k op' out' u' e1 e2 e3
      | (subst e1 e2 e3; exact hu)
  · intro k op' out' u' e1 e2 e3
    rcases last_getElem e1 with ⟨k1, e1⟩ | ⟨k1, e1⟩ <;> rcases last_getElem e2 with ⟨k2, e2⟩ | ⟨k2, e2⟩ <;> rcases last_getElem e3 with ⟨k3, e3⟩ | ⟨k3, e3⟩ <;> first
      | omega
      | exact b7 k op' out' u' e1 e2 e3
      | (subst e1 e2 e3; exact hv)
  · intro hm
    have hp := b9 hm
    have hp' : vs.flatten <+: w0.srv w'.out := hp.trans (by rw [h1]; exact hm _ _)
    obtain ⟨t, ht⟩ := hp'
    rw [a4, b8, ← ht, List.drop_left] at h5
    obtain ⟨t', ht'⟩ := h5
    refine ⟨t', ?_⟩
    rw [← ht, ← ht']
    simp

/-- induction from the end -/
theorem Steps.back {o : Ob} {P : List Op → List Out → Ob → Prop} (h0 : P [] [] o)
    (hs : ∀ ops outs o1 evss op out o2 evs, Steps Peer W o ops outs o1 evss → P ops outs o1 → step Peer W o1 op out o2 evs → P (ops ++ [op]) (outs ++ [out]) o2)
    {ops : List Op} {outs : List Out} {o' : Ob} {evss : List (List TEv)} (h : Steps Peer W o ops outs o' evss) : P ops outs o' := by
  have key : ∀ (ops2 : List Op) outs2 o1 o2 evss2, Steps Peer W o1 ops2 outs2 o2 evss2 → ∀ ops1 outs1 evss1, Steps Peer W o ops1 outs1 o1 evss1 → P ops1 outs1 o1 →
      P (ops1 ++ ops2) (outs1 ++ outs2) o2 := by
    intro ops2 outs2 o1 o2 evss2 h2
    induction h2 with
    | nil => intro _ _ _ _ h; simpa using h
    | cons h _ ih =>
      intro ops1 outs1 evss1 h1 hp
      have := ih _ _ _ (h1.snoc h) (hs _ _ _ _ _ _ _ _ h1 hp h)
      simpa using this
  simpa using key _ _ _ _ _ h [] [] [] .nil h0

/-- C93: what the peer got on the open connection are the data of the calls of `send` since it was opened, in order and without gaps, each completely if the call returned its length; what the calls of
`receive` since then returned are, in order and without gaps, the first bytes of what the peer sent. -/
theorem stream {ops : List Op} {outs : List Out} {o : Ob} {evs : List TEv} (h : Lives Peer W ops outs o evs) {w : Wire} (hw : o.live = some w) : Told Peer ops outs w := by
  obtain ⟨o0, evs0, evss, h0, hs, rfl⟩ := h
  refine Steps.back (P := fun ops outs o => ∀ w, o.live = some w → Told Peer ops outs w) ?_ ?_ hs w hw
  · intro w hw
    rcases h0 with ⟨rfl, _⟩ | ⟨x, _, rfl, _⟩ <;> cases hw
  · intro ops outs o1 evss op out o2 evs hs1 hp h w hw
    have hfit : Fit o1 := hs1.fit h0.fit
    have hlen := hs1.lengths
    cases op with
    | connect host port =>
      obtain ⟨r, rfl, h⟩ := h
      have old : ∀ w, o1.live = some w → Told Peer (ops ++ [.connect host port]) (outs ++ [.num r]) w := fun w hw =>
        told_snoc hlen (hp w hw) (u := []) (v := []) rfl rfl (by simp) rfl rfl (by simp) (List.nil_prefix)
      cases h with
      | noCtx => exact old w hw
      | again => exact old w hw
      | noSocket => exact old w hw
      | unreached => exact old w hw
      | refused => exact old w hw
      | done _ _ _ h1 h2 h3 =>
        cases hw
        refine ⟨ops.length, host, port, w, [], [], by simp, by rw [← hlen]; simp, h1, rfl, rfl, by simp, by simp, ?_, by simp [h2], ?_, by simp [h3], fun _ => List.nil_prefix⟩ <;>
        (intro k op out u _ _ e; simp at e)
    | isConnected => obtain ⟨rfl, rfl, _⟩ := h; exact told_snoc hlen (hp w hw) (u := []) (v := []) rfl rfl (by simp) rfl rfl (by simp) (List.nil_prefix)
    | load u => obtain ⟨r, rfl, rfl, _⟩ := h; exact told_snoc hlen (hp w hw) (u := []) (v := []) rfl rfl (by simp) rfl rfl (by simp) (List.nil_prefix)
    | close =>
      obtain ⟨r, rfl, _, h⟩ := h
      cases hl : o1.live with
      | none => rw [hl] at h; obtain ⟨rfl, _⟩ := h; rw [hl] at hw; cases hw
      | some w1 => rw [hl] at h; obtain ⟨rfl, _⟩ := h; cases hw
    | send bs =>
      obtain ⟨r, rfl, h, _⟩ := h
      unfold Sent at h
      cases hl : o1.live with
      | none => rw [hl] at h; obtain ⟨_, rfl⟩ := h; rw [hl] at hw; cases hw
      | some w1 =>
        rw [hl] at h
        obtain ⟨w', rfl, hput, _⟩ := h
        cases hw
        obtain ⟨u, hu1, rfl, hu2⟩ := Put.eq hput
        exact told_snoc hlen (hp w1 hl) (u := u) (v := []) ⟨hu1, fun e => hu2 (by cases e; rfl)⟩ rfl rfl rfl rfl (by simp [Wire.sent]) List.nil_prefix
    | receive n =>
      obtain ⟨_, ⟨_, rfl⟩ | h⟩ := h
      · exact told_snoc hlen (hp w hw) (u := []) (v := []) rfl (by subst_vars; rfl) (by simp) rfl rfl (by simp) (List.nil_prefix)
      cases hl : o1.live with
      | none => rw [hl] at h; obtain ⟨rfl, _⟩ := h; rw [hl] at hw; cases hw
      | some w1 =>
        rw [hl] at h
        dsimp only at h
        split at h
        · obtain ⟨rfl, r, vs, rfl, hr⟩ := h
          have hr' : ¬ 0 < r := by split at hr <;> omega
          exact told_snoc hlen (hp w hw) (u := []) (v := []) rfl (by simp [GotBy, hr']) (by simp) rfl rfl (by simp) (List.nil_prefix)
        · obtain ⟨k, k0, kn, kl, rfl, rfl⟩ := h
          cases hw
          have hk : (w1.ins.take k).length = k := by rw [List.length_take]; omega
          refine told_snoc hlen (hp w1 hl) (u := []) (v := w1.ins.take k) rfl ?_ (by simp [Wire.got]) rfl rfl (by rw [hk]; rfl) (List.take_prefix _ _)
          show if (0 : Int) < k then _ else _
          rw [if_pos (by omega), hk]
          exact ⟨rfl, rfl⟩

end Verif.Wc
