import Verif.Sock.AgainHist
import Verif.Sock.Ledger
/-! # C118: the order of completion over every history -/
set_option linter.unusedSimpArgs false
namespace Verif.Sock

/-- effect of a call on an existing handle, whose client is `c` -/
def EffC (oom : Prop) (c : Client) (d : Nat) (a : Option Obj) (op : Op) (r : Int) (a' : Option Obj) (evs : List Ev) : Prop :=
  match op with
  | .send _ (some bs) cb ctx => SendC oom c d ⟨bs, cb, ctx⟩ a r a' evs
  | .dowork _ n m => ∃ fin, WorkC oom c d n m a fin a' evs ∧ r = (if fin then 1 else 0)
  | op => Eff oom a op r a' evs

theorem stepC_cases {oom : Prop} {cs : Nat → Client} {d : Nat} {x x' : World} {op : Op} {o : Option Int} (h : stepC oom cs d x op o x') :
    (o = none ∧ x' = x) ∨ (∃ r a' evs, New oom op r a' evs ∧ o = some r ∧ x' = (x.1 ++ [a'], x.2 ++ [⟨x.1.length, op, r, evs⟩])) ∨
    ∃ i a r a' evs, x.1[i]? = some a ∧ EffC oom (cs i) d a op r a' evs ∧ o = some r ∧ x' = (x.1.set i a', x.2 ++ [⟨i, op, r, evs⟩]) := by
  cases op with
  | create => exact step_cases (oom := oom) h
  | createNull => exact step_cases (oom := oom) h
  | accept => exact step_cases (oom := oom) h
  | destroy => exact step_cases (oom := oom) h
  | opn => exact step_cases (oom := oom) h
  | close => exact step_cases (oom := oom) h
  | send i bs cb ctx =>
    cases bs with
    | none => exact step_cases (oom := oom) h
    | some bs =>
      rcases h with ⟨_, hn, h⟩ | ⟨a, r, a', w', h1, ho, ⟨evs, h4, rfl⟩, rfl⟩
      · exact Or.inl ⟨hn, h⟩
      · exact Or.inr (Or.inr ⟨i, a, r, a', evs, h1, h4, ho, rfl⟩)
  | dowork i n m =>
    rcases h with ⟨_, hn, h⟩ | ⟨a, r, a', w', h1, ho, ⟨fin, evs, h4, h5, rfl⟩, rfl⟩
    · exact Or.inl ⟨hn, h⟩
    · exact Or.inr (Or.inr ⟨i, a, r, a', evs, h1, ⟨fin, h4, h5⟩, ho, rfl⟩)

/-- Induction over the life of each handle. -/
theorem at_posC {oom : Prop} {cs : Nat → Client} {d : Nat} {Inv : Nat → Option Obj → Log → Prop}
    (hnew : ∀ j op r a' evs, New oom op r a' evs → Inv j a' [⟨j, op, r, evs⟩])
    (hstep : ∀ j a L op r a' evs, Inv j a L → EffC oom (cs j) d a op r a' evs → Inv j a' (L ++ [⟨j, op, r, evs⟩]))
    {ops : List Op} {outs : List (Option Int)} {as : List (Option Obj)} {log : Log} (h : Runs (stepC oom cs d) ([], []) ops outs (as, log)) :
    ∀ i, (as.length ≤ i → ofPos i log = []) ∧ ∀ a, as[i]? = some a → Inv i a (ofPos i log) := by
  have gen : ∀ (x : World) ops outs x', Runs (stepC oom cs d) x ops outs x' →
      (∀ i, (x.1.length ≤ i → ofPos i x.2 = []) ∧ ∀ a, x.1[i]? = some a → Inv i a (ofPos i x.2)) →
      (∀ i, (x'.1.length ≤ i → ofPos i x'.2 = []) ∧ ∀ a, x'.1[i]? = some a → Inv i a (ofPos i x'.2)) := by
    intro x ops outs x' hr
    induction hr with
    | nil => exact id
    | cons h1 _ ih =>
      intro hx
      apply ih
      rcases stepC_cases h1 with ⟨_, rfl⟩ | ⟨r, a', evs, hN, _, rfl⟩ | ⟨j, a, r, a', evs, hj, hE, _, rfl⟩
      · exact hx
      · rename_i x op _ _ _ _ _ _
        intro i
        refine ⟨fun hi => ?_, fun b hb => ?_⟩
        · simp at hi
          rw [ofPos_snoc, if_neg (by omega)]
          exact (hx i).1 (by omega)
        · rw [List.getElem?_append] at hb
          split at hb
          · rename_i hlt
            rw [ofPos_snoc, if_neg (by omega)]
            exact (hx i).2 b hb
          · rename_i hge
            have : i = x.1.length := by
              rcases Nat.lt_or_ge (i - x.1.length) 1 with h | h
              · omega
              · rw [List.getElem?_eq_none (by simpa using h)] at hb; simp at hb
            subst this
            simp at hb
            subst hb
            rw [ofPos_snoc, if_pos rfl, (hx _).1 (Nat.le_refl _)]
            exact hnew _ _ _ _ _ hN
      · rename_i x op _ _ _ _ _ _
        intro i
        have hlt : j < x.1.length := (List.getElem?_eq_some_iff.1 hj).1
        refine ⟨fun hi => ?_, fun b hb => ?_⟩
        · simp at hi
          rw [ofPos_snoc, if_neg (by omega)]
          exact (hx i).1 hi
        · rw [List.getElem?_set] at hb
          by_cases hij : j = i
          · subst hij
            simp [hlt] at hb
            subst hb
            rw [ofPos_snoc, if_pos rfl]
            exact hstep _ _ _ _ _ _ _ ((hx j).2 a hj) hE
          · rw [if_neg hij] at hb
            rw [ofPos_snoc, if_neg hij]
            exact (hx i).2 b hb
  exact gen _ _ _ _ h (fun i => ⟨fun _ => rfl, fun a ha => by simp at ha⟩)

/-! ## What goes into the queue and what leaves it -/

/-- the callback and context of a message -/
def Pend.key (m : Pend) : Nat × Nat := (m.cb, m.ctx)
def Pend.all (m : Pend) : List UInt8 × Nat × Nat := (m.bytes, m.cb, m.ctx)

/-- the callbacks of those that left the queue completed -/
def completedOf (left : List (Nat × Nat × Bool)) : List (Nat × Nat) := (left.filter fun x => x.2.2 && x.1 ≠ 0).map fun x => (x.1, x.2.1)

/-- `acc` enters a queue `ps` at its end - among them the sends `must`, in order -, `left` leaves it at its front (with: completed
or not), `ps'` remains; if `w`, the socket took exactly the bytes that left. -/
def Flow (src : Pend → Prop) (must : List (List UInt8 × Nat × Nat)) (w : Prop) (ps : List Pend) (evs : List Ev) (ps' : List Pend) : Prop :=
  ∃ (acc : List Pend) (left : List (Nat × Nat × Bool)),
    ps.map Pend.key ++ acc.map Pend.key = left.map (fun x => (x.1, x.2.1)) ++ ps'.map Pend.key ∧ toldIn evs = completedOf left ∧ (∀ m ∈ acc, src m) ∧
    must.Sublist (acc.map Pend.all) ∧ (w → evs.flatMap Ev.taken ++ ps'.flatMap Pend.bytes = ps.flatMap Pend.bytes ++ acc.flatMap Pend.bytes)

theorem toldIn_append {a b : List Ev} : toldIn (a ++ b) = toldIn a ++ toldIn b := by simp [toldIn]

theorem Flow.nil {src : Pend → Prop} {w : Prop} {ps : List Pend} {evs : List Ev} (h : toldIn evs = []) (ht : w → evs.flatMap Ev.taken = []) : Flow src [] w ps evs ps :=
  ⟨[], [], by simp, by simp [h, completedOf], by simp, by simp, fun hw => by simp [ht hw]⟩

theorem Flow.trans {src : Pend → Prop} {m1 m2 : List (List UInt8 × Nat × Nat)} {w : Prop} {ps ps1 ps2 : List Pend} {e1 e2 : List Ev}
    (h1 : Flow src m1 w ps e1 ps1) (h2 : Flow src m2 w ps1 e2 ps2) : Flow src (m1 ++ m2) w ps (e1 ++ e2) ps2 := by
  obtain ⟨a1, l1, g1, t1, s1, u1, w1⟩ := h1
  obtain ⟨a2, l2, g2, t2, s2, u2, w2⟩ := h2
  refine ⟨a1 ++ a2, l1 ++ l2, ?_, ?_, ?_, ?_, fun hw => ?_⟩
  · rw [List.map_append, ← List.append_assoc, g1, List.append_assoc, g2]; simp
  · rw [toldIn_append, t1, t2]; simp [completedOf]
  · intro m hm
    rcases List.mem_append.1 hm with h | h
    · exact s1 m h
    · exact s2 m h
  · rw [List.map_append]; exact u1.append u2
  · rw [List.flatMap_append, List.append_assoc, w2 hw, ← List.append_assoc, w1 hw, List.flatMap_append, List.append_assoc]

theorem Flow.mono {src src' : Pend → Prop} {m : List (List UInt8 × Nat × Nat)} {w w' : Prop} {ps ps' : List Pend} {e : List Ev} (h : Flow src m w ps e ps')
    (hs : ∀ m, src m → src' m) (hw : w' → w) : Flow src' m w' ps e ps' := by
  obtain ⟨a, l, g, t, s, u, b⟩ := h
  exact ⟨a, l, g, t, fun m hm => hs m (s m hm), u, fun h => b (hw h)⟩

theorem Flow.less {src : Pend → Prop} {m : List (List UInt8 × Nat × Nat)} {w : Prop} {ps ps' : List Pend} {e : List Ev} (h : Flow src m w ps e ps') : Flow src [] w ps e ps' := by
  obtain ⟨a, l, g, t, s, u, b⟩ := h
  exact ⟨a, l, g, t, s, List.nil_sublist _, b⟩

/-- no send was made of a part of what was asked, or memory is never refused -/
def NoPart (oom : Prop) (evs : List Ev) : Prop := oom → ∀ fd bs r, Ev.send fd bs r ∈ evs → r = bs.length ∨ r ≤ 0

/-- all sends were made whole -/
def Whole (evs : List Ev) : Prop := ∀ fd bs r, Ev.send fd bs r ∈ evs → r = bs.length

theorem NoPart.left {oom : Prop} {a b : List Ev} (h : NoPart oom (a ++ b)) : NoPart oom a := fun ho fd bs r hm => h ho fd bs r (by simp [hm])
theorem NoPart.right {oom : Prop} {a b : List Ev} (h : NoPart oom (a ++ b)) : NoPart oom b := fun ho fd bs r hm => h ho fd bs r (by simp [hm])
theorem Whole.left {a b : List Ev} (h : Whole (a ++ b)) : Whole a := fun fd bs r hm => h fd bs r (by simp [hm])
theorem Whole.right {a b : List Ev} (h : Whole (a ++ b)) : Whole b := fun fd bs r hm => h fd bs r (by simp [hm])
theorem Whole.noPart {oom : Prop} {a : List Ev} (h : Whole a) : NoPart oom a := fun _ fd bs r hm => Or.inl (h fd bs r hm)

/-- asked for by the client in a callback that was called -/
def FromCb (c : Client) (evs : List Ev) (m : Pend) : Prop :=
  (∃ f x, (f, x) ∈ toldIn evs ∧ m ∈ c.done f x) ∨ ∃ f x bs, Ev.received f x bs ∈ evs ∧ m ∈ c.got f x bs

theorem FromCb.mono {c : Client} {evs evs' : List Ev} {m : Pend} (h : FromCb c evs m) (hs : evs ⊆ evs') : FromCb c evs' m := by
  rcases h with ⟨f, x, h1, h2⟩ | ⟨f, x, bs, h1, h2⟩
  · refine Or.inl ⟨f, x, ?_, h2⟩
    unfold toldIn at *
    obtain ⟨e, he, h⟩ := List.mem_filterMap.1 h1
    exact List.mem_filterMap.2 ⟨e, hs he, h⟩
  · exact Or.inr ⟨f, x, bs, hs h1, h2⟩

theorem told_error {o : Obj} : toldIn (evError o) = [] := by unfold evError; split <;> rfl
theorem told_completed {f x : Nat} : toldIn (evCompleted f x) = if f = 0 then [] else [(f, x)] := by unfold evCompleted; split <;> rfl
theorem told_received {f x : Nat} {bs : List UInt8} : toldIn (evReceived f x bs) = [] := by unfold evReceived; split <;> rfl
theorem takes_error {o : Obj} : (evError o).flatMap Ev.taken = [] := by unfold evError; split <;> rfl
theorem takes_completed {f x : Nat} : (evCompleted f x).flatMap Ev.taken = [] := by unfold evCompleted; split <;> rfl
theorem takes_received {f x : Nat} {bs : List UInt8} : (evReceived f x bs).flatMap Ev.taken = [] := by unfold evReceived; split <;> rfl
theorem takes_send {fd : Int} {bs : List UInt8} {n : Nat} : Ev.taken (.send fd bs n) = bs.take n := by simp [Ev.taken]
theorem takes_fail {fd : Int} {bs : List UInt8} : Ev.taken (.send fd bs (-1)) = [] := by simp [Ev.taken]

theorem SendE_flow {oom : Prop} {m : Pend} {o o' : Obj} {r : Int} {evs : List Ev} (h : SendE oom (some m.bytes) m.cb m.ctx (some o) r (some o') evs) :
    Flow (fun x => x = m ∧ r = 0) (if r = 0 then [m.all] else []) (NoPart oom evs) o.pending evs o'.pending := by
  simp only [SendE, Option.some.injEq] at h
  split at h
  · obtain ⟨h0, rfl, rfl⟩ := h
    rw [if_neg h0]
    exact Flow.nil rfl fun _ => rfl
  · split at h
    · obtain ⟨rfl, ⟨h0, rfl⟩ | ⟨h0, _, rfl⟩⟩ := h
      · exact ⟨[m], [], by simp [Pend.key], by simp [toldIn, completedOf], by simp [h0], by simp [h0], fun _ => by simp⟩
      · rw [if_neg h0]
        exact Flow.nil rfl fun _ => rfl
    · rename_i hp
      have hp : o.pending = [] := Decidable.not_not.1 hp
      rcases h with ⟨h0, rfl, rfl⟩ | ⟨h0, rfl, rfl⟩ | ⟨n, hn, rfl, ⟨h0, rfl⟩ | ⟨h0, ho, rfl⟩⟩
      · refine ⟨[m], [(m.cb, m.ctx, true)], ?_, ?_, by simp [h0], by simp [h0], fun _ => ?_⟩
        · rw [hp]; simp [Pend.key]
        · show toldIn (evCompleted m.cb m.ctx) = _
          rw [told_completed]
          by_cases hc : m.cb = 0 <;> simp [hc, completedOf]
        · rw [hp, List.flatMap_cons, takes_completed, takes_send]; simp
      · rw [if_neg h0]
        exact Flow.nil (by show toldIn (evError o') = _; exact told_error) fun _ => by rw [List.flatMap_cons, takes_error, takes_fail]; rfl
      · refine ⟨[m], [], by rw [hp]; simp [Pend.key], by simp [toldIn, completedOf], by simp [h0], by simp [h0], fun _ => ?_⟩
        rw [hp, List.flatMap_cons, takes_send]; simp
      · rw [if_neg h0]
        refine Flow.nil rfl fun hw => ?_
        rcases hw ho _ _ _ (List.mem_singleton.2 rfl) with h | h
        · omega
        · have : n = 0 := by omega
          subst this; simp [Ev.taken]

theorem mem_told {f x : Nat} {evs : List Ev} (h : Ev.completed f x true ∈ evs) : (f, x) ∈ toldIn evs :=
  List.mem_filterMap.2 ⟨_, h, rfl⟩

theorem Each_flow_of {oom : Prop} {c : Client} {S : Obj → Pend → Int → Obj → List Ev → Prop}
    (hS : ∀ {o m r o' e}, S o m r o' e → Flow (fun x => (x = m ∧ r = 0) ∨ FromCb c e x) (if r = 0 then [m.all] else []) (NoPart oom e) o.pending e o'.pending)
    {o1 : Obj} {ms : List Pend} {o2 : Obj} {e : List Ev} (h : Each (fun o m o' e => ∃ r, S o m r o' e) o1 ms o2 e) :
    Flow (fun x => x ∈ ms ∨ FromCb c e x) [] (NoPart oom e) o1.pending e o2.pending := by
  induction h with
  | nil => exact Flow.nil rfl fun _ => rfl
  | cons h _ ih' =>
    obtain ⟨r, h⟩ := h
    refine Flow.trans (m1 := []) (m2 := []) ((hS h).less.mono (fun x hx => ?_) NoPart.left) (ih'.mono (fun x hx => ?_) NoPart.right)
    · rcases hx with ⟨rfl, _⟩ | hx
      · exact Or.inl (by simp)
      · exact Or.inr (hx.mono (List.subset_append_left _ _))
    · rcases hx with hx | hx
      · exact Or.inl (by simp [hx])
      · exact Or.inr (hx.mono (List.subset_append_right _ _))

theorem SendIn_flow {oom : Prop} {c : Client} {d : Nat} : ∀ {o : Obj} {m : Pend} {r : Int} {o' : Obj} {evs : List Ev}, SendIn oom c d o m r o' evs →
    Flow (fun x => (x = m ∧ r = 0) ∨ FromCb c evs x) (if r = 0 then [m.all] else []) (NoPart oom evs) o.pending evs o'.pending := by
  induction d with
  | zero => intro o m r o' evs h; exact (SendE_flow h).mono (fun x hx => Or.inl hx) id
  | succ d ih =>
    rintro o m r o' evs ⟨o1, e1, e2, h1, rfl, h2⟩
    rw [← List.append_nil (if r = 0 then [m.all] else [])]
    refine Flow.trans ((SendE_flow h1).mono (fun x hx => Or.inl hx) NoPart.left) ?_
    rcases h2 with ⟨hin, h2⟩ | ⟨_, rfl, rfl⟩
    · refine (Each_flow_of (fun h => ih h) h2).mono (fun x hx => Or.inr ?_) NoPart.right
      rcases hx with hx | hx
      · exact Or.inl ⟨m.cb, m.ctx, mem_told (List.mem_append_left _ hin), hx⟩
      · exact hx.mono (List.subset_append_right _ _)
    · exact Flow.nil rfl fun _ => rfl

theorem Each_flow {oom : Prop} {c : Client} {d : Nat} {o1 : Obj} {ms : List Pend} {o2 : Obj} {e : List Ev}
    (h : Each (fun o m o' e => ∃ r, SendIn oom c d o m r o' e) o1 ms o2 e) : Flow (fun x => x ∈ ms ∨ FromCb c e x) [] (NoPart oom e) o1.pending e o2.pending :=
  Each_flow_of (fun h => SendIn_flow h) h

theorem Queued.mem {oom : Prop} {o : Obj} {ms added : List Pend} (h : Queued oom o ms added) : ∀ m ∈ added, m ∈ ms := by
  unfold Queued at h
  split at h
  · intro m hm
    exact (List.mem_filter.1 (h.1.subset hm)).1
  · subst h; simp

theorem SendLoopC_flow {oom : Prop} {c : Client} {k : Nat} {o o' : Obj} {fin : Bool} {evs : List Ev} (h : SendLoopC oom c k o fin o' evs) :
    Flow (FromCb c evs) [] (Whole evs) o.pending evs o'.pending := by
  induction h with
  | done hp => exact Flow.nil rfl fun _ => rfl
  | cut hp => exact Flow.nil rfl fun _ => rfl
  | @whole k o p ps added fin o' evs hp hq _ ih =>
    refine Flow.trans (m1 := []) (m2 := []) (e1 := .send o.socket p.bytes p.bytes.length :: evCompleted p.cb p.ctx) ?_
      (ih.mono (fun x hx => hx.mono (List.subset_append_right _ _)) Whole.right)
    refine ⟨added, [(p.cb, p.ctx, true)], by rw [hp]; simp [Pend.key], ?_, fun m hm => ?_, by simp, fun _ => ?_⟩
    · show toldIn (evCompleted p.cb p.ctx) = _
      rw [told_completed]
      by_cases hc : p.cb = 0 <;> simp [hc, completedOf]
    · have := hq.mem m hm
      by_cases hc : p.cb = 0
      · simp [hc] at this
      · rw [if_neg hc] at this
        refine Or.inl ⟨p.cb, p.ctx, mem_told ?_, this⟩
        simp [evCompleted, hc]
    · rw [hp, List.flatMap_cons, takes_completed, takes_send]; simp
  | @fail k o p ps fin o' evs hp _ ih =>
    refine Flow.trans (m1 := []) (m2 := []) (e1 := .send o.socket p.bytes (-1) :: evError o) ?_ (ih.mono (fun x hx => hx.mono (List.subset_append_right _ _)) Whole.right)
    refine ⟨[], [(p.cb, p.ctx, false)], by rw [hp]; simp [Pend.key], ?_, by simp, by simp, fun hw => ?_⟩
    · show toldIn (evError o) = _
      rw [told_error]; simp [completedOf]
    · have := hw o.socket p.bytes (-1) (by simp)
      omega
  | @part k o p ps fin o' evs n hp hn _ ih =>
    refine Flow.trans (m1 := []) (m2 := []) (e1 := [.send o.socket p.bytes n]) ?_ (ih.mono (fun x hx => hx.mono (List.subset_append_right [_] _)) (Whole.right (a := [_])))
    refine ⟨[], [], by rw [hp]; simp [Pend.key], by simp [toldIn, completedOf], by simp, by simp, fun hw => ?_⟩
    have := hw o.socket p.bytes n (by simp)
    omega

theorem RecvLoopC_flow {oom : Prop} {c : Client} {d k : Nat} {o o' : Obj} {fin : Bool} {evs : List Ev} (h : RecvLoopC oom c d k o fin o' evs) :
    Flow (FromCb c evs) [] (NoPart oom evs) o.pending evs o'.pending := by
  induction h with
  | cut => exact Flow.nil rfl fun _ => rfl
  | last => exact Flow.nil rfl fun _ => rfl
  | @more k o b o1 e1 fin o' evs hE _ ih =>
    have h1 : Flow (FromCb c (.recv o.socket 1 b :: evReceived o.onBytes o.onBytesCtx [b] ++ e1 ++ evs)) [] (NoPart oom (.recv o.socket 1 b :: evReceived o.onBytes o.onBytesCtx [b] ++ e1 ++ evs)) o.pending
        (.recv o.socket 1 b :: evReceived o.onBytes o.onBytesCtx [b]) o.pending :=
      Flow.nil (by show toldIn (evReceived _ _ _) = _; exact told_received) fun _ => by rw [List.flatMap_cons, takes_received]; rfl
    refine Flow.trans (m1 := []) (m2 := []) (Flow.trans (m1 := []) (m2 := []) h1 ((Each_flow hE).mono (fun x hx => ?_) fun hw => hw.left.right)) (ih.mono (fun x hx => ?_) NoPart.right)
    · rcases hx with hx | hx
      · by_cases h0 : o.onBytes = 0
        · rw [if_pos h0] at hx; simp at hx
        · rw [if_neg h0] at hx
          exact Or.inr ⟨o.onBytes, o.onBytesCtx, [b], by simp [evReceived, h0], hx⟩
      · refine hx.mono fun e he => ?_
        simp [he]
    · refine hx.mono fun e he => ?_
      simp [he]

theorem DoworkC_flow {oom : Prop} {c : Client} {d n m : Nat} {o o' : Obj} {fin : Bool} {evs : List Ev} (h : DoworkC oom c d n m o fin o' evs) :
    Flow (FromCb c evs) [] (Whole evs) o.pending evs o'.pending := by
  unfold DoworkC at h
  split at h
  · obtain ⟨_, rfl, rfl⟩ := h
    exact Flow.nil rfl fun _ => rfl
  · rcases h with ⟨_, h⟩ | ⟨o1, e1, e2, rfl, h1, h2⟩
    · exact SendLoopC_flow h
    · exact Flow.trans (m1 := []) (m2 := []) ((SendLoopC_flow h1).mono (fun x hx => hx.mono (List.subset_append_left _ _)) Whole.left)
        ((RecvLoopC_flow h2).mono (fun x hx => hx.mono (List.subset_append_right _ _)) fun hw => hw.right.noPart)

/-! ## Over a history -/

/-- accepted from the client: by a call that reported success, or in a callback that was called -/
def Asked (c : Client) (L : Log) (m : Pend) : Prop :=
  (∃ e ∈ L, e.r = 0 ∧ ∃ j, e.op = .send j (some m.bytes) m.cb m.ctx) ∨ FromCb c (trace L) m

/-- No call of `socketio_dowork` met a failing socket or one that took only a part of what it was given; nor did a send, if memory
may be refused. -/
def Entry.smooth (oom : Prop) (e : Entry) : Prop :=
  match e.op with
  | .dowork _ _ _ => Whole e.evs
  | _ => NoPart oom e.evs

/-- Messages leave the queue in the order in which they were accepted, and are completed on leaving. -/
def Fifo (oom : Prop) (c : Client) (a : Option Obj) (L : Log) : Prop :=
  ∃ (acc : List Pend) (left : List (Nat × Nat × Bool)) (lost : List Pend),
    acc.map Pend.key = left.map (fun x => (x.1, x.2.1)) ++ (pendingOf a).map Pend.key ++ lost.map Pend.key ∧ (a ≠ none → lost = []) ∧
    toldIn (trace L) = completedOf left ∧ (∀ m ∈ acc, Asked c L m) ∧ (L.filterMap Entry.sent).Sublist (acc.map Pend.all) ∧
    ((∀ e ∈ L, e.smooth oom) → (trace L).flatMap Ev.taken ++ (pendingOf a).flatMap Pend.bytes ++ lost.flatMap Pend.bytes = acc.flatMap Pend.bytes)

theorem Asked.snoc {c : Client} {L : Log} {m : Pend} {e : Entry} (h : Asked c L m) : Asked c (L ++ [e]) m := by
  rcases h with ⟨e', he, h⟩ | h
  · exact Or.inl ⟨e', by simp [he], h⟩
  · refine Or.inr (h.mono ?_)
    rw [trace_append]
    exact List.subset_append_left _ _

theorem trace_one (e : Entry) : trace [e] = e.evs := by simp [trace]

theorem Fifo.flow {oom : Prop} {c : Client} {o o' : Obj} {L : Log} {e : Entry} (h : Fifo oom c (some o) L)
    (hf : Flow (Asked c (L ++ [e])) (Entry.sent e).toList (e.smooth oom) o.pending e.evs o'.pending) : Fifo oom c (some o') (L ++ [e]) := by
  obtain ⟨acc, left, lost, h1, h2, h3, h4, h5, h6⟩ := h
  obtain ⟨a2, l2, g1, g2, g3, g4, g5⟩ := hf
  have hl : lost = [] := h2 (by simp)
  subst hl
  refine ⟨acc ++ a2, left ++ l2, [], ?_, fun _ => rfl, ?_, ?_, ?_, fun hw => ?_⟩
  · rw [List.map_nil, List.append_nil] at h1 ⊢
    simp only [pendingOf] at *
    rw [List.map_append, h1, List.append_assoc, g1]; simp
  · rw [trace_append, toldIn_append, h3, trace_one, g2]; simp [completedOf]
  · intro m hm
    rcases List.mem_append.1 hm with h | h
    · exact (h4 m h).snoc
    · exact g3 m h
  · rw [List.filterMap_append, List.map_append]
    refine h5.append ?_
    cases hs : e.sent with
    | none => simp [hs]
    | some x => simpa [hs] using g4
  · have g6 := h6 fun x hx => hw x (by simp [hx])
    have g7 := g5 (hw e (by simp))
    simp only [pendingOf, List.flatMap_nil, List.append_nil] at g6 ⊢
    rw [trace_append, List.flatMap_append, trace_one, List.append_assoc, g7, ← List.append_assoc, g6, List.flatMap_append]

theorem Fifo.quiet {oom : Prop} {c : Client} {a a' : Option Obj} {L : Log} {e : Entry} (h : Fifo oom c a L) (ht : toldIn e.evs = []) (hs : e.sent = none)
    (hb : e.evs.flatMap Ev.taken = []) (hp : (pendingOf a' = pendingOf a ∧ (a' ≠ none → a ≠ none)) ∨ a' = none) : Fifo oom c a' (L ++ [e]) := by
  obtain ⟨acc, left, lost, h1, h2, h3, h4, h5, h6⟩ := h
  have ht' : toldIn (trace (L ++ [e])) = completedOf left := by
    rw [trace_append, toldIn_append, trace_one, ht, List.append_nil, h3]
  have hs' : ((L ++ [e]).filterMap Entry.sent).Sublist (acc.map Pend.all) := by
    rw [List.filterMap_append]; simpa [hs] using h5
  have h6' : (∀ x ∈ L ++ [e], x.smooth oom) → (trace (L ++ [e])).flatMap Ev.taken ++ (pendingOf a).flatMap Pend.bytes ++ lost.flatMap Pend.bytes = acc.flatMap Pend.bytes := by
    intro hw
    rw [trace_append, List.flatMap_append, trace_one, hb, List.append_nil]
    exact h6 fun x hx => hw x (by simp [hx])
  rcases hp with ⟨hp, hn⟩ | rfl
  · exact ⟨acc, left, lost, by rw [hp]; exact h1, fun h => h2 (hn h), ht', fun m hm => (h4 m hm).snoc, hs', by rw [hp]; exact h6'⟩
  · refine ⟨acc, left, pendingOf a ++ lost, by rw [h1]; simp [pendingOf], fun h => absurd rfl h, ht', fun m hm => (h4 m hm).snoc, hs', fun hw => ?_⟩
    rw [← h6' hw]; simp [pendingOf]

theorem takes_acts {evs : List Ev} (h : evs.filterMap Ev.act = []) : evs.flatMap Ev.taken = [] := by
  rw [List.filterMap_eq_nil_iff] at h
  rw [List.flatMap_eq_nil_iff]
  intro e he
  have := h e he
  cases e <;> simp_all [Ev.act, Ev.taken]

theorem told_acts {evs : List Ev} (h : evs.filterMap Ev.act = []) : toldIn evs = [] := by
  rw [List.filterMap_eq_nil_iff] at h
  unfold toldIn
  rw [List.filterMap_eq_nil_iff]
  intro e he
  have := h e he
  cases e <;> simp_all [Ev.act]

theorem Fifo_new {oom : Prop} {c : Client} (j : Nat) (op : Op) (r : Int) (a' : Option Obj) (evs : List Ev) (h : New oom op r a' evs) : Fifo oom c a' [⟨j, op, r, evs⟩] := by
  suffices hs : evs.filterMap Ev.act = [] ∧ pendingOf a' = [] by
    have hn : Entry.sent ⟨j, op, r, evs⟩ = none := by cases op <;> first | rfl | exact h.elim
    refine ⟨[], [], [], by simp [hs.2], fun _ => rfl, ?_, by simp, by simp [hn], fun _ => ?_⟩
    · rw [trace_one, told_acts hs.1]; rfl
    · rw [trace_one, takes_acts hs.1, hs.2]; rfl
  have hc : ∀ t l ok, CreateE oom t l ok a' → pendingOf a' = [] := by
    intro t l ok h
    unfold CreateE at h
    split at h
    · obtain ⟨_, rfl⟩ := h; rfl
    · rcases h with ⟨_, rfl, _⟩ | ⟨_, _, rfl⟩ <;> rfl
  cases op with
  | create => obtain ⟨ok, h1, _, rfl⟩ := h; exact ⟨rfl, hc _ _ _ h1⟩
  | createNull => obtain ⟨ok, h1, _, rfl⟩ := h; exact ⟨rfl, hc _ _ _ h1⟩
  | accept =>
    obtain ⟨ok, fd, _, _, h1, _, rfl⟩ := h
    refine ⟨?_, hc _ _ _ h1⟩
    split <;> rfl
  | _ => exact h.elim

theorem Fifo_step {oom : Prop} {c : Client} {d : Nat} (j : Nat) (a : Option Obj) (L : Log) (op : Op) (r : Int) (a' : Option Obj) (evs : List Ev) (h : Fifo oom c a L)
    (hE : EffC oom c d a op r a' evs) : Fifo oom c a' (L ++ [⟨j, op, r, evs⟩]) := by
  have cb : ∀ m, FromCb c evs m → Asked c (L ++ [⟨j, op, r, evs⟩]) m := by
    intro m hm
    refine Or.inr (hm.mono ?_)
    rw [trace_append]
    simp [trace]
  have same : ∀ {a1 : Option Obj}, a' = a1 → a1 = a → evs = [] → Entry.sent ⟨j, op, r, evs⟩ = none → Fifo oom c a' (L ++ [⟨j, op, r, evs⟩]) := by
    rintro _ rfl h' rfl hs
    exact h.quiet rfl hs rfl (Or.inl ⟨by rw [h'], by rw [h']; exact id⟩)
  cases op with
  | create => exact hE.elim
  | createNull => exact hE.elim
  | accept => exact hE.elim
  | destroy i =>
    obtain ⟨_, rfl, h1⟩ := hE
    have : evs.filterMap Ev.act = [] := by
      unfold DestroyE at h1
      split at h1
      · subst h1; rfl
      · subst h1; split <;> rfl
    exact h.quiet (told_acts this) rfl (takes_acts this) (Or.inr rfl)
  | opn i f1 c1 f2 c2 f3 c3 =>
    cases a with
    | none =>
      obtain ⟨_, rfl, rfl⟩ := hE
      exact same rfl rfl rfl rfl
    | some o =>
      obtain ⟨h1, o', rfl, h2⟩ := act_open hE
      exact h.quiet (told_acts h1) rfl (takes_acts h1) (Or.inl ⟨h2, fun _ => by simp⟩)
  | close i f x =>
    cases a with
    | none =>
      obtain ⟨_, rfl, rfl⟩ := hE
      exact same rfl rfl rfl rfl
    | some o =>
      obtain ⟨h1, o', rfl, h2⟩ := act_close hE
      exact h.quiet (told_acts h1) rfl (takes_acts h1) (Or.inl ⟨h2, fun _ => by simp⟩)
  | send i bs f x =>
    cases bs with
    | none =>
      have : a' = a ∧ evs = [] := by
        cases a with
        | none => exact ⟨hE.2.1, hE.2.2⟩
        | some o => exact ⟨hE.2.1, hE.2.2⟩
      exact same this.1 rfl this.2 rfl
    | some bs =>
      cases a with
      | none =>
        obtain ⟨h0, rfl, rfl⟩ := hE
        exact same rfl rfl rfl (by simp [Entry.sent, h0])
      | some o =>
        obtain ⟨o', rfl, hS⟩ := hE
        have hf := (SendIn_flow hS).mono (src' := Asked c (L ++ [⟨j, .send i (some bs) f x, r, evs⟩])) (fun m hm => by
          rcases hm with ⟨rfl, h0⟩ | hm
          · exact Or.inl ⟨_, List.mem_append_right _ (List.mem_singleton.2 rfl), h0, i, rfl⟩
          · exact cb m hm) id
        refine h.flow ?_
        by_cases h0 : r = 0
        · rw [if_pos h0] at hf
          simpa [Entry.sent, h0, Entry.smooth, Pend.all] using hf
        · rw [if_neg h0] at hf
          simpa [Entry.sent, h0, Entry.smooth] using hf
  | dowork i n m =>
    obtain ⟨fin, hW, _⟩ := hE
    cases a with
    | none =>
      obtain ⟨_, rfl, rfl⟩ := hW
      exact same rfl rfl rfl rfl
    | some o =>
      obtain ⟨o', rfl, hD⟩ := hW
      exact h.flow ((DoworkC_flow hD).mono (fun m hm => cb m hm) id)

variable {oom : Prop} {cs : Nat → Client} {d : Nat} {ops : List Op} {outs : List (Option Int)} {as : List (Option Obj)} {log : Log}

/-- Over every history, for each handle: the messages accepted from the client, in the order `acc` in which they were accepted - all
calls that reported success are among them, in order, the others were asked for in a callback that was called -, leave the
queue in that order; completion callbacks are called for those that were sent, once, when they leave; while the handle
exists the others are waiting. -/
theorem completions_in_order (h : Runs (stepC oom cs d) ([], []) ops outs (as, log)) (i : Nat) (a : Option Obj) (ha : as[i]? = some a) :
    ∃ (acc : List Pend) (left : List (Nat × Nat × Bool)) (lost : List Pend),
      acc.map Pend.key = left.map (fun x => (x.1, x.2.1)) ++ (pendingOf a).map Pend.key ++ lost.map Pend.key ∧ (a ≠ none → lost = []) ∧
      toldIn (trace (ofPos i log)) = completedOf left ∧ (∀ m ∈ acc, Asked (cs i) (ofPos i log) m) ∧ (accepted i log).Sublist (acc.map Pend.all) := by
  obtain ⟨acc, left, lost, h1, h2, h3, h4, h5, _⟩ := (at_posC (Inv := fun i => Fifo oom (cs i)) (fun j => Fifo_new j) (fun j => Fifo_step j) h i).2 a ha
  exact ⟨acc, left, lost, h1, h2, h3, h4, h5⟩

/-- The same for the bytes, as long as the socket takes what it is given in `socketio_dowork`: what the socket took are the
bytes of the messages accepted, in order; what is missing is waiting, while the handle exists. -/
theorem stream_in_order (h : Runs (stepC oom cs d) ([], []) ops outs (as, log)) (i : Nat) (a : Option Obj) (ha : as[i]? = some a)
    (hw : ∀ e ∈ ofPos i log, e.smooth oom) :
    ∃ (acc : List Pend) (lost : List Pend), (∀ m ∈ acc, Asked (cs i) (ofPos i log) m) ∧ (accepted i log).Sublist (acc.map Pend.all) ∧
      stream i log ++ (pendingOf a).flatMap Pend.bytes ++ lost.flatMap Pend.bytes = acc.flatMap Pend.bytes ∧ (a ≠ none → lost = []) := by
  obtain ⟨acc, left, lost, _, h2, _, h4, h5, h6⟩ := (at_posC (Inv := fun i => Fifo oom (cs i)) (fun j => Fifo_new j) (fun j => Fifo_step j) h i).2 a ha
  exact ⟨acc, lost, h4, h5, h6 hw, h2⟩

/-- in particular: no completion without a message that was accepted, none twice, none out of order -/
theorem completions_of_accepted (h : Runs (stepC oom cs d) ([], []) ops outs (as, log)) (i : Nat) (a : Option Obj) (ha : as[i]? = some a) :
    ∃ acc : List Pend, (toldIn (trace (ofPos i log))).Sublist (acc.map Pend.key) ∧ ∀ m ∈ acc, Asked (cs i) (ofPos i log) m := by
  obtain ⟨acc, left, lost, h1, _, h3, h4, _⟩ := completions_in_order h i a ha
  refine ⟨acc, ?_, h4⟩
  rw [h1, h3, List.append_assoc]
  refine List.Sublist.trans ?_ (List.sublist_append_left _ _)
  exact List.Sublist.map _ List.filter_sublist

end Verif.Sock
