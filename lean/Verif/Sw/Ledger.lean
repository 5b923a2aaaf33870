import Verif.Sw.HSpec
/-! # C96-C98: what every history of socket IO calls does, on Windows, to each buffer, descriptor and address list -/
set_option linter.unusedSimpArgs false
namespace Verif.Sw
open Verif.Sock (Obj Pend HostArg Target CreateE opened Act)

/-- effect of a call on an existing handle -/
def Eff (oom : Prop) (a : Option Obj) (op : Op) (r : Int) (a' : Option Obj) (evs : List Ev) : Prop :=
  match op with
  | .destroy _ => r = 0 ∧ a' = none ∧ DestroyE a evs
  | .opn _ f1 c1 f2 c2 f3 c3 => OpenE f1 c1 f2 c2 f3 c3 a r a' evs
  | .close _ f c => CloseE f c a r a' evs
  | .send _ bs cb ctx => SendE oom bs cb ctx a r a' evs
  | .dowork _ n m => ∃ fin, DoworkE n m a fin a' evs ∧ r = (if fin then 1 else 0)
  | _ => False

/-- effect of a constructor -/
def New (oom : Prop) (op : Op) (r : Int) (a' : Option Obj) (evs : List Ev) : Prop :=
  match op with
  | .create host port logger => ∃ ok, CreateE oom (some ⟨some host, port, 0⟩) logger ok a' ∧ r = (if ok then 1 else 0) ∧ evs = []
  | .createNull logger => ∃ ok, CreateE oom none logger ok a' ∧ r = (if ok then 1 else 0) ∧ evs = []
  | .accept port logger => ∃ ok fd, -1 ≤ fd ∧ fd < 2 ^ 31 ∧ CreateE oom (some ⟨none, port, fd⟩) logger ok a' ∧ r = (if ok then 1 else 0) ∧
      evs = .socket fd :: (if ok ∨ fd < 0 then [] else [.close fd])
  | _ => False

/-- the position of the table an operation is about -/
theorem step_cases {oom : Prop} {x x' : World} {op : Op} {o : Option Int} (h : step oom x op o x') :
    (o = none ∧ x' = x) ∨ (∃ r a' evs, New oom op r a' evs ∧ o = some r ∧ x' = (x.1 ++ [a'], x.2 ++ [⟨x.1.length, op, r, evs⟩])) ∨
    ∃ i a r a' evs, x.1[i]? = some a ∧ Eff oom a op r a' evs ∧ o = some r ∧ x' = (x.1.set i a', x.2 ++ [⟨i, op, r, evs⟩]) := by
  cases op with
  | create host port logger =>
    obtain ⟨r, a', w', ho, ⟨ok, h1, h2, rfl⟩, rfl⟩ := h
    exact Or.inr (Or.inl ⟨r, a', [], ⟨ok, h1, h2, rfl⟩, ho, rfl⟩)
  | createNull logger =>
    obtain ⟨r, a', w', ho, ⟨ok, h1, h2, rfl⟩, rfl⟩ := h
    exact Or.inr (Or.inl ⟨r, a', [], ⟨ok, h1, h2, rfl⟩, ho, rfl⟩)
  | accept port logger =>
    obtain ⟨r, a', w', ho, ⟨ok, fd, h0, h0', h1, h2, rfl⟩, rfl⟩ := h
    exact Or.inr (Or.inl ⟨r, a', _, ⟨ok, fd, h0, h0', h1, h2, rfl⟩, ho, rfl⟩)
  | destroy i =>
    rcases h with ⟨_, hn, h⟩ | ⟨a, r, a', w', h1, ho, ⟨h2, h3, evs, h4, rfl⟩, rfl⟩
    · exact Or.inl ⟨hn, h⟩
    · exact Or.inr (Or.inr ⟨i, a, r, a', evs, h1, ⟨h2, h3, h4⟩, ho, rfl⟩)
  | dowork i n m =>
    rcases h with ⟨_, hn, h⟩ | ⟨a, r, a', w', h1, ho, ⟨fin, evs, h4, h5, rfl⟩, rfl⟩
    · exact Or.inl ⟨hn, h⟩
    · exact Or.inr (Or.inr ⟨i, a, r, a', evs, h1, ⟨fin, h4, h5⟩, ho, rfl⟩)
  | opn i f1 c1 f2 c2 f3 c3 =>
    rcases h with ⟨_, hn, h⟩ | ⟨a, r, a', w', h1, ho, ⟨evs, h4, rfl⟩, rfl⟩
    · exact Or.inl ⟨hn, h⟩
    · exact Or.inr (Or.inr ⟨i, a, r, a', evs, h1, h4, ho, rfl⟩)
  | close i f c =>
    rcases h with ⟨_, hn, h⟩ | ⟨a, r, a', w', h1, ho, ⟨evs, h4, rfl⟩, rfl⟩
    · exact Or.inl ⟨hn, h⟩
    · exact Or.inr (Or.inr ⟨i, a, r, a', evs, h1, h4, ho, rfl⟩)
  | send i bs cb ctx =>
    rcases h with ⟨_, hn, h⟩ | ⟨a, r, a', w', h1, ho, ⟨evs, h4, rfl⟩, rfl⟩
    · exact Or.inl ⟨hn, h⟩
    · exact Or.inr (Or.inr ⟨i, a, r, a', evs, h1, h4, ho, rfl⟩)

theorem ofPos_snoc {i j : Nat} {log : Log} {op : Op} {r : Int} {evs : List Ev} :
    ofPos i (log ++ [⟨j, op, r, evs⟩]) = if j = i then ofPos i log ++ [⟨j, op, r, evs⟩] else ofPos i log := by
  unfold ofPos
  rw [List.filter_append]
  by_cases h : j = i <;> simp [h]

/-- Induction over the life of each handle. -/
theorem at_pos {oom : Prop} {Inv : Option Obj → Log → Prop}
    (hnew : ∀ j op r a' evs, New oom op r a' evs → Inv a' [⟨j, op, r, evs⟩])
    (hstep : ∀ j a L op r a' evs, Inv a L → Eff oom a op r a' evs → Inv a' (L ++ [⟨j, op, r, evs⟩]))
    {ops : List Op} {outs : List (Option Int)} {as : List (Option Obj)} {log : Log} (h : Runs (step oom) ([], []) ops outs (as, log)) :
    ∀ i, (as.length ≤ i → ofPos i log = []) ∧ ∀ a, as[i]? = some a → Inv a (ofPos i log) := by
  have gen : ∀ (x : World) ops outs x', Runs (step oom) x ops outs x' →
      (∀ i, (x.1.length ≤ i → ofPos i x.2 = []) ∧ ∀ a, x.1[i]? = some a → Inv a (ofPos i x.2)) →
      (∀ i, (x'.1.length ≤ i → ofPos i x'.2 = []) ∧ ∀ a, x'.1[i]? = some a → Inv a (ofPos i x'.2)) := by
    intro x ops outs x' hr
    induction hr with
    | nil => exact id
    | cons h1 _ ih =>
      intro hx
      apply ih
      rcases step_cases h1 with ⟨_, rfl⟩ | ⟨r, a', evs, hN, _, rfl⟩ | ⟨j, a, r, a', evs, hj, hE, _, rfl⟩
      · exact hx
      · rename_i x op _ _ _ _ _ _
        intro i
        refine ⟨fun hi => ?_, fun b hb => ?_⟩
        · simp at hi
          rw [ofPos_snoc, if_neg (by omega)]
          exact (hx i).1 (by omega)
        · rw [List.getElem?_append] at hb
          split at hb
          · rename_i hlt
            rw [ofPos_snoc, if_neg (by omega)]
            exact (hx i).2 b hb
          · rename_i hge
            have : i = x.1.length := by
              rcases Nat.lt_or_ge (i - x.1.length) 1 with h | h
              · omega
              · rw [List.getElem?_eq_none (by simpa using h)] at hb; simp at hb
            subst this
            simp at hb
            subst hb
            rw [ofPos_snoc, if_pos rfl, (hx _).1 (Nat.le_refl _)]
            exact hnew _ _ _ _ _ hN
      · rename_i x op _ _ _ _ _ _
        intro i
        have hlt : j < x.1.length := (List.getElem?_eq_some_iff.1 hj).1
        refine ⟨fun hi => ?_, fun b hb => ?_⟩
        · simp at hi
          rw [ofPos_snoc, if_neg (by omega)]
          exact (hx i).1 hi
        · rw [List.getElem?_set] at hb
          by_cases hij : j = i
          · subst hij
            simp [hlt] at hb
            subst hb
            rw [ofPos_snoc, if_pos rfl]
            exact hstep _ _ _ _ _ _ _ ((hx j).2 a hj) hE
          · rw [if_neg hij] at hb
            rw [ofPos_snoc, if_neg hij]
            exact (hx i).2 b hb
  exact gen _ _ _ _ h (fun i => ⟨fun _ => rfl, fun a ha => by simp at ha⟩)

/-! ## Events that do not concern sends -/

theorem act_evOpened {f c : Nat} {b : Bool} : (evOpened f c b).filterMap Ev.act = [] := by unfold evOpened; split <;> rfl
theorem act_evClosed {f c : Nat} : (evClosed f c).filterMap Ev.act = [] := by unfold evClosed; split <;> rfl
theorem act_evError {o : Obj} : (evError o).filterMap Ev.act = [] := by unfold evError; split <;> rfl
theorem act_evReceived {f c : Nat} {bs : List UInt8} : (evReceived f c bs).filterMap Ev.act = [] := by unfold evReceived; split <;> rfl
theorem act_evCompleted {f c : Nat} : (evCompleted f c).filterMap Ev.act = if f = 0 then [] else [.done f c true] := by unfold evCompleted; split <;> rfl

theorem act_open {f1 c1 f2 c2 f3 c3 : Nat} {o : Obj} {r : Int} {a' : Option Obj} {evs : List Ev} (h : OpenE f1 c1 f2 c2 f3 c3 (some o) r a' evs) :
    evs.filterMap Ev.act = [] ∧ ∃ o', a' = some o' ∧ o'.pending = o.pending := by
  simp only [OpenE] at h
  split at h
  · obtain ⟨_, rfl, rfl⟩ := h; exact ⟨rfl, o, rfl, rfl⟩
  split at h
  · obtain ⟨_, rfl, rfl⟩ := h
    exact ⟨act_evOpened, _, rfl, rfl⟩
  rcases h with ⟨_, rfl, rfl⟩ | ⟨fd, _, _, ⟨_, _, _, _, rfl, rfl⟩ | ⟨ai, ⟨_, _, _, rfl, rfl⟩ | ⟨_, _, _, rfl, rfl⟩ | ⟨_, rfl, rfl⟩⟩⟩
  · exact ⟨rfl, o, rfl, rfl⟩
  · exact ⟨rfl, o, rfl, rfl⟩
  · exact ⟨rfl, o, rfl, rfl⟩
  · exact ⟨rfl, o, rfl, rfl⟩
  · refine ⟨?_, _, rfl, rfl⟩
    simp only [List.filterMap_append, act_evOpened]; rfl

theorem act_close {f c : Nat} {o : Obj} {r : Int} {a' : Option Obj} {evs : List Ev} (h : CloseE f c (some o) r a' evs) :
    evs.filterMap Ev.act = [] ∧ ∃ o', a' = some o' ∧ o'.pending = o.pending := by
  simp only [CloseE] at h
  split at h
  · obtain ⟨_, rfl, rfl⟩ := h; exact ⟨rfl, o, rfl, rfl⟩
  · obtain ⟨_, rfl, rfl⟩ := h
    refine ⟨?_, _, rfl, rfl⟩
    rw [List.filterMap_cons, act_evClosed]; rfl

theorem act_recv {o : Obj} {fin : Bool} {k : Nat} {evs : List Ev} (h : RecvLoop o k fin evs) : evs.filterMap Ev.act = [] := by
  induction h with
  | cut => rfl
  | last _ =>
    have hz : ∀ e : Int, (if e = WSAEWOULDBLOCK ∨ e = 0 then [] else evError o).filterMap Ev.act = [] := by
      intro e; split
      · rfl
      · exact act_evError
    exact hz _
  | more _ ih => rw [List.filterMap_append, ih, List.filterMap_cons, act_evReceived]; rfl

/-! ## The ledger -/

/-- the queue and what has happened so far, buffer by buffer -/
def Led (pending : List Pend) (as : List Act) (acc : List (List UInt8 × Nat × Nat)) : Prop :=
  ∃ past wait : List Rec, as = (past ++ wait).flatMap Rec.acts ∧ acc = (past ++ wait).filterMap Rec.sent ∧
    (∀ r ∈ past ++ wait, r.ok) ∧ (∀ r ∈ past, r.fate ≠ .waiting) ∧
    (∀ r ∈ wait, r.fate = .waiting ∧ r.accepted = true) ∧ pending = wait.map (fun r => ⟨r.bytes, r.cb, r.ctx⟩) ∧
    ∀ r ∈ wait.tail, r.tries = []

theorem acts_waiting {l : List Rec} (h1 : ∀ r ∈ l, r.fate = .waiting) (h2 : ∀ r ∈ l, r.tries = []) : l.flatMap Rec.acts = [] := by
  rw [List.flatMap_eq_nil_iff]
  intro r hr
  simp [Rec.acts, h1 r hr, h2 r hr]

theorem Led.nil : Led [] [] [] := ⟨[], [], rfl, rfl, by simp, by simp, by simp, rfl, by simp⟩

/-- the head of the queue gets a new fate  -/
theorem Led.head {p : Pend} {ps : List Pend} {as new : List Act} {acc : List (List UInt8 × Nat × Nat)} (h : Led (p :: ps) as acc)
    (f : Fate) (hf : f ≠ .waiting) (hsh : ∀ n, f = .failed n → short p.bytes n)
    (hnew : ∀ r : Rec, r.bytes = p.bytes → r.cb = p.cb → r.ctx = p.ctx → r.fate = .waiting → r.acts ++ new = { r with fate := f }.acts) :
    Led ps (as ++ new) acc := by
  obtain ⟨past, wait, h1, h2, h3, h4, h5, h6, h7⟩ := h
  cases wait with
  | nil => simp at h6
  | cons w ws =>
    simp only [List.map_cons, List.cons.injEq] at h6
    obtain ⟨rfl, rfl⟩ := h6
    have hw := h5 w (by simp)
    have hrest : ws.flatMap Rec.acts = [] := acts_waiting (fun r hr => (h5 r (by simp [hr])).1) h7
    refine ⟨past ++ [{ w with fate := f }], ws, ?_, ?_, ?_, ?_, fun r hr => h5 r (by simp [hr]), rfl, fun r hr => h7 r (List.mem_of_mem_tail hr)⟩
    · rw [h1]
      have := hnew w rfl rfl rfl hw.1
      simp only [List.flatMap_append, List.flatMap_cons, List.flatMap_nil, hrest, List.append_nil, List.append_assoc, this]
    · rw [h2]; simp [Rec.sent, List.filterMap_cons]
    · intro r hr
      simp only [List.append_assoc, List.mem_append, List.mem_cons, List.not_mem_nil, or_false] at hr
      rcases hr with hr | rfl | hr
      · exact h3 r (by simp [hr])
      · exact ⟨(h3 w (by simp)).1, hsh, fun _ => hw.2⟩
      · exact h3 r (by simp [hr])
    · intro r hr
      simp at hr
      rcases hr with hr | rfl
      · exact h4 r hr
      · exact hf

theorem Led.again {p : Pend} {ps : List Pend} {as : List Act} {acc : List (List UInt8 × Nat × Nat)} (h : Led (p :: ps) as acc) (n : Int)
    (hn : short p.bytes n) : Led (p :: ps) (as ++ [.sent p.bytes n]) acc := by
  obtain ⟨past, wait, h1, h2, h3, h4, h5, h6, h7⟩ := h
  cases wait with
  | nil => simp at h6
  | cons w ws =>
    simp only [List.map_cons, List.cons.injEq] at h6
    obtain ⟨rfl, rfl⟩ := h6
    have hw := h5 w (by simp)
    have hrest : ws.flatMap Rec.acts = [] := acts_waiting (fun r hr => (h5 r (by simp [hr])).1) h7
    refine ⟨past, { w with tries := w.tries ++ [n] } :: ws, ?_, ?_, ?_, h4, ?_, rfl, h7⟩
    · rw [h1]
      simp only [List.flatMap_append, List.flatMap_cons, hrest, List.append_nil, List.append_assoc]
      simp [Rec.acts, hw.1]
    · rw [h2]; simp [Rec.sent, List.filterMap_cons]
    · intro r hr
      simp only [List.mem_append, List.mem_cons] at hr
      rcases hr with hr | rfl | hr
      · exact h3 r (by simp [hr])
      · refine ⟨fun m hm => ?_, by simp [hw.1], fun _ => hw.2⟩
        simp only [List.mem_append, List.mem_singleton] at hm
        rcases hm with hm | rfl
        · exact (h3 w (by simp)).1 m hm
        · exact hn
      · exact h3 r (by simp [hr])
    · intro r hr
      simp only [List.mem_cons] at hr
      rcases hr with rfl | hr
      · exact hw
      · exact h5 r (by simp [hr])

/-- a new buffer at the end of the queue -/
theorem Led.add {ps : List Pend} {as new : List Act} {acc : List (List UInt8 × Nat × Nat)} (h : Led ps as acc) (r : Rec)
    (hr : ∀ n ∈ r.tries, short r.bytes n) (hw : r.fate = .waiting) (ha : r.accepted = true) (hnew : r.acts = new) (hp : ps ≠ [] → r.tries = []) :
    Led (ps ++ [⟨r.bytes, r.cb, r.ctx⟩]) (as ++ new) (acc ++ [(r.bytes, r.cb, r.ctx)]) := by
  obtain ⟨past, wait, h1, h2, h3, h4, h5, h6, h7⟩ := h
  refine ⟨past, wait ++ [r], ?_, ?_, ?_, h4, ?_, ?_, ?_⟩
  · rw [h1, ← hnew]; simp
  · rw [h2]; simp [Rec.sent, ha]
  · intro x hx
    rw [← List.append_assoc, List.mem_append] at hx
    rcases hx with hx | hx
    · exact h3 x hx
    · simp at hx; subst hx; exact ⟨hr, by simp [hw], fun _ => ha⟩
  · intro x hx
    rw [List.mem_append] at hx
    rcases hx with hx | hx
    · exact h5 x hx
    · simp at hx; subst hx; exact ⟨hw, ha⟩
  · rw [h6]; simp
  · cases wait with
    | nil => simp
    | cons w ws =>
      intro x hx
      simp at hx
      rcases hx with hx | rfl
      · exact h7 x hx
      · exact hp (by rw [h6]; simp)

/-- a buffer dealt with at once (the queue is empty) -/
theorem Led.now {as new : List Act} {acc : List (List UInt8 × Nat × Nat)} (h : Led [] as acc) (r : Rec)
    (hr : r.ok) (hw : r.fate ≠ .waiting) (hnew : r.acts = new) : Led [] (as ++ new) (acc ++ r.sent.toList) := by
  obtain ⟨past, wait, h1, h2, h3, h4, h5, h6, h7⟩ := h
  have : wait = [] := by simpa using h6.symm
  subst this
  refine ⟨past ++ [r], [], ?_, ?_, ?_, ?_, by simp, rfl, by simp⟩
  · rw [h1, ← hnew]; simp
  · rw [h2]; cases hs : r.sent <;> simp [hs]
  · intro x hx
    simp at hx
    rcases hx with hx | rfl
    · exact h3 x (by simp [hx])
    · exact hr
  · intro x hx
    simp at hx
    rcases hx with hx | rfl
    · exact h4 x hx
    · exact hw

/-- destroying the handle: the queued buffers are thrown away -/
theorem Led.drop {ps : List Pend} {as : List Act} {acc : List (List UInt8 × Nat × Nat)} (h : Led ps as acc) : Led [] as acc := by
  obtain ⟨past, wait, h1, h2, h3, h4, h5, h6, h7⟩ := h
  have e1 : wait.flatMap Rec.acts = (wait.map fun r => { r with fate := .dropped }).flatMap Rec.acts := by
    rw [List.flatMap_map, List.flatMap_def, List.flatMap_def]
    refine congrArg List.flatten (List.map_congr_left ?_)
    intro r hr
    simp [Rec.acts, (h5 r hr).1]
  have e2 : wait.filterMap Rec.sent = (wait.map fun r => { r with fate := .dropped }).filterMap Rec.sent := by
    rw [List.filterMap_map]; rfl
  refine ⟨past ++ wait.map fun r => { r with fate := .dropped }, [], ?_, ?_, ?_, ?_, by simp, rfl, by simp⟩
  · rw [h1]; simp only [List.flatMap_append, e1]; simp
  · rw [h2]; simp only [List.filterMap_append, e2]; simp
  · intro r hr
    simp only [List.append_nil, List.mem_append, List.mem_map] at hr
    rcases hr with hr | ⟨r, hr, rfl⟩
    · exact h3 r (by simp [hr])
    · exact ⟨(h3 r (by simp [hr])).1, by simp, by simp⟩
  · intro r hr
    simp only [List.mem_append, List.mem_map] at hr
    rcases hr with hr | ⟨r, hr, rfl⟩
    · exact h4 r hr
    · simp

theorem Led.loop {o o' : Obj} {fin : Bool} {k : Nat} {evs : List Ev} (h : SendLoop k o fin o' evs) : ∀ {as : List Act} {acc : List (List UInt8 × Nat × Nat)},
    Led o.pending as acc → Led o'.pending (as ++ evs.filterMap Ev.act) acc := by
  induction h with
  | done => intro as acc h; simpa using h
  | cut => intro as acc h; simpa using h
  | whole hp _ ih =>
    rename_i o p ps _ _ _ _
    intro as acc h
    rw [hp] at h
    have := ih (h.head (new := .sent p.bytes p.bytes.length :: if p.cb = 0 then [] else [.done p.cb p.ctx true]) .done (by simp) (by simp) (by
      intro r h1 h2 h3 h4
      simp [Rec.acts, h1, h2, h3, h4]))
    simpa [Ev.act, act_evCompleted] using this
  | fail n e hp h1 h2 h3 _ ih =>
    rename_i o p ps _ _ _ _
    intro as acc h
    rw [hp] at h
    have := ih (h.head (new := [.sent p.bytes n]) (.failed n) (by simp) (by rintro _ ⟨⟩; exact ⟨h1, h2⟩) (by
      intro r h1 h2 h3 h4
      simp [Rec.acts, h1, h4]))
    simpa [Ev.act, List.filterMap_cons] using this
  | again n hp h1 h2 _ ih =>
    intro as acc h
    rw [hp] at h
    have := h.again n ⟨h1, h2⟩
    rw [← hp] at this
    simpa [Ev.act, List.filterMap_cons] using ih this

def pendingOf (a : Option Obj) : List Pend := match a with
  | none => []
  | some o => o.pending

theorem trace_append {l l' : Log} : trace (l ++ l') = trace l ++ trace l' := by simp [trace]

/-- the sends, completions and accepted buffers of one handle fit the ledger -/
def Inv (a : Option Obj) (L : Log) : Prop := Led (pendingOf a) ((trace L).filterMap Ev.act) (L.filterMap Entry.sent)

theorem Inv.same {a a' : Option Obj} {L : Log} {j : Nat} {op : Op} {r : Int} {evs : List Ev} (h : Inv a L) (h1 : pendingOf a' = pendingOf a)
    (h2 : evs.filterMap Ev.act = []) (h3 : Entry.sent ⟨j, op, r, evs⟩ = none) : Inv a' (L ++ [⟨j, op, r, evs⟩]) := by
  unfold Inv
  rw [trace_append, List.filterMap_append, List.filterMap_append, h1]
  have : trace [⟨j, op, r, evs⟩] = evs := by simp [trace]
  rw [this, h2, List.append_nil]
  simp [h3]
  exact h

theorem Inv_step {oom : Prop} (j : Nat) (a : Option Obj) (L : Log) (op : Op) (r : Int) (a' : Option Obj) (evs : List Ev) (h : Inv a L)
    (hE : Eff oom a op r a' evs) : Inv a' (L ++ [⟨j, op, r, evs⟩]) := by
  have tr1 : trace [⟨j, op, r, evs⟩] = evs := by simp [trace]
  cases op with
  | create _ _ _ => exact hE.elim
  | createNull _ => exact hE.elim
  | accept _ _ => exact hE.elim
  | destroy i =>
    obtain ⟨_, rfl, hD⟩ := hE
    have h2 : evs.filterMap Ev.act = [] := by
      cases a with
      | none => rw [show evs = [] from hD]; rfl
      | some o =>
        have hD : evs = _ := hD
        rw [hD]; rfl
    unfold Inv
    rw [trace_append, tr1, List.filterMap_append, List.filterMap_append, h2, List.append_nil]
    have e : List.filterMap Entry.sent [⟨j, .destroy i, r, evs⟩] = [] := by simp [Entry.sent]
    rw [e, List.append_nil]
    exact h.drop
  | opn i f1 c1 f2 c2 f3 c3 =>
    cases a with
    | none =>
      obtain ⟨_, rfl, rfl⟩ := hE
      exact h.same rfl rfl rfl
    | some o =>
      obtain ⟨h1, o', rfl, h2⟩ := act_open hE
      exact h.same h2 h1 rfl
  | close i f c =>
    cases a with
    | none =>
      obtain ⟨_, rfl, rfl⟩ := hE
      exact h.same rfl rfl rfl
    | some o =>
      obtain ⟨h1, o', rfl, h2⟩ := act_close hE
      exact h.same h2 h1 rfl
  | dowork i n m =>
    obtain ⟨fin, hE, _⟩ := hE
    cases a with
    | none =>
      obtain ⟨_, rfl, rfl⟩ := hE
      exact h.same rfl rfl rfl
    | some o =>
      simp only [DoworkE] at hE
      split at hE
      · obtain ⟨_, rfl, rfl⟩ := hE
        exact h.same rfl rfl rfl
      · obtain ⟨o', rfl, hE⟩ := hE
        unfold Inv
        rw [trace_append, tr1, List.filterMap_append, List.filterMap_append]
        have e : List.filterMap Entry.sent [⟨j, .dowork i n m, r, evs⟩] = [] := by simp [Entry.sent]
        rw [e, List.append_nil]
        rcases hE with ⟨_, hE⟩ | ⟨e1, e2, rfl, hS, hR⟩
        · exact Led.loop hE h
        · rw [List.filterMap_append, act_recv hR, List.append_nil]
          exact Led.loop hS h
  | send i bs cb ctx =>
    have refuse : r ≠ 0 → Entry.sent ⟨j, .send i bs cb ctx, r, evs⟩ = none := by
      intro h; cases bs <;> simp [Entry.sent, h]
    cases a with
    | none =>
      obtain ⟨h0, rfl, rfl⟩ := hE
      exact h.same rfl rfl (refuse h0)
    | some o =>
      cases bs with
      | none =>
        obtain ⟨h0, rfl, rfl⟩ := hE
        exact h.same rfl rfl (refuse h0)
      | some bs =>
        simp only [Eff, SendE] at hE
        split at hE
        · obtain ⟨h0, rfl, rfl⟩ := hE
          exact h.same rfl rfl (refuse h0)
        · rename_i hne
          have hne : bs ≠ [] := fun h => hne (Or.inl h)
          have key : ∀ new o', evs.filterMap Ev.act = new → (r = 0 → Led o'.pending ((trace L).filterMap Ev.act ++ new) (L.filterMap Entry.sent ++ [(bs, cb, ctx)])) →
              (r ≠ 0 → Led o'.pending ((trace L).filterMap Ev.act ++ new) (L.filterMap Entry.sent)) → Inv (some o') (L ++ [⟨j, .send i (some bs) cb ctx, r, evs⟩]) := by
            intro new o' hn h1 h2
            unfold Inv
            rw [trace_append, tr1, List.filterMap_append, List.filterMap_append, hn]
            by_cases h0 : r = 0
            · have : List.filterMap Entry.sent [⟨j, .send i (some bs) cb ctx, r, evs⟩] = [(bs, cb, ctx)] := by simp [Entry.sent, h0]
              rw [this]; exact h1 h0
            · have : List.filterMap Entry.sent [⟨j, .send i (some bs) cb ctx, r, evs⟩] = [] := by simp [Entry.sent, h0]
              rw [this, List.append_nil]; exact h2 h0
          split at hE
          · rename_i hpd
            obtain ⟨rfl, ⟨h0, rfl⟩ | ⟨h0, _, rfl⟩⟩ := hE
            · refine key [] _ rfl (fun _ => ?_) (fun h => absurd h0 h)
              exact h.add ⟨bs, cb, ctx, [], .waiting, true⟩ (by simp) rfl rfl rfl (fun _ => rfl)
            · exact h.same rfl rfl (refuse h0)
          · rename_i hpd
            have hpd : o.pending = [] := Decidable.not_not.1 hpd
            have hL : Led [] ((trace L).filterMap Ev.act) (L.filterMap Entry.sent) := by
              have := h; unfold Inv pendingOf at this; simpa [hpd] using this
            rcases hE with ⟨h0, rfl, rfl⟩ | ⟨n, e, hn1, hn2, ⟨he, h0, rfl, rfl⟩ | ⟨he, rfl, ⟨h0, rfl⟩ | ⟨h0, _, rfl⟩⟩⟩
            · refine key _ o rfl (fun _ => ?_) (fun h => absurd h0 h)
              rw [hpd]
              exact hL.now ⟨bs, cb, ctx, [], .done, true⟩ ⟨by simp, by simp, by simp⟩ (by simp) (by simp [Rec.acts, Ev.act, act_evCompleted])
            · refine key _ o rfl (fun h => absurd h h0) (fun _ => ?_)
              rw [hpd]
              simpa [Rec.sent] using hL.now ⟨bs, cb, ctx, [], .failed n, false⟩ ⟨by simp, by rintro _ ⟨⟩; exact ⟨hn1, hn2⟩, by simp⟩ (by simp) (new := List.filterMap Ev.act (.send o.socket bs n :: .lastError e :: evError o)) (by simp [Rec.acts, Ev.act, act_evError, List.filterMap_cons])
            · refine key _ _ rfl (fun _ => ?_) (fun h => absurd h0 h)
              exact hL.add ⟨bs, cb, ctx, [n], .waiting, true⟩ (by simpa [short] using ⟨hn1, hn2⟩) rfl rfl (by simp [Rec.acts, Ev.act]) (fun h => absurd rfl h)
            · refine key _ o rfl (fun h => absurd h h0) (fun _ => ?_)
              rw [hpd]
              simpa [Rec.sent] using hL.now ⟨bs, cb, ctx, [n], .dropped, false⟩ ⟨by simpa [short] using ⟨hn1, hn2⟩, by simp, by simp⟩ (by simp) (new := List.filterMap Ev.act [.send o.socket bs n, .lastError e]) (by simp [Rec.acts, Ev.act])

theorem Inv_new {oom : Prop} (j : Nat) (op : Op) (r : Int) (a' : Option Obj) (evs : List Ev) (h : New oom op r a' evs) : Inv a' [⟨j, op, r, evs⟩] := by
  have fresh : ∀ {c lg ok}, CreateE oom c lg ok a' → pendingOf a' = [] := by
    intro c lg ok h
    cases c with
    | none => obtain ⟨_, rfl⟩ := h; rfl
    | some c => rcases h with ⟨_, rfl, _⟩ | ⟨_, _, rfl⟩ <;> rfl
  have base : Inv none [] := Led.nil
  have go := fun h1 h2 h3 => base.same (a' := a') (j := j) (op := op) (r := r) (evs := evs) h1 h2 h3
  rw [List.nil_append] at go
  cases op with
  | create _ _ _ => obtain ⟨ok, h1, _, rfl⟩ := h; exact go (fresh h1) rfl rfl
  | createNull _ => obtain ⟨ok, h1, _, rfl⟩ := h; exact go (fresh h1) rfl rfl
  | accept _ _ =>
    obtain ⟨ok, fd, _, _, h1, _, rfl⟩ := h
    refine go (fresh h1) ?_ rfl
    split <;> rfl
  | destroy _ => exact h.elim
  | opn _ _ _ _ _ _ _ => exact h.elim
  | close _ _ _ => exact h.elim
  | send _ _ _ _ => exact h.elim
  | dowork _ _ _ => exact h.elim

variable {oom : Prop} {ops : List Op} {outs : List (Option Int)} {as : List (Option Obj)} {log : Log}

/-- The ledger of a handle: everything its sockets and completion callbacks see is, in order and without interleaving,
what its buffers go through one after the other; the buffers marked accepted are the accepted sends; those that wait are the queue. -/
theorem ledger (h : Runs (step oom) ([], []) ops outs (as, log)) (i : Nat) :
    ∃ recs : List Rec, acts i log = recs.flatMap Rec.acts ∧ accepted i log = recs.filterMap Rec.sent ∧ (∀ r ∈ recs, r.ok) ∧
      ∀ o, as[i]? = some (some o) → o.pending = (recs.filter fun r => r.fate = .waiting).map fun r => ⟨r.bytes, r.cb, r.ctx⟩ := by
  have hp := at_pos (Inv := Inv) Inv_new Inv_step h i
  cases ha : as[i]? with
  | none =>
    have := hp.1 (List.getElem?_eq_none_iff.1 ha)
    refine ⟨[], ?_, ?_, by simp, by simp⟩
    · simp [acts, this, trace]
    · simp [accepted, this]
  | some a =>
    obtain ⟨past, wait, h1, h2, h3, h4, h5, h6, _⟩ := hp.2 a ha
    refine ⟨past ++ wait, h1, h2, h3, fun o ho => ?_⟩
    simp only [Option.some.injEq] at ho
    subst ho
    have e1 : past.filter (fun r => r.fate = .waiting) = [] := by
      rw [List.filter_eq_nil_iff]; intro r hr; simpa using h4 r hr
    have e2 : wait.filter (fun r => r.fate = .waiting) = wait := by
      rw [List.filter_eq_self]; intro r hr; simpa using (h5 r hr).1
    rw [List.filter_append, e1, e2, List.nil_append]
    exact h6

/-! ## C97: completions -/

/-- completions seen in the activity -/
def doneOf : Act → Option (Nat × Nat × Bool)
  | .done f c ok => some (f, c, ok)
  | _ => none

def takenOf : Act → List UInt8
  | .sent g r => g.take r.toNat
  | _ => []

theorem completions_acts {i : Nat} {log : Log} : completions i log = (acts i log).filterMap doneOf := by
  unfold completions acts
  rw [List.filterMap_filterMap]
  congr 1
  funext e
  cases e <;> rfl

theorem taken_acts {tr : List Ev} : tr.flatMap Ev.taken = (tr.filterMap Ev.act).flatMap takenOf := by
  induction tr with
  | nil => rfl
  | cons e tr ih => cases e <;> simp [Ev.taken, Ev.act, takenOf, ih, List.filterMap_cons]

theorem tries_done {bs : List UInt8} {ps : List Int} : (ps.map fun n => Act.sent bs n).filterMap doneOf = [] := by
  induction ps with
  | nil => rfl
  | cons x xs ih => rw [List.map_cons, List.filterMap_cons]; exact ih

theorem acts_done {r : Rec} : r.acts.filterMap doneOf = if r.fate = .done ∧ r.cb ≠ 0 then [(r.cb, r.ctx, true)] else [] := by
  unfold Rec.acts
  rw [List.filterMap_append, tries_done, List.nil_append]
  cases hf : r.fate <;> simp [doneOf]
  by_cases h : r.cb = 0 <;> simp [h, doneOf, List.filterMap_cons]

/-- C97: the completions reported by a handle are those of some of its accepted sends, in the order in which they were
accepted, each at most once, and all with success. -/
theorem completes_once (h : Runs (step oom) ([], []) ops outs (as, log)) (i : Nat) :
    ∃ S, List.Sublist S (accepted i log) ∧ completions i log = (S.filter fun x => x.2.1 ≠ 0).map fun x => (x.2.1, x.2.2, true) := by
  obtain ⟨recs, h1, h2, h3, h4⟩ := ledger h i
  clear h4
  refine ⟨(recs.filter fun r => r.fate = .done).map fun r => (r.bytes, r.cb, r.ctx), ?_, ?_⟩
  · rw [h2]
    clear h1 h2
    induction recs with
    | nil => simp
    | cons r rs ih =>
      have ih := ih fun r hr => h3 r (by simp [hr])
      by_cases hf : r.fate = .done
      · have := (h3 r (by simp)).2.2 hf
        simp [hf, List.filterMap_cons, Rec.sent, this, ih]
      · simp only [hf, decide_false, List.filter_cons, Bool.false_eq_true, if_false, List.filterMap_cons]
        cases r.sent with
        | none => exact ih
        | some x => exact ih.trans (List.sublist_cons_self _ _)
  · rw [completions_acts, h1]
    clear h1 h2
    induction recs with
    | nil => simp
    | cons r rs ih =>
      have ih := ih fun r hr => h3 r (by simp [hr])
      rw [List.flatMap_cons, List.filterMap_append, ih, acts_done]
      by_cases hf : r.fate = .done <;> by_cases hc : r.cb = 0 <;> simp [hf, hc]

theorem split_rec {r : Rec} {B1 B2 : List Act} {f c : Nat} {ok : Bool} (h : r.acts = B1 ++ .done f c ok :: B2) :
    r.fate = .done ∧ r.cb = f ∧ f ≠ 0 ∧ r.ctx = c ∧ ok = true ∧ B1 = (r.tries.map fun n => Act.sent r.bytes n) ++ [.sent r.bytes r.bytes.length] := by
  have hd := acts_done (r := r)
  have hne : r.fate = .done ∧ r.cb ≠ 0 := by
    by_cases h0 : r.fate = .done ∧ r.cb ≠ 0
    · exact h0
    · rw [if_neg h0, h] at hd; simp [doneOf] at hd
  have e : r.acts = ((r.tries.map fun n => Act.sent r.bytes n) ++ [.sent r.bytes r.bytes.length]) ++ [.done r.cb r.ctx true] := by
    simp [Rec.acts, hne.1, hne.2]
  rw [h] at e
  have hB2 : B2 = [] := by
    rcases List.eq_nil_or_concat B2 with h0 | ⟨B, x, rfl⟩
    · exact h0
    · exfalso
      have hl : B1 ++ .done f c ok :: B = (r.tries.map fun n => Act.sent r.bytes n) ++ [.sent r.bytes r.bytes.length] := by
        have : (B1 ++ .done f c ok :: B) ++ [x] = ((r.tries.map fun n => Act.sent r.bytes n) ++ [.sent r.bytes r.bytes.length]) ++ [.done r.cb r.ctx true] := by
          rw [← e]; simp
        exact (List.append_inj' this rfl).1
      have hm := congrArg (List.filterMap doneOf) hl
      rw [List.filterMap_append, List.filterMap_append, tries_done] at hm
      simp [doneOf, List.filterMap_cons] at hm
  subst hB2
  have h2 := List.append_inj' e rfl
  simp at h2
  obtain ⟨h2, rfl, rfl, rfl⟩ := h2
  exact ⟨hne.1, rfl, hne.2, rfl, rfl, h2⟩

theorem split_acts {recs : List Rec} : ∀ {A1 A2 : List Act} {f c : Nat} {ok : Bool}, recs.flatMap Rec.acts = A1 ++ .done f c ok :: A2 →
    ∃ pre r post, recs = pre ++ r :: post ∧ r.fate = .done ∧ r.cb = f ∧ f ≠ 0 ∧ r.ctx = c ∧ ok = true ∧
      A1 = pre.flatMap Rec.acts ++ ((r.tries.map fun n => Act.sent r.bytes n) ++ [.sent r.bytes r.bytes.length]) := by
  induction recs with
  | nil => intro A1 A2 f c ok h; simp at h
  | cons r rs ih =>
    intro A1 A2 f c ok h
    rw [List.flatMap_cons] at h
    rcases List.append_eq_append_iff.1 h with ⟨t, h1, h2⟩ | ⟨t, h1, h2⟩
    · obtain ⟨pre, r', post, rfl, h3, h4, h5, h6, h7, h8⟩ := ih h2
      exact ⟨r :: pre, r', post, rfl, h3, h4, h5, h6, h7, by rw [h1, h8]; simp⟩
    · cases t with
      | nil =>
        simp at h2
        obtain ⟨pre, r', post, rfl, h3, h4, h5, h6, h7, h8⟩ := ih (A1 := []) (by simpa using h2.symm)
        refine ⟨r :: pre, r', post, rfl, h3, h4, h5, h6, h7, ?_⟩
        simp at h1
        rw [← h1, List.flatMap_cons, List.append_assoc, ← h8, List.append_nil]
      | cons x t =>
        simp only [List.cons_append, List.cons.injEq] at h2
        obtain ⟨rfl, h2⟩ := h2
        obtain ⟨h3, h4, h5, h6, h7, h8⟩ := split_rec h1
        exact ⟨[], r, rs, rfl, h3, h4, h5, h6, h7, by simpa using h8⟩

/-- C97: a completion is reported only after the socket has taken all the bytes of the buffer, one after the other: when
it is reported, they are in the stream. -/
theorem completed_after_bytes (h : Runs (step oom) ([], []) ops outs (as, log)) (i : Nat) {e1 e2 : List Ev} {f c : Nat} {ok : Bool}
    (hs : trace (ofPos i log) = e1 ++ .completed f c ok :: e2) :
    ok = true ∧ ∃ bytes, (bytes, f, c) ∈ accepted i log ∧ bytes <:+: e1.flatMap Ev.taken := by
  obtain ⟨recs, h1, h2, h3, _⟩ := ledger h i
  unfold acts at h1
  rw [hs, List.filterMap_append, List.filterMap_cons] at h1
  obtain ⟨pre, r, post, rfl, h4, h5, h6, h7, h8, h9⟩ := split_acts h1.symm
  have hr := h3 r (by simp)
  refine ⟨h8, r.bytes, ?_, ?_⟩
  · rw [h2, List.mem_filterMap]
    exact ⟨r, by simp, by simp [Rec.sent, hr.2.2 h4, h5, h7]⟩
  · rw [taken_acts, h9]
    refine ⟨(pre.flatMap Rec.acts).flatMap takenOf ++ (r.tries.map fun n => Act.sent r.bytes n).flatMap takenOf, [], ?_⟩
    simp only [List.flatMap_append, List.append_nil, List.append_assoc]
    simp [takenOf]

/-! ## C98: only an open handle sends -/

theorem OpenNow.snoc {L : Log} {e : Entry} (h : OpenNow L) (he : e.op.isClose = false) : OpenNow (L ++ [e]) := by
  obtain ⟨l1, x, l2, rfl, h1, h2, h3⟩ := h
  refine ⟨l1, x, l2 ++ [e], by simp, h1, h2, ?_⟩
  intro y hy
  simp at hy
  rcases hy with hy | rfl
  · exact h3 y hy
  · exact he

theorem not_open_snoc {L : Log} {e : Entry} (h : ¬ OpenNow L) (he : ¬ (e.op.isOpen = true ∧ e.r = 0)) : ¬ OpenNow (L ++ [e]) := by
  rintro ⟨l1, x, l2, h0, h1, h2, h3⟩
  rcases List.eq_nil_or_concat l2 with rfl | ⟨l, y, rfl⟩
  · have := (List.append_inj' h0 rfl).2
    simp at this; subst this
    exact he ⟨h1, h2⟩
  · rw [List.concat_eq_append] at h0 h3
    have h0 : L ++ [e] = (l1 ++ x :: l) ++ [y] := by rw [h0]; simp
    have h0 := (List.append_inj' h0 rfl).1
    exact h ⟨l1, x, l, h0, h1, h2, fun z hz => h3 z (by simp [hz])⟩

theorem close_snoc {L : Log} {e : Entry} (he : e.op.isClose = true) : ¬ OpenNow (L ++ [e]) := by
  rintro ⟨l1, x, l2, h0, h1, h2, h3⟩
  rcases List.eq_nil_or_concat l2 with rfl | ⟨l, y, rfl⟩
  · have := (List.append_inj' h0 rfl).2
    simp at this; subst this
    cases hx : e.op <;> simp [hx, Sock.Op.isClose, Sock.Op.isOpen] at he h1
  · rw [List.concat_eq_append] at h0 h3
    have h0 : L ++ [e] = (l1 ++ x :: l) ++ [y] := by rw [h0]; simp
    have := (List.append_inj' h0 rfl).2
    simp at this; subst this
    rw [h3 e (by simp)] at he; simp at he

def closedOf (a : Option Obj) : Prop := match a with
  | none => True
  | some o => o.state = .closed

/-- the state follows the calls; entries of a closed handle do nothing -/
def Inv2 (a : Option Obj) (L : Log) : Prop :=
  (closedOf a ↔ ¬ OpenNow L) ∧ (∀ o, a = some o → o.state = .opn ∨ o.state = .closed) ∧
  ∀ l1 e l2, L = l1 ++ e :: l2 →
    (e.op.isSend = true → ¬ OpenNow l1 → e.r ≠ 0 ∧ e.evs = []) ∧
    (∀ j f c, e.op = .close j f c → (∃ fd, OpenNow l1 → e.r = 0 ∧ e.evs = .close fd :: evClosed f c) ∧ (¬ OpenNow l1 → e.r ≠ 0 ∧ e.evs = [])) ∧
    (∀ j n m, e.op = .dowork j n m → ¬ OpenNow l1 → e.evs = [] ∧ e.r = 1)

theorem Inv2.snoc {a a' : Option Obj} {L : Log} {e : Entry} (h : Inv2 a L) (h1 : closedOf a' ↔ ¬ OpenNow (L ++ [e]))
    (h2 : ∀ o, a' = some o → o.state = .opn ∨ o.state = .closed)
    (h3 : e.op.isSend = true → ¬ OpenNow L → e.r ≠ 0 ∧ e.evs = [])
    (h4 : ∀ j f c, e.op = .close j f c → (∃ fd, OpenNow L → e.r = 0 ∧ e.evs = .close fd :: evClosed f c) ∧ (¬ OpenNow L → e.r ≠ 0 ∧ e.evs = []))
    (h5 : ∀ j n m, e.op = .dowork j n m → ¬ OpenNow L → e.evs = [] ∧ e.r = 1) : Inv2 a' (L ++ [e]) := by
  refine ⟨h1, h2, fun l1 x l2 h0 => ?_⟩
  rcases List.eq_nil_or_concat l2 with rfl | ⟨l, y, rfl⟩
  · have := List.append_inj' h0 rfl
    simp at this
    obtain ⟨rfl, rfl⟩ := this
    exact ⟨h3, h4, h5⟩
  · rw [List.concat_eq_append] at h0
    have h0 : L ++ [e] = (l1 ++ x :: l) ++ [y] := by rw [h0]; simp
    exact h.2.2 l1 x l (List.append_inj' h0 rfl).1

/-- a call that leaves open or closed what was open or closed -/
theorem keep_open {a a' : Option Obj} {L : Log} {e : Entry} (h : closedOf a ↔ ¬ OpenNow L) (h1 : closedOf a' ↔ closedOf a)
    (h2 : e.op.isClose = true → closedOf a) (h3 : e.op.isOpen = true → e.r ≠ 0) : closedOf a' ↔ ¬ OpenNow (L ++ [e]) := by
  rw [h1, h]
  constructor
  · intro hn; exact not_open_snoc hn fun hh => h3 hh.1 hh.2
  · intro hn ho
    by_cases hc : e.op.isClose = true
    · exact (h.1 (h2 hc)) ho
    · exact hn (ho.snoc (by simpa using hc))

theorem sendLoop_state {o o' : Obj} {fin : Bool} {k : Nat} {evs : List Ev} (h : SendLoop k o fin o' evs) : o'.state = o.state := by
  induction h with
  | done => simp
  | cut => simp
  | whole _ _ ih => simpa using ih
  | fail _ _ _ _ _ _ _ ih => simpa using ih
  | again _ _ _ _ _ ih => simpa using ih

theorem Inv2_step {oom : Prop} (j : Nat) (a : Option Obj) (L : Log) (op : Op) (r : Int) (a' : Option Obj) (evs : List Ev) (h : Inv2 a L)
    (hE : Eff oom a op r a' evs) : Inv2 a' (L ++ [⟨j, op, r, evs⟩]) := by
  have hc := h.1
  cases op with
  | create _ _ _ => exact hE.elim
  | createNull _ => exact hE.elim
  | accept _ _ => exact hE.elim
  | destroy i =>
    obtain ⟨_, rfl, _⟩ := hE
    refine h.snoc ?_ (by simp) (by simp [Sock.Op.isSend]) (by simp) (by simp)
    exact ⟨fun _ => close_snoc rfl, fun _ => trivial⟩
  | opn i f1 c1 f2 c2 f3 c3 =>
    have fail : a' = a → r ≠ 0 → Inv2 a' (L ++ [⟨j, .opn i f1 c1 f2 c2 f3 c3, r, evs⟩]) := by
      rintro rfl hr
      exact h.snoc (keep_open hc Iff.rfl (by simp [Sock.Op.isClose]) fun _ => hr) h.2.1 (by simp [Sock.Op.isSend]) (by simp) (by simp)
    have succ : ∀ o fd, a' = some (opened o fd f2 c2 f3 c3) → r = 0 → Inv2 a' (L ++ [⟨j, .opn i f1 c1 f2 c2 f3 c3, r, evs⟩]) := by
      rintro o fd rfl rfl
      refine h.snoc ?_ (by simp [opened]) (by simp [Sock.Op.isSend]) (by simp) (by simp)
      refine ⟨fun h' => by simp [closedOf, opened] at h', fun h' => absurd ⟨L, _, [], rfl, rfl, rfl, by simp⟩ h'⟩
    cases a with
    | none =>
      obtain ⟨h0, rfl, rfl⟩ := hE
      exact fail rfl h0
    | some o =>
      simp only [Eff, OpenE] at hE
      split at hE
      · obtain ⟨h0, rfl, rfl⟩ := hE; exact fail rfl h0
      split at hE
      · obtain ⟨h0, h1, rfl⟩ := hE; exact succ o _ h1 h0
      rcases hE with ⟨h0, h1, _⟩ | ⟨fd, _, _, ⟨_, _, _, h0, h1, _⟩ | ⟨ai, ⟨_, _, h0, h1, _⟩ | ⟨_, _, h0, h1, _⟩ | ⟨h0, h1, _⟩⟩⟩
      · exact fail h1 h0
      · exact fail h1 h0
      · exact fail h1 h0
      · exact fail h1 h0
      · exact succ o fd h1 h0
  | close i f c =>
    have closedNow : closedOf a' → Inv2 a' (L ++ [⟨j, .close i f c, r, evs⟩]) → Inv2 a' (L ++ [⟨j, .close i f c, r, evs⟩]) := fun _ h => h
    cases a with
    | none =>
      obtain ⟨h0, rfl, rfl⟩ := hE
      have hno : ¬ OpenNow L := hc.1 trivial
      refine h.snoc ⟨fun _ => close_snoc rfl, fun _ => trivial⟩ (by simp) (by simp [Sock.Op.isSend]) ?_ (by simp)
      intro j f c _
      exact ⟨⟨0, fun ho => absurd ho hno⟩, fun _ => ⟨h0, rfl⟩⟩
    | some o =>
      simp only [Eff, CloseE] at hE
      split at hE
      · rename_i hst
        obtain ⟨h0, rfl, rfl⟩ := hE
        have hst : o.state = .closed := (h.2.1 o rfl).resolve_left hst.1
        have hno : ¬ OpenNow L := hc.1 hst
        refine h.snoc ⟨fun _ => close_snoc rfl, fun _ => hst⟩ h.2.1 (by simp [Sock.Op.isSend]) ?_ (by simp)
        intro j f c _
        exact ⟨⟨0, fun ho => absurd ho hno⟩, fun _ => ⟨h0, rfl⟩⟩
      · rename_i hst
        obtain ⟨h0, rfl, rfl⟩ := hE
        refine h.snoc ⟨fun _ => close_snoc rfl, fun _ => rfl⟩ (by simp) (by simp [Sock.Op.isSend]) ?_ (by simp)
        intro j f' c' he
        simp only [Sock.Op.close.injEq] at he
        obtain ⟨_, rfl, rfl⟩ := he
        refine ⟨⟨o.socket, fun _ => ⟨h0, rfl⟩⟩, fun hn => absurd (hc.2 hn) fun h' => hst (by rw [show o.state = .closed from h']; simp)⟩
  | dowork i n m =>
    obtain ⟨fin, hE, hr⟩ := hE
    cases a with
    | none =>
      obtain ⟨rfl, rfl, rfl⟩ := hE
      exact h.snoc (keep_open hc Iff.rfl (by simp [Sock.Op.isClose]) (by simp [Sock.Op.isOpen])) h.2.1 (by simp [Sock.Op.isSend]) (by simp) (fun _ _ _ _ _ => ⟨rfl, hr⟩)
    | some o =>
      simp only [DoworkE] at hE
      split at hE
      · obtain ⟨rfl, rfl, rfl⟩ := hE
        exact h.snoc (keep_open hc Iff.rfl (by simp [Sock.Op.isClose]) (by simp [Sock.Op.isOpen])) h.2.1 (by simp [Sock.Op.isSend]) (by simp) (fun _ _ _ _ _ => ⟨rfl, hr⟩)
      · rename_i hst
        have hst : o.state = .opn := Decidable.not_not.1 hst
        obtain ⟨o', rfl, hE⟩ := hE
        have hs : o'.state = .opn := by
          rw [← hst]
          rcases hE with ⟨_, hE⟩ | ⟨_, _, _, hS, _⟩
          · exact sendLoop_state hE
          · exact sendLoop_state hS
        refine h.snoc (keep_open hc ?_ (by simp [Sock.Op.isClose]) (by simp [Sock.Op.isOpen])) ?_ (by simp [Sock.Op.isSend]) (by simp) ?_
        · simp only [closedOf, hst]
          simp [hs]
        · intro x hx
          simp at hx; subst hx
          exact Or.inl hs
        · intro _ _ _ _ hn
          have := hc.2 hn
          simp [closedOf, hst] at this
  | send i bs cb ctx =>
    have done : (closedOf a' ↔ closedOf a) → (∀ o, a' = some o → o.state = .opn ∨ o.state = .closed) → (¬ OpenNow L → r ≠ 0 ∧ evs = []) →
        Inv2 a' (L ++ [⟨j, .send i bs cb ctx, r, evs⟩]) := by
      intro h1 h2 h3
      exact h.snoc (keep_open hc h1 (by simp [Sock.Op.isClose]) (by simp [Sock.Op.isOpen])) h2 (fun _ => h3) (by simp) (by simp)
    cases a with
    | none =>
      obtain ⟨h0, rfl, rfl⟩ := hE
      exact done Iff.rfl (by simp) fun _ => ⟨h0, rfl⟩
    | some o =>
      cases bs with
      | none =>
        obtain ⟨h0, rfl, rfl⟩ := hE
        exact done Iff.rfl h.2.1 fun _ => ⟨h0, rfl⟩
      | some bs =>
        simp only [Eff, SendE] at hE
        split at hE
        · obtain ⟨h0, rfl, rfl⟩ := hE
          exact done Iff.rfl h.2.1 fun _ => ⟨h0, rfl⟩
        · rename_i hne
          have hst : o.state = .opn := Decidable.not_not.1 fun h => hne (Or.inr h)
          have hno : ¬ OpenNow L → r ≠ 0 ∧ evs = [] := by
            intro hn
            have := hc.2 hn
            simp [closedOf, hst] at this
          have key : ∀ o', a' = some o' → o'.state = o.state → Inv2 a' (L ++ [⟨j, .send i (some bs) cb ctx, r, evs⟩]) := by
            rintro o' rfl hs
            refine done ?_ ?_ hno
            · simp only [closedOf, hs]
            · intro x hx; simp at hx; subst hx; rw [hs]; exact h.2.1 o rfl
          split at hE
          · obtain ⟨_, ⟨_, h1⟩ | ⟨_, _, h1⟩⟩ := hE <;> exact key _ h1 rfl
          · rcases hE with ⟨_, h1, _⟩ | ⟨n, e, _, _, ⟨_, _, h1, _⟩ | ⟨_, _, ⟨_, h1⟩ | ⟨_, _, h1⟩⟩⟩ <;> exact key _ h1 rfl

theorem Inv2_new {oom : Prop} (j : Nat) (op : Op) (r : Int) (a' : Option Obj) (evs : List Ev) (h : New oom op r a' evs) : Inv2 a' [⟨j, op, r, evs⟩] := by
  have fresh : ∀ {c lg ok}, CreateE oom c lg ok a' → closedOf a' := by
    intro c lg ok h
    cases c with
    | none => obtain ⟨_, rfl⟩ := h; trivial
    | some c => rcases h with ⟨_, rfl, _⟩ | ⟨_, _, rfl⟩ <;> trivial
  have base : Inv2 none [] := ⟨⟨fun _ => by rintro ⟨l1, e, l2, h, _⟩; simp at h, fun _ => trivial⟩, by simp, by simp⟩
  have go : op.isOpen = false → op.isClose = false → op.isSend = false → (∀ j n m, op ≠ .dowork j n m) → closedOf a' → Inv2 a' [⟨j, op, r, evs⟩] := by
    intro h1 h2 h3 h4 h5
    refine Inv2.snoc (L := []) base (keep_open base.1 ⟨fun _ => trivial, fun _ => h5⟩ (by simp [h2]) (by simp [h1])) ?_ (by simp [h3]) ?_ ?_
    · rintro o rfl; exact Or.inr h5
    · rintro _ _ _ rfl; simp [Sock.Op.isClose] at h2
    · intro _ _ _ h; exact absurd h (h4 _ _ _)
  cases op with
  | create _ _ _ => obtain ⟨ok, h1, _, rfl⟩ := h; exact go rfl rfl rfl (by simp) (fresh h1)
  | createNull _ => obtain ⟨ok, h1, _, rfl⟩ := h; exact go rfl rfl rfl (by simp) (fresh h1)
  | accept _ _ => obtain ⟨ok, fd, _, _, h1, _, rfl⟩ := h; exact go rfl rfl rfl (by simp) (fresh h1)
  | destroy _ => exact h.elim
  | opn _ _ _ _ _ _ _ => exact h.elim
  | close _ _ _ => exact h.elim
  | send _ _ _ _ => exact h.elim
  | dowork _ _ _ => exact h.elim

theorem inv2 (h : Runs (step oom) ([], []) ops outs (as, log)) (i : Nat) {l1 l2 : Log} {e : Entry} (hl : ofPos i log = l1 ++ e :: l2) :
    (e.op.isSend = true → ¬ OpenNow l1 → e.r ≠ 0 ∧ e.evs = []) ∧
    (∀ j f c, e.op = .close j f c → (∃ fd, OpenNow l1 → e.r = 0 ∧ e.evs = .close fd :: evClosed f c) ∧ (¬ OpenNow l1 → e.r ≠ 0 ∧ e.evs = [])) ∧
    (∀ j n m, e.op = .dowork j n m → ¬ OpenNow l1 → e.evs = [] ∧ e.r = 1) := by
  have hp := at_pos (Inv := Inv2) Inv2_new Inv2_step h i
  cases ha : as[i]? with
  | none =>
    have := hp.1 (List.getElem?_eq_none_iff.1 ha)
    rw [this] at hl; simp at hl
  | some a => exact (hp.2 a ha).2.2 l1 e l2 hl

/-- C98: a send on a handle that is not open is refused, and nothing reaches the socket or the callbacks. -/
theorem refused_unless_open (h : Runs (step oom) ([], []) ops outs (as, log)) (i : Nat) {l1 l2 : Log} {e : Entry}
    (hl : ofPos i log = l1 ++ e :: l2) (hs : e.op.isSend = true) (hn : ¬ OpenNow l1) : e.r ≠ 0 ∧ e.evs = [] :=
  (inv2 h i hl).1 hs hn

/-- C98: nothing is sent, received or reported by `socketio_dowork` on a handle that is not open. -/
theorem idle_unless_open (h : Runs (step oom) ([], []) ops outs (as, log)) (i : Nat) {l1 l2 : Log} {e : Entry}
    (hl : ofPos i log = l1 ++ e :: l2) {j n m : Nat} (hs : e.op = .dowork j n m) (hn : ¬ OpenNow l1) : e.evs = [] :=
  ((inv2 h i hl).2.2 j n m hs hn).1

/-- C98: closing an open handle succeeds, closes its socket and calls the callback once; closing a handle that is not open fails and does nothing. -/
theorem close_reports (h : Runs (step oom) ([], []) ops outs (as, log)) (i : Nat) {l1 l2 : Log} {e : Entry}
    (hl : ofPos i log = l1 ++ e :: l2) {j f c : Nat} (hs : e.op = .close j f c) :
    (OpenNow l1 → e.r = 0 ∧ ∃ fd, e.evs = .close fd :: evClosed f c) ∧ (¬ OpenNow l1 → e.r ≠ 0 ∧ e.evs = []) := by
  obtain ⟨⟨fd, h1⟩, h2⟩ := (inv2 h i hl).2.1 j f c hs
  exact ⟨fun ho => ⟨(h1 ho).1, fd, (h1 ho).2⟩, h2⟩

/-! ## C96: the stream -/

/-- as long as every call is clean, nothing is lost, duplicated or reordered -/
def Inv3 (a : Option Obj) (L : Log) : Prop :=
  (∀ e ∈ L, e.clean) →
    (∀ o, a = some o → (trace L).flatMap Ev.taken ++ o.pending.flatMap Pend.bytes = (L.filterMap Entry.sent).flatMap (·.1)) ∧
    (trace L).flatMap Ev.taken <+: (L.filterMap Entry.sent).flatMap (·.1)

theorem taken_nil {evs : List Ev} (h : evs.filterMap Ev.act = []) : evs.flatMap Ev.taken = [] := by
  rw [taken_acts, h]; rfl

theorem taken_cons_of {fd : Int} {bs : List UInt8} {n : Int} (h1 : n < bs.length) (h2 : n = bs.length ∨ n ≤ 0) : Ev.taken (.send fd bs n) = [] := by
  have : n.toNat = 0 := by omega
  simp [Ev.taken, this]

theorem loop_clean {o o' : Obj} {fin : Bool} {k : Nat} {evs : List Ev} (h : SendLoop k o fin o' evs) (hc : allOrNothing evs) (hf : ¬ fails evs) :
    evs.flatMap Ev.taken ++ o'.pending.flatMap Pend.bytes = o.pending.flatMap Pend.bytes := by
  have sub : ∀ {l1 l2 : List Ev}, ¬ fails (l1 ++ l2) → ¬ fails l2 := by
    rintro l1 _ h ⟨m1, fd, bs, n, e, m2, rfl, h2⟩
    exact h ⟨l1 ++ m1, fd, bs, n, e, m2, by simp, h2⟩
  induction h with
  | done => simp
  | cut => simp
  | whole hp _ ih =>
    have ih := ih (fun fd bs r hm => hc fd bs r (by simp [hm])) (sub hf)
    rw [hp]
    rename_i p _ _ _ _ _ _
    have hz : (evCompleted p.cb p.ctx).flatMap Ev.taken = [] := by unfold evCompleted; split <;> rfl
    simp only [List.cons_append, List.flatMap_cons, List.flatMap_append, hz, Ev.taken, List.nil_append, List.append_assoc, ih]
    simp
  | fail n e hp _ _ he _ _ => exact absurd ⟨[], _, _, n, e, _, rfl, he⟩ hf
  | again n hp h1 h2 _ ih =>
    have ih := ih (fun fd bs r hm => hc fd bs r (by simp [hm])) (sub (l1 := [_, _]) hf)
    rw [List.flatMap_cons, List.flatMap_cons, taken_cons_of h2 (hc _ _ _ (List.mem_cons_self ..))]
    simpa [Ev.taken] using ih

theorem Inv3.same {a a' : Option Obj} {L : Log} {j : Nat} {op : Op} {r : Int} {evs : List Ev} (h : Inv3 a L)
    (h1 : ∀ o', a' = some o' → ∃ o, a = some o ∧ o'.pending = o.pending)
    (h2 : evs.filterMap Ev.act = []) (h3 : Entry.sent ⟨j, op, r, evs⟩ = none) : Inv3 a' (L ++ [⟨j, op, r, evs⟩]) := by
  intro hc
  have h := h fun e he => hc e (by simp [he])
  have tr1 : trace [⟨j, op, r, evs⟩] = evs := by simp [trace]
  have e3 : List.filterMap Entry.sent [⟨j, op, r, evs⟩] = [] := by simp [h3]
  rw [trace_append, tr1, List.flatMap_append, taken_nil h2, List.append_nil, List.filterMap_append, e3, List.append_nil]
  refine ⟨fun o' ho => ?_, h.2⟩
  obtain ⟨o, ho, hp⟩ := h1 o' ho
  rw [hp]; exact h.1 o ho

theorem Inv3_step {oom : Prop} (j : Nat) (a : Option Obj) (L : Log) (op : Op) (r : Int) (a' : Option Obj) (evs : List Ev) (h : Inv3 a L)
    (hE : Eff oom a op r a' evs) : Inv3 a' (L ++ [⟨j, op, r, evs⟩]) := by
  have tr1 : trace [⟨j, op, r, evs⟩] = evs := by simp [trace]
  have keep : ∀ o', a = some o' → ∃ o, a = some o ∧ o'.pending = o.pending := fun o' h => ⟨o', h, rfl⟩
  cases op with
  | create _ _ _ => exact hE.elim
  | createNull _ => exact hE.elim
  | accept _ _ => exact hE.elim
  | destroy i =>
    obtain ⟨_, rfl, hD⟩ := hE
    refine h.same (by simp) ?_ rfl
    cases a with
    | none => rw [show evs = [] from hD]; rfl
    | some o =>
      have hD : evs = _ := hD
      rw [hD]; rfl
  | opn i f1 c1 f2 c2 f3 c3 =>
    cases a with
    | none =>
      obtain ⟨_, rfl, rfl⟩ := hE
      exact h.same keep rfl rfl
    | some o =>
      obtain ⟨h1, o', rfl, h2⟩ := act_open hE
      exact h.same (fun x hx => by simp at hx; subst hx; exact ⟨o, rfl, h2⟩) h1 rfl
  | close i f c =>
    cases a with
    | none =>
      obtain ⟨_, rfl, rfl⟩ := hE
      exact h.same keep rfl rfl
    | some o =>
      obtain ⟨h1, o', rfl, h2⟩ := act_close hE
      exact h.same (fun x hx => by simp at hx; subst hx; exact ⟨o, rfl, h2⟩) h1 rfl
  | dowork i n m =>
    obtain ⟨fin, hE, _⟩ := hE
    cases a with
    | none =>
      obtain ⟨_, rfl, rfl⟩ := hE
      exact h.same keep rfl rfl
    | some o =>
      simp only [DoworkE] at hE
      split at hE
      · obtain ⟨_, rfl, rfl⟩ := hE
        exact h.same keep rfl rfl
      · obtain ⟨o', rfl, hE⟩ := hE
        intro hc
        have h := (h fun e he => hc e (by simp [he])).1 o rfl
        have hcl : allOrNothing evs ∧ (isDowork (.dowork i n m) = true → ¬ fails evs) := hc ⟨j, .dowork i n m, r, evs⟩ (by simp)
        have hfl := hcl.2 rfl
        have hcl := hcl.1
        have e : List.filterMap Entry.sent [⟨j, .dowork i n m, r, evs⟩] = [] := by simp [Entry.sent]
        rw [trace_append, tr1, List.flatMap_append, List.filterMap_append, e, List.append_nil, ← h]
        have hl : evs.flatMap Ev.taken ++ o'.pending.flatMap Pend.bytes = o.pending.flatMap Pend.bytes := by
          rcases hE with ⟨_, hE⟩ | ⟨e1, e2, rfl, hS, hR⟩
          · exact loop_clean hE hcl hfl
          · rw [List.flatMap_append, taken_nil (act_recv hR), List.append_nil]
            exact loop_clean hS (fun fd bs r hm => hcl fd bs r (by simp [hm])) (by rintro ⟨m1, fd, bs, n, er, m2, rfl, h2⟩; exact hfl ⟨m1, fd, bs, n, er, m2 ++ e2, by simp, h2⟩)
        refine ⟨fun x hx => ?_, ?_⟩
        · simp at hx; subst hx
          rw [List.append_assoc, hl]
        · rw [← hl, ← List.append_assoc]
          exact List.prefix_append _ _
  | send i bs cb ctx =>
    have refuse : r ≠ 0 → Entry.sent ⟨j, .send i bs cb ctx, r, evs⟩ = none := by
      intro h; cases bs <;> simp [Entry.sent, h]
    cases a with
    | none =>
      obtain ⟨h0, rfl, rfl⟩ := hE
      exact h.same keep rfl (refuse h0)
    | some o =>
      cases bs with
      | none =>
        obtain ⟨h0, rfl, rfl⟩ := hE
        exact h.same keep rfl (refuse h0)
      | some bs =>
        simp only [Eff, SendE] at hE
        split at hE
        · obtain ⟨h0, rfl, rfl⟩ := hE
          exact h.same keep rfl (refuse h0)
        · have succ : r = 0 → ∀ o', a' = some o' → (allOrNothing evs → evs.flatMap Ev.taken ++ o'.pending.flatMap Pend.bytes = o.pending.flatMap Pend.bytes ++ bs) →
              Inv3 a' (L ++ [⟨j, .send i (some bs) cb ctx, r, evs⟩]) := by
            rintro h0 o' rfl he hc
            have h := (h fun e he => hc e (by simp [he])).1 o rfl
            have he := he (hc ⟨j, .send i (some bs) cb ctx, r, evs⟩ (by simp)).1
            have e : List.filterMap Entry.sent [⟨j, .send i (some bs) cb ctx, r, evs⟩] = [(bs, cb, ctx)] := by simp [Entry.sent, h0]
            rw [trace_append, tr1, List.flatMap_append, List.filterMap_append, e, List.flatMap_append, ← h]
            have fin : (trace L).flatMap Ev.taken ++ evs.flatMap Ev.taken ++ o'.pending.flatMap Pend.bytes =
                (trace L).flatMap Ev.taken ++ o.pending.flatMap Pend.bytes ++ List.flatMap (fun x => x.1) [(bs, cb, ctx)] := by
              rw [List.append_assoc, he]; simp
            refine ⟨fun x hx => ?_, ?_⟩
            · simp at hx; subst hx; exact fin
            · rw [← fin]; exact List.prefix_append _ _
          have fail : r ≠ 0 → a' = some o → (allOrNothing evs → evs.flatMap Ev.taken = []) → Inv3 a' (L ++ [⟨j, .send i (some bs) cb ctx, r, evs⟩]) := by
            rintro h0 rfl hz hc
            have h := h fun e he => hc e (by simp [he])
            have hcl := (hc ⟨j, .send i (some bs) cb ctx, r, evs⟩ (by simp)).1
            have e : List.filterMap Entry.sent [⟨j, .send i (some bs) cb ctx, r, evs⟩] = [] := by simp [Entry.sent, h0]
            rw [trace_append, tr1, List.flatMap_append, List.filterMap_append, e, List.append_nil, hz hcl, List.append_nil]
            exact h
          split at hE
          · obtain ⟨rfl, ⟨h0, rfl⟩ | ⟨h0, _, rfl⟩⟩ := hE
            · exact succ h0 _ rfl (fun _ => by simp)
            · exact h.same keep rfl (refuse h0)
          · rename_i hpd
            have hpd : o.pending = [] := Decidable.not_not.1 hpd
            have zc : (evCompleted cb ctx).flatMap Ev.taken = [] := by unfold evCompleted; split <;> rfl
            have ze : (evError o).flatMap Ev.taken = [] := taken_nil act_evError
            rcases hE with ⟨h0, rfl, rfl⟩ | ⟨n, e, hn1, hn2, ⟨he, h0, rfl, rfl⟩ | ⟨he, rfl, ⟨h0, rfl⟩ | ⟨h0, _, rfl⟩⟩⟩
            · exact succ h0 o rfl (fun _ => by simp [Ev.taken, hpd, zc])
            · refine fail h0 rfl fun hz => ?_
              rw [List.flatMap_cons, List.flatMap_cons, taken_cons_of hn2 (hz _ _ _ (List.mem_cons_self ..)), ze]; rfl
            · refine succ h0 _ rfl fun hz => ?_
              rw [List.flatMap_cons, List.flatMap_cons, taken_cons_of hn2 (hz _ _ _ (List.mem_cons_self ..))]
              simp [Ev.taken, hpd]
            · refine fail h0 rfl fun hz => ?_
              rw [List.flatMap_cons, List.flatMap_cons, taken_cons_of hn2 (hz _ _ _ (List.mem_cons_self ..))]
              rfl

theorem Inv3_new {oom : Prop} (j : Nat) (op : Op) (r : Int) (a' : Option Obj) (evs : List Ev) (h : New oom op r a' evs) : Inv3 a' [⟨j, op, r, evs⟩] := by
  have fresh : ∀ {c lg ok}, CreateE oom c lg ok a' → ∀ o, a' = some o → o.pending = [] := by
    intro c lg ok h
    cases c with
    | none => obtain ⟨_, rfl⟩ := h; simp
    | some c =>
      rcases h with ⟨_, rfl, _⟩ | ⟨_, _, rfl⟩
      · simp
      · intro o ho; simp at ho; subst ho; rfl
  have go : (∀ o, a' = some o → o.pending = []) → evs.filterMap Ev.act = [] → Entry.sent ⟨j, op, r, evs⟩ = none → Inv3 a' [⟨j, op, r, evs⟩] := by
    intro h1 h2 h3 _
    have tr1 : trace [⟨j, op, r, evs⟩] = evs := by simp [trace]
    have e3 : List.filterMap Entry.sent [⟨j, op, r, evs⟩] = [] := by simp [h3]
    rw [tr1, taken_nil h2, e3]
    exact ⟨fun o ho => by simp [h1 o ho], by simp⟩
  cases op with
  | create _ _ _ => obtain ⟨ok, h1, _, rfl⟩ := h; exact go (fresh h1) rfl rfl
  | createNull _ => obtain ⟨ok, h1, _, rfl⟩ := h; exact go (fresh h1) rfl rfl
  | accept _ _ =>
    obtain ⟨ok, fd, _, _, h1, _, rfl⟩ := h
    refine go (fresh h1) ?_ rfl
    split <;> rfl
  | destroy _ => exact h.elim
  | opn _ _ _ _ _ _ _ => exact h.elim
  | close _ _ _ => exact h.elim
  | send _ _ _ _ => exact h.elim
  | dowork _ _ _ => exact h.elim

/-- C96 (part): if no call made the socket take only a part of a buffer, and none made it fail on a queued one, the bytes taken by the socket are a prefix of
the accepted bytes, and what is missing is what is queued.  Missing: exactly these cases (see the counterexamples). -/
theorem in_order_partial (h : Runs (step oom) ([], []) ops outs (as, log)) (i : Nat) (hc : ∀ e ∈ ofPos i log, e.clean) :
    stream i log <+: acceptedBytes i log ∧ ∀ o, as[i]? = some (some o) → stream i log ++ o.pending.flatMap Pend.bytes = acceptedBytes i log := by
  have hp := at_pos (Inv := Inv3) Inv3_new Inv3_step h i
  cases ha : as[i]? with
  | none =>
    have := hp.1 (List.getElem?_eq_none_iff.1 ha)
    refine ⟨?_, by simp⟩
    simp [stream, this, trace]
  | some a =>
    have := hp.2 a ha hc
    exact ⟨this.2, fun o ho => this.1 o (by simpa using ho)⟩

/-! ## C98: descriptors and address lists -/

def heldBy (fd : Int) (a : Option Obj) : Nat := match a with
  | some o => if o.socket = fd then 1 else 0
  | none => 0

theorem holders_append {fd : Int} {as bs : List (Option Obj)} : holders fd (as ++ bs) = holders fd as + holders fd bs := by
  simp [holders]

theorem holders_set {fd : Int} {as : List (Option Obj)} {i : Nat} {a b : Option Obj} (h : as[i]? = some a) :
    holders fd (as.set i b) + heldBy fd a = holders fd as + heldBy fd b := by
  induction as generalizing i with
  | nil => simp at h
  | cons x xs ih =>
    cases i with
    | zero =>
      simp at h; subst h
      simp only [List.set_cons_zero, holders, List.map_cons, List.sum_cons]
      show heldBy fd b + _ + heldBy fd x = heldBy fd x + _ + heldBy fd b
      omega
    | succ i =>
      have := ih (by simpa using h)
      simp only [List.set_cons_succ, holders, List.map_cons, List.sum_cons] at this ⊢
      omega

def noFd (fd : Int) (tr : List Ev) : Prop := gotFd fd tr = 0 ∧ closedFd fd tr = 0

theorem sendLoop_fd {fd : Int} {o o' : Obj} {fin : Bool} {k : Nat} {evs : List Ev} (h : SendLoop k o fin o' evs) : o'.socket = o.socket ∧ noFd fd evs := by
  induction h with
  | done => simp [noFd, gotFd, closedFd]
  | cut => simp [noFd, gotFd, closedFd]
  | whole _ _ ih =>
    refine ⟨ih.1, ?_⟩
    have := ih.2
    unfold noFd gotFd closedFd at *
    simp only [evCompleted]
    split <;> simp [List.count_cons, this]
  | fail _ _ _ _ _ _ _ ih =>
    refine ⟨ih.1, ?_⟩
    have := ih.2
    unfold noFd gotFd closedFd at *
    simp [List.count_cons, this]
  | again _ _ _ _ _ ih =>
    refine ⟨ih.1, ?_⟩
    have := ih.2
    unfold noFd gotFd closedFd at *
    simp [List.count_cons, this]

theorem recvLoop_fd {fd : Int} {o : Obj} {fin : Bool} {k : Nat} {evs : List Ev} (h : RecvLoop o k fin evs) : noFd fd evs := by
  induction h with
  | cut => simp [noFd, gotFd, closedFd]
  | last _ => unfold evError noFd gotFd closedFd; split <;> (try split) <;> simp [List.count_cons]
  | more _ ih =>
    unfold noFd gotFd closedFd at *
    simp only [evReceived]
    split <;> simp [List.count_cons, ih]

theorem Eff_fd {fd : Int} (hfd : 0 ≤ fd) {a a' : Option Obj} {op : Op} {r : Int} {evs : List Ev} (hE : Eff oom a op r a' evs) :
    gotFd fd evs + heldBy fd a = closedFd fd evs + heldBy fd a' := by
  have none_ev : ∀ {evs : List Ev}, noFd fd evs → heldBy fd a' = heldBy fd a → gotFd fd evs + heldBy fd a = closedFd fd evs + heldBy fd a' := by
    intro evs h1 h2; rw [h1.1, h1.2, h2]
  have e0 : noFd fd [] := by simp [noFd, gotFd, closedFd]
  cases op with
  | create _ _ _ => exact hE.elim
  | createNull _ => exact hE.elim
  | accept _ _ => exact hE.elim
  | destroy i =>
    obtain ⟨_, rfl, hD⟩ := hE
    cases a with
    | none => rw [show evs = [] from hD]; exact none_ev e0 rfl
    | some o =>
      have hD : evs = _ := hD
      rw [hD]
      by_cases hf : o.socket = fd <;> simp [gotFd, closedFd, heldBy, hf]
  | opn i f1 c1 f2 c2 f3 c3 =>
    cases a with
    | none =>
      obtain ⟨_, rfl, rfl⟩ := hE
      exact none_ev e0 rfl
    | some o =>
      simp only [Eff, OpenE] at hE
      have zo : noFd fd (evOpened f1 c1 true) := by unfold evOpened; split <;> simp [noFd, gotFd, closedFd]
      split at hE
      · obtain ⟨_, rfl, rfl⟩ := hE; exact none_ev e0 rfl
      split at hE
      · obtain ⟨_, rfl, rfl⟩ := hE
        exact none_ev zo rfl
      rename_i hs
      have hs : o.socket = -1 := Decidable.not_not.1 hs
      have hne : ¬ o.socket = fd := by omega
      have hh : heldBy fd (some o) = 0 := by simp [heldBy, hne]
      rcases hE with ⟨_, rfl, rfl⟩ | ⟨fd', _, _, ⟨_, _, _, _, rfl, rfl⟩ | ⟨ai, ⟨_, _, _, rfl, rfl⟩ | ⟨_, _, _, rfl, rfl⟩ | ⟨_, rfl, rfl⟩⟩⟩
      · have : ¬ (-1 : Int) = fd := by omega
        refine none_ev ?_ rfl
        simp [noFd, gotFd, closedFd, this]
      · by_cases hf : fd' = fd <;> simp [gotFd, closedFd, List.count_cons, hf]
      · by_cases hf : fd' = fd <;> simp [gotFd, closedFd, List.count_cons, hf]
      · by_cases hf : fd' = fd <;> simp [gotFd, closedFd, List.count_cons, hf]
      · have h1 : List.count (Ev.socket fd) (evOpened f1 c1 true) = 0 := zo.1
        have h2 : List.count (Ev.close fd) (evOpened f1 c1 true) = 0 := zo.2
        rw [hh]
        by_cases hf : fd' = fd <;> simp [gotFd, closedFd, List.count_cons, hf, h1, h2, heldBy, opened]
  | close i f c =>
    cases a with
    | none =>
      obtain ⟨_, rfl, rfl⟩ := hE
      exact none_ev e0 rfl
    | some o =>
      simp only [Eff, CloseE] at hE
      split at hE
      · obtain ⟨_, rfl, rfl⟩ := hE; exact none_ev e0 rfl
      · obtain ⟨_, rfl, rfl⟩ := hE
        have zo : List.count (Ev.socket fd) (evClosed f c) = 0 ∧ List.count (Ev.close fd) (evClosed f c) = 0 := by unfold evClosed; split <;> simp
        have : ¬ (-1 : Int) = fd := by omega
        by_cases hf : o.socket = fd <;> simp [gotFd, closedFd, List.count_cons, hf, zo, heldBy, this]
  | dowork i n m =>
    obtain ⟨fin, hE, _⟩ := hE
    cases a with
    | none =>
      obtain ⟨_, rfl, rfl⟩ := hE
      exact none_ev e0 rfl
    | some o =>
      simp only [DoworkE] at hE
      split at hE
      · obtain ⟨_, rfl, rfl⟩ := hE
        exact none_ev e0 rfl
      · obtain ⟨o', rfl, hE⟩ := hE
        rcases hE with ⟨_, hE⟩ | ⟨e1, e2, rfl, hS, hR⟩
        · have := sendLoop_fd (fd := fd) hE
          exact none_ev this.2 (by simp [heldBy, this.1])
        · have h1 := sendLoop_fd (fd := fd) hS
          have h2 := recvLoop_fd (fd := fd) hR
          refine none_ev ?_ (by simp [heldBy, h1.1])
          have h1 := h1.2
          unfold noFd gotFd closedFd at *
          simp [List.count_append, h1, h2]
  | send i bs cb ctx =>
    cases a with
    | none =>
      obtain ⟨_, rfl, rfl⟩ := hE
      exact none_ev e0 rfl
    | some o =>
      cases bs with
      | none =>
        obtain ⟨_, rfl, rfl⟩ := hE
        exact none_ev e0 rfl
      | some bs =>
        simp only [Eff, SendE] at hE
        have zc : List.count (Ev.socket fd) (evCompleted cb ctx) = 0 ∧ List.count (Ev.close fd) (evCompleted cb ctx) = 0 := by unfold evCompleted; split <;> simp
        have ze : List.count (Ev.socket fd) (evError o) = 0 ∧ List.count (Ev.close fd) (evError o) = 0 := by unfold evError; split <;> simp
        split at hE
        · obtain ⟨_, rfl, rfl⟩ := hE; exact none_ev e0 rfl
        · split at hE
          · obtain ⟨rfl, ⟨_, rfl⟩ | ⟨_, _, rfl⟩⟩ := hE <;> exact none_ev e0 rfl
          · rcases hE with ⟨_, rfl, rfl⟩ | ⟨n, e, _, _, ⟨_, _, rfl, rfl⟩ | ⟨_, rfl, ⟨_, rfl⟩ | ⟨_, _, rfl⟩⟩⟩ <;>
              refine none_ev ?_ rfl <;> simp [noFd, gotFd, closedFd, List.count_cons, zc, ze]

theorem New_fd {fd : Int} (hfd : 0 ≤ fd) {a' : Option Obj} {op : Op} {r : Int} {evs : List Ev} (h : New oom op r a' evs) :
    gotFd fd evs = closedFd fd evs + heldBy fd a' := by
  have hne : ¬ (-1 : Int) = fd := by omega
  cases op with
  | create host port lg =>
    obtain ⟨ok, h1, _, rfl⟩ := h
    rcases h1 with ⟨_, rfl, _⟩ | ⟨_, _, rfl⟩
    · simp [gotFd, closedFd, heldBy]
    · simp [gotFd, closedFd, heldBy, hne]
  | createNull _ =>
    obtain ⟨ok, ⟨_, rfl⟩, _, rfl⟩ := h
    simp [gotFd, closedFd, heldBy]
  | accept _ _ =>
    obtain ⟨ok, fd', _, _, h1, _, rfl⟩ := h
    rcases h1 with ⟨rfl, rfl, _⟩ | ⟨rfl, _, rfl⟩
    · by_cases hf : fd' = fd
      · subst hf
        have : ¬ fd' < 0 := by omega
        simp [gotFd, closedFd, heldBy, this, List.count_cons]
      · by_cases h0 : fd' < 0 <;> simp [gotFd, closedFd, heldBy, h0, hf, List.count_cons]
    · by_cases hf : fd' = fd <;> simp [gotFd, closedFd, heldBy, hf, List.count_cons]
  | destroy _ => exact h.elim
  | opn _ _ _ _ _ _ _ => exact h.elim
  | close _ _ _ => exact h.elim
  | send _ _ _ _ => exact h.elim
  | dowork _ _ _ => exact h.elim

/-- C98: at any time, for each descriptor: how often it was obtained is how often it was closed, plus the number of
handles that hold it. -/
theorem descriptors (h : Runs (step oom) ([], []) ops outs (as, log)) (fd : Int) (hfd : 0 ≤ fd) :
    gotFd fd (trace log) = closedFd fd (trace log) + holders fd as := by
  have gen : ∀ (x : World) ops outs x', Runs (step oom) x ops outs x' → gotFd fd (trace x.2) = closedFd fd (trace x.2) + holders fd x.1 →
      gotFd fd (trace x'.2) = closedFd fd (trace x'.2) + holders fd x'.1 := by
    intro x ops outs x' hr
    induction hr with
    | nil => exact id
    | cons h1 _ ih =>
      intro hx
      apply ih
      rcases step_cases h1 with ⟨_, rfl⟩ | ⟨r, a', evs, hN, _, rfl⟩ | ⟨j, a, r, a', evs, hj, hE, _, rfl⟩
      · exact hx
      · have := New_fd hfd hN
        have e : trace [⟨‹World›.1.length, ‹Op›, r, evs⟩] = evs := by simp [trace]
        simp only [trace_append, gotFd, closedFd, List.count_append, holders_append] at *
        simp only [trace, List.flatMap_cons, List.flatMap_nil, List.append_nil, holders, List.map_cons, List.map_nil, List.sum_cons, List.sum_nil] at *
        show _ = _ + (_ + (heldBy fd a' + 0))
        omega
      · have h2 := Eff_fd hfd hE
        have h3 := holders_set (fd := fd) (b := a') hj
        simp only [trace_append, gotFd, closedFd, List.count_append] at *
        simp only [trace, List.flatMap_cons, List.flatMap_nil, List.append_nil] at *
        omega
  exact gen _ _ _ _ h (by simp [trace, gotFd, closedFd, holders])

/-- C98: when all handles are destroyed every descriptor has been closed exactly as often as it was obtained. -/
theorem all_closed (h : Runs (step oom) ([], []) ops outs (as, log)) (hd : ∀ a ∈ as, a = none) (fd : Int) (hfd : 0 ≤ fd) :
    gotFd fd (trace log) = closedFd fd (trace log) := by
  have : holders fd as = 0 := by
    clear h
    induction as with
    | nil => rfl
    | cons a as ih =>
      have ha := hd a (by simp)
      subst ha
      have := ih fun a ha => hd a (by simp [ha])
      simpa [holders] using this
  rw [descriptors h fd hfd, this, Nat.add_zero]

/-! ### Address lists -/

def noAi (ai : Nat) (tr : List Ev) : Prop := gotAi ai tr = freedAi ai tr

theorem noAi_append {ai : Nat} {a b : List Ev} (h1 : noAi ai a) (h2 : noAi ai b) : noAi ai (a ++ b) := by
  unfold noAi gotAi freedAi at *
  rw [List.countP_append, List.count_append, h1, h2]

theorem noAi_cb {ai : Nat} {a : List Ev} (h : ∀ e ∈ a, (∀ x y z w, e ≠ .getaddrinfo x y z w) ∧ ∀ x, e ≠ .freeaddrinfo x) : noAi ai a := by
  have h1 : gotAi ai a = 0 := by
    unfold gotAi
    rw [List.countP_eq_zero]
    intro e he
    cases e <;> simp
    exact absurd rfl ((h _ he).1 _ _ _ _)
  have h2 : freedAi ai a = 0 := by
    unfold freedAi
    rw [List.count_eq_zero]
    exact fun hm => (h _ hm).2 _ rfl
  unfold noAi
  rw [h1, h2]

theorem sendLoop_ai {ai : Nat} {o o' : Obj} {fin : Bool} {k : Nat} {evs : List Ev} (h : SendLoop k o fin o' evs) : noAi ai evs := by
  induction h with
  | done => rfl
  | cut => rfl
  | whole _ _ ih =>
    refine noAi_append (noAi_cb ?_) ih
    simp only [evCompleted]; split <;> simp
  | fail _ _ _ _ _ _ _ ih => exact noAi_append (a := [_, _]) (noAi_cb (by simp)) ih
  | again _ _ _ _ _ ih => exact noAi_append (a := [_, _]) (noAi_cb (by simp)) ih

theorem recvLoop_ai {ai : Nat} {o : Obj} {fin : Bool} {k : Nat} {evs : List Ev} (h : RecvLoop o k fin evs) : noAi ai evs := by
  induction h with
  | cut => rfl
  | last _ => refine noAi_cb ?_; unfold evError; split <;> (try split) <;> simp
  | more _ ih =>
    refine noAi_append (noAi_cb ?_) ih
    simp only [evReceived]; split <;> simp

theorem Eff_ai {ai : Nat} {a a' : Option Obj} {op : Op} {r : Int} {evs : List Ev} (hE : Eff oom a op r a' evs) : noAi ai evs := by
  cases op with
  | create _ _ _ => exact hE.elim
  | createNull _ => exact hE.elim
  | accept _ _ => exact hE.elim
  | destroy i =>
    obtain ⟨_, rfl, hD⟩ := hE
    cases a with
    | none => rw [show evs = [] from hD]; rfl
    | some o =>
      have hD : evs = _ := hD
      rw [hD]
      exact noAi_cb (by simp)
  | opn i f1 c1 f2 c2 f3 c3 =>
    cases a with
    | none =>
      obtain ⟨_, rfl, rfl⟩ := hE
      rfl
    | some o =>
      simp only [Eff, OpenE] at hE
      have zo : noAi ai (evOpened f1 c1 true) := by unfold evOpened; split <;> exact noAi_cb (by simp)
      split at hE
      · obtain ⟨_, rfl, rfl⟩ := hE; rfl
      split at hE
      · obtain ⟨_, rfl, rfl⟩ := hE
        exact zo
      rcases hE with ⟨_, rfl, rfl⟩ | ⟨fd', _, _, ⟨_, _, hx, _, rfl, rfl⟩ | ⟨x, ⟨_, _, _, rfl, rfl⟩ | ⟨_, _, _, rfl, rfl⟩ | ⟨_, rfl, rfl⟩⟩⟩
      · exact noAi_cb (by simp)
      · simp [noAi, gotAi, freedAi, List.countP_cons, hx]
      · by_cases hf : x = ai <;> simp [noAi, gotAi, freedAi, List.countP_cons, hf]
      · by_cases hf : x = ai <;> simp [noAi, gotAi, freedAi, List.countP_cons, hf]
      · unfold evOpened
        split <;> by_cases hf : x = ai <;> simp [noAi, gotAi, freedAi, List.countP_cons, hf]
  | close i f c =>
    cases a with
    | none =>
      obtain ⟨_, rfl, rfl⟩ := hE
      rfl
    | some o =>
      simp only [Eff, CloseE] at hE
      split at hE
      · obtain ⟨_, rfl, rfl⟩ := hE; rfl
      · obtain ⟨_, rfl, rfl⟩ := hE
        unfold evClosed
        split <;> exact noAi_cb (by simp)
  | dowork i n m =>
    obtain ⟨fin, hE, _⟩ := hE
    cases a with
    | none =>
      obtain ⟨_, rfl, rfl⟩ := hE
      rfl
    | some o =>
      simp only [DoworkE] at hE
      split at hE
      · obtain ⟨_, rfl, rfl⟩ := hE
        rfl
      · obtain ⟨o', rfl, hE⟩ := hE
        rcases hE with ⟨_, hE⟩ | ⟨e1, e2, rfl, hS, hR⟩
        · exact sendLoop_ai hE
        · exact noAi_append (sendLoop_ai hS) (recvLoop_ai hR)
  | send i bs cb ctx =>
    cases a with
    | none =>
      obtain ⟨_, rfl, rfl⟩ := hE
      rfl
    | some o =>
      cases bs with
      | none =>
        obtain ⟨_, rfl, rfl⟩ := hE
        rfl
      | some bs =>
        simp only [Eff, SendE] at hE
        split at hE
        · obtain ⟨_, rfl, rfl⟩ := hE; rfl
        · split at hE
          · obtain ⟨rfl, _⟩ := hE; rfl
          · rcases hE with ⟨_, rfl, rfl⟩ | ⟨n, e, _, _, ⟨_, _, rfl, rfl⟩ | ⟨_, rfl, _⟩⟩
            · unfold evCompleted; split <;> exact noAi_cb (by simp)
            · unfold evError; split <;> exact noAi_cb (by simp)
            · exact noAi_cb (by simp)

theorem New_ai {ai : Nat} {a' : Option Obj} {op : Op} {r : Int} {evs : List Ev} (h : New oom op r a' evs) : noAi ai evs := by
  cases op with
  | create host port lg => obtain ⟨ok, _, _, rfl⟩ := h; rfl
  | createNull _ => obtain ⟨ok, _, _, rfl⟩ := h; rfl
  | accept _ _ =>
    obtain ⟨ok, fd', _, _, _, _, rfl⟩ := h
    split <;> exact noAi_cb (by simp)
  | destroy _ => exact h.elim
  | opn _ _ _ _ _ _ _ => exact h.elim
  | close _ _ _ => exact h.elim
  | send _ _ _ _ => exact h.elim
  | dowork _ _ _ => exact h.elim

/-- C98: after each call, every address list obtained so far has been freed exactly as often as it was obtained. -/
theorem address_lists (h : Runs (step oom) ([], []) ops outs (as, log)) (ai : Nat) :
    gotAi ai (trace log) = freedAi ai (trace log) := by
  have gen : ∀ (x : World) ops outs x', Runs (step oom) x ops outs x' → noAi ai (trace x.2) → noAi ai (trace x'.2) := by
    intro x ops outs x' hr
    induction hr with
    | nil => exact id
    | cons h1 _ ih =>
      intro hx
      apply ih
      rcases step_cases h1 with ⟨_, rfl⟩ | ⟨r, a', evs, hN, _, rfl⟩ | ⟨j, a, r, a', evs, hj, hE, _, rfl⟩
      · exact hx
      · have e : ∀ e : Entry, trace [e] = e.evs := by simp [trace]
        simp only [trace_append, e]
        exact noAi_append hx (New_ai hN)
      · have e : ∀ e : Entry, trace [e] = e.evs := by simp [trace]
        simp only [trace_append, e]
        exact noAi_append hx (Eff_ai hE)
  exact gen _ _ _ _ h rfl

/-! ## C97, C99: errors, received bytes, and the rounds of `socketio_dowork` -/

theorem sendLoop_rounds {o o' : Obj} {fin : Bool} {k : Nat} {evs : List Ev} (h : SendLoop k o fin o' evs) :
    (fin = false → k ≤ o.pending.length + busy evs) ∧ o'.pending.length ≤ o.pending.length ∧ o'.onBytes = o.onBytes ∧ o'.onBytesCtx = o.onBytesCtx ∧
      o'.onErr = o.onErr ∧ o'.onErrCtx = o.onErrCtx ∧ recvd evs = [] ∧ deliveries evs = [] := by
  have hc : ∀ f c evs, busy (evCompleted f c ++ evs) = busy evs ∧ recvd (evCompleted f c ++ evs) = recvd evs ∧ deliveries (evCompleted f c ++ evs) = deliveries evs := by
    intro f c evs; unfold evCompleted; split <;> exact ⟨rfl, rfl, rfl⟩
  induction h with
  | done h => simp [recvd, deliveries]
  | cut h => simp [recvd, deliveries]
  | whole hp _ ih =>
    obtain ⟨h1, h2, h3, h4, h5, h6, h7, h8⟩ := ih
    obtain ⟨a1, a2, a3⟩ := hc _ _ _
    refine ⟨fun hf => ?_, ?_, h3, h4, h5, h6, a2.trans h7, a3.trans h8⟩
    · have := h1 hf
      have e : ∀ l fd bs n, busy (.send fd bs n :: l) = busy l := fun _ _ _ _ => rfl
      rw [List.cons_append, e, a1, hp]
      simp only [List.length_cons]
      dsimp only at this
      omega
    · rw [hp]; simp only [List.length_cons]; dsimp only at h2; omega
  | fail n e hp _ _ he _ ih =>
    obtain ⟨h1, h2, h3, h4, h5, h6, h7, h8⟩ := ih
    refine ⟨fun hf => ?_, ?_, h3, h4, h5, h6, h7, h8⟩
    · have := h1 hf
      have e' : ∀ l fd bs n, busy (.send fd bs n :: .lastError e :: l) = busy l := fun l fd bs n => by simp [busy, List.countP_cons, he]
      rw [e', hp]
      simp only [List.length_cons]
      dsimp only at this
      omega
    · rw [hp]; simp only [List.length_cons]; dsimp only at h2; omega
  | again n hp _ _ _ ih =>
    obtain ⟨h1, h2, h3, h4, h5, h6, h7, h8⟩ := ih
    refine ⟨fun hf => ?_, h2, h3, h4, h5, h6, h7, h8⟩
    have := h1 hf
    have e' : ∀ l fd bs n, busy (.send fd bs n :: .lastError WSAEWOULDBLOCK :: l) = busy l + 1 := fun l fd bs n => by simp [busy, List.countP_cons]
    rw [e']
    omega

theorem recvLoop_rounds {o : Obj} {fin : Bool} {k : Nat} {evs : List Ev} (h : RecvLoop o k fin evs) :
    (fin = false → (recvd evs).length = k) ∧ deliveries evs = if o.onBytes = 0 then [] else (recvd evs).map fun b => (o.onBytes, o.onBytesCtx, [b]) := by
  induction h with
  | cut => simp [recvd, deliveries]
  | @last k r b e hr =>
    have h1 : ∀ l, recvd (.recv o.socket r b :: .lastError e :: l) = recvd l := fun l => by
      have : r ≠ 1 := by omega
      simp [recvd, this]
    have h2 : ∀ l, deliveries (.recv o.socket r b :: .lastError e :: l) = deliveries l := fun l => rfl
    refine ⟨by simp, ?_⟩
    rw [h1, h2]
    split
    · simp [recvd, deliveries]
    · unfold evError; split <;> simp [recvd, deliveries]
  | @more k b fin evs _ ih =>
    obtain ⟨h1, h2⟩ := ih
    have e1 : recvd (.recv o.socket 1 b :: evReceived o.onBytes o.onBytesCtx [b] ++ evs) = b :: recvd evs := by
      unfold evReceived; split <;> simp [recvd]
    have e2 : deliveries (.recv o.socket 1 b :: evReceived o.onBytes o.onBytesCtx [b] ++ evs) =
        if o.onBytes = 0 then deliveries evs else (o.onBytes, o.onBytesCtx, [b]) :: deliveries evs := by
      unfold evReceived; split <;> simp [deliveries]
    refine ⟨fun hf => by rw [e1]; simp [h1 hf], ?_⟩
    rw [e1, e2, h2]
    split <;> simp

theorem OpenedWith.snoc {L : Log} {e : Entry} {f2 c2 f3 c3 : Nat} (h : OpenedWith L f2 c2 f3 c3) (he : e.op.isClose = false) :
    OpenedWith (L ++ [e]) f2 c2 f3 c3 := by
  obtain ⟨l1, e0, l2, j, f1, c1, rfl, h1, h2, h3⟩ := h
  refine ⟨l1, e0, l2 ++ [e], j, f1, c1, by simp, h1, h2, fun x hx => ?_⟩
  rcases List.mem_append.1 hx with h | h
  · exact h3 x h
  · simp at h; subst h; exact he

/-- what the record of one call says, given the calls before it -/
def Told (oom : Prop) (l1 : Log) (e : Entry) : Prop :=
  (e.op.isSend = true → e.r ≠ 0 → (∃ fd b n, Ev.send fd b n ∈ e.evs) → ∃ f2 c2 f c, OpenedWith l1 f2 c2 f c ∧
    ((oom ∧ Ev.lastError WSAEWOULDBLOCK ∈ e.evs) ∨ f = 0 ∨ Ev.error f c ∈ e.evs)) ∧
  (∀ j n m, e.op = .dowork j n m →
    (e.r = 0 → n ≤ (l1.filterMap Entry.sent).length + busy e.evs ∨ (recvd e.evs).length = m) ∧
    (e.evs ≠ [] → ∃ f2 c2 f c, OpenedWith l1 f2 c2 f c ∧ deliveries e.evs = if f2 = 0 then [] else (recvd e.evs).map fun b => (f2, c2, [b])))

def Inv4 (oom : Prop) (a : Option Obj) (L : Log) : Prop :=
  (pendingOf a).length ≤ (L.filterMap Entry.sent).length ∧
  (∀ o, a = some o → o.state = .opn → OpenedWith L o.onBytes o.onBytesCtx o.onErr o.onErrCtx) ∧
  ∀ l1 e l2, L = l1 ++ e :: l2 → Told oom l1 e

theorem Inv4.snoc {oom : Prop} {a a' : Option Obj} {L : Log} {e : Entry} (h : Inv4 oom a L)
    (h1 : (pendingOf a').length ≤ ((L ++ [e]).filterMap Entry.sent).length)
    (h2 : ∀ o, a' = some o → o.state = .opn → OpenedWith (L ++ [e]) o.onBytes o.onBytesCtx o.onErr o.onErrCtx)
    (h3 : Told oom L e) : Inv4 oom a' (L ++ [e]) := by
  refine ⟨h1, h2, fun l1 x l2 h0 => ?_⟩
  rcases List.eq_nil_or_concat l2 with rfl | ⟨l, y, rfl⟩
  · have := List.append_inj' h0 rfl
    simp at this
    obtain ⟨rfl, rfl⟩ := this
    exact h3
  · rw [List.concat_eq_append] at h0
    have h0 : L ++ [e] = (l1 ++ x :: l) ++ [y] := by rw [h0]; simp
    exact h.2.2 l1 x l (List.append_inj' h0 rfl).1

theorem Inv4_new {oom : Prop} (j : Nat) (op : Op) (r : Int) (a' : Option Obj) (evs : List Ev) (h : New oom op r a' evs) : Inv4 oom a' [⟨j, op, r, evs⟩] := by
  have fresh : ∀ {c lg ok}, CreateE oom c lg ok a' → closedOf a' ∧ pendingOf a' = [] := by
    intro c lg ok h
    cases c with
    | none => obtain ⟨_, rfl⟩ := h; exact ⟨trivial, rfl⟩
    | some c =>
      rcases h with ⟨_, rfl, _⟩ | ⟨_, _, rfl⟩
      · exact ⟨trivial, rfl⟩
      · exact ⟨rfl, rfl⟩
  have base : Inv4 oom none [] := ⟨by simp [pendingOf], by simp, by simp⟩
  have go : op.isSend = false → (∀ j n m, op ≠ .dowork j n m) → closedOf a' ∧ pendingOf a' = [] → Inv4 oom a' [⟨j, op, r, evs⟩] := by
    intro h3 h4 h5
    refine Inv4.snoc (L := []) base (by simp [h5.2]) ?_ ⟨by simp [h3], fun _ _ _ h => absurd h (h4 _ _ _)⟩
    rintro o rfl ho
    have : o.state = .closed := h5.1
    rw [this] at ho
    cases ho
  cases op with
  | create _ _ _ => obtain ⟨ok, h1, _, rfl⟩ := h; exact go rfl (by simp) (fresh h1)
  | createNull _ => obtain ⟨ok, h1, _, rfl⟩ := h; exact go rfl (by simp) (fresh h1)
  | accept _ _ => obtain ⟨ok, fd, _, _, h1, _, rfl⟩ := h; exact go rfl (by simp) (fresh h1)
  | destroy _ => exact h.elim
  | opn _ _ _ _ _ _ _ => exact h.elim
  | close _ _ _ => exact h.elim
  | send _ _ _ _ => exact h.elim
  | dowork _ _ _ => exact h.elim

/-- a call that is neither a send nor `socketio_dowork` nor a `socketio_close` that works -/
theorem Inv4.keep {oom : Prop} {a : Option Obj} {L : Log} {e : Entry} (h : Inv4 oom a L) (h1 : e.op.isClose = true → closedOf a) (h3 : Told oom L e) :
    Inv4 oom a (L ++ [e]) := by
  refine h.snoc ?_ ?_ h3
  · rw [List.filterMap_append, List.length_append]; have := h.1; omega
  · rintro o rfl ho
    have hc : e.op.isClose = false := by
      cases hc : e.op.isClose with
      | false => rfl
      | true => have : o.state = .closed := h1 hc
                rw [this] at ho; cases ho
    exact (h.2.1 o rfl ho).snoc hc

theorem Inv4_step {oom : Prop} (j : Nat) (a : Option Obj) (L : Log) (op : Op) (r : Int) (a' : Option Obj) (evs : List Ev) (h : Inv4 oom a L)
    (hE : Eff oom a op r a' evs) : Inv4 oom a' (L ++ [⟨j, op, r, evs⟩]) := by
  have grow : ∀ e : Entry, (L.filterMap Entry.sent).length ≤ ((L ++ [e]).filterMap Entry.sent).length := by
    intro e; rw [List.filterMap_append, List.length_append]; omega
  cases op with
  | create _ _ _ => exact hE.elim
  | createNull _ => exact hE.elim
  | accept _ _ => exact hE.elim
  | destroy i =>
    obtain ⟨_, rfl, _⟩ := hE
    exact h.snoc (by simp [pendingOf]) (by simp) ⟨by simp [Sock.Op.isSend], by simp⟩
  | opn i f1 c1 f2 c2 f3 c3 =>
    have t : Told oom L ⟨j, .opn i f1 c1 f2 c2 f3 c3, r, evs⟩ := ⟨by simp [Sock.Op.isSend], by simp⟩
    cases a with
    | none => obtain ⟨_, rfl, _⟩ := hE; exact h.keep (by simp [Sock.Op.isClose]) t
    | some o =>
      have new : ∀ fd : Int, r = 0 → a' = some (opened o fd f2 c2 f3 c3) → Inv4 oom a' (L ++ [⟨j, .opn i f1 c1 f2 c2 f3 c3, r, evs⟩]) := by
        rintro fd hr rfl
        refine h.snoc (Nat.le_trans h.1 (grow _)) ?_ t
        rintro o' ho' _
        simp only [Option.some.injEq] at ho'
        subst ho'
        exact ⟨L, _, [], i, f1, c1, rfl, rfl, hr, by simp⟩
      have same : a' = some o → Inv4 oom a' (L ++ [⟨j, .opn i f1 c1 f2 c2 f3 c3, r, evs⟩]) := by
        rintro rfl; exact h.keep (by simp [Sock.Op.isClose]) t
      simp only [Eff, OpenE] at hE
      split at hE
      · exact same hE.2.1
      · split at hE
        · exact new _ hE.1 hE.2.1
        · rcases hE with ⟨_, h1, _⟩ | ⟨fd, _, _, ⟨err, ai, _, _, h1, _⟩ | ⟨ai, ⟨err, _, _, h1, _⟩ | ⟨err, _, _, h1, _⟩ | ⟨h0, h1, _⟩⟩⟩
          · exact same h1
          · exact same h1
          · exact same h1
          · exact same h1
          · exact new _ h0 h1
  | close i f c =>
    have t : Told oom L ⟨j, .close i f c, r, evs⟩ := ⟨by simp [Sock.Op.isSend], by simp⟩
    cases a with
    | none => obtain ⟨_, rfl, _⟩ := hE; exact h.keep (fun _ => trivial) t
    | some o =>
      simp only [Eff, CloseE] at hE
      split at hE
      · rename_i hs
        obtain ⟨_, rfl, _⟩ := hE
        refine h.snoc (Nat.le_trans h.1 (grow _)) ?_ t
        rintro o' ho' hop
        simp only [Option.some.injEq] at ho'
        subst ho'
        exact absurd hop hs.1
      · obtain ⟨_, rfl, _⟩ := hE
        refine h.snoc (Nat.le_trans h.1 (grow _)) ?_ t
        rintro o' ho' hop
        simp only [Option.some.injEq] at ho'
        subst ho'
        cases hop
  | send i bs cb ctx =>
    have none' : evs = [] → Told oom L ⟨j, .send i bs cb ctx, r, evs⟩ := by
      rintro rfl; exact ⟨by simp, by simp⟩
    have ok' : r = 0 → Told oom L ⟨j, .send i bs cb ctx, r, evs⟩ := fun h0 => ⟨fun _ h => absurd h0 h, by simp⟩
    cases a with
    | none => obtain ⟨_, rfl, h2⟩ := hE; exact h.keep (by simp [Sock.Op.isClose]) (none' h2)
    | some o =>
      cases bs with
      | none => obtain ⟨_, rfl, h2⟩ := hE; exact h.keep (by simp [Sock.Op.isClose]) (none' h2)
      | some bs =>
        have queue : ∀ q, r = 0 → q.length ≤ o.pending.length + 1 → a' = some { o with pending := q } → Inv4 oom a' (L ++ [⟨j, .send i (some bs) cb ctx, r, evs⟩]) := by
          rintro q rfl hq rfl
          refine h.snoc ?_ ?_ (ok' rfl)
          · have : (L ++ [(⟨j, .send i (some bs) cb ctx, 0, evs⟩ : Entry)]).filterMap Entry.sent = L.filterMap Entry.sent ++ [(bs, cb, ctx)] := by
              rw [List.filterMap_append]; rfl
            rw [this, List.length_append]
            have := h.1
            simp only [pendingOf, List.length_cons, List.length_nil] at *
            omega
          · rintro o' ho' hop
            simp only [Option.some.injEq] at ho'
            subst ho'
            exact (h.2.1 o rfl hop).snoc rfl
        simp only [Eff, SendE] at hE
        split at hE
        · obtain ⟨_, rfl, h2⟩ := hE; exact h.keep (by simp [Sock.Op.isClose]) (none' h2)
        · rename_i hs
          have hs : o.state = .opn := by
            cases hst : o.state <;> simp [hst] at hs ⊢
          have who := h.2.1 o rfl hs
          split at hE
          · obtain ⟨h2, ⟨h0, h1⟩ | ⟨_, _, rfl⟩⟩ := hE
            · exact queue _ h0 (by simp) h1
            · exact h.keep (by simp [Sock.Op.isClose]) (none' h2)
          · rename_i hp
            have hp : o.pending = [] := by simpa using hp
            rcases hE with ⟨h0, rfl, _⟩ | ⟨n, e, _, _, ⟨_, _, rfl, h2⟩ | ⟨he, h2, ⟨h0, h1⟩ | ⟨_, ho, rfl⟩⟩⟩
            · exact h.keep (by simp [Sock.Op.isClose]) (ok' h0)
            · refine h.keep (by simp [Sock.Op.isClose]) ⟨fun _ _ _ => ⟨_, _, _, _, who, Or.inr ?_⟩, by simp⟩
              by_cases h0 : o.onErr = 0
              · exact Or.inl h0
              · right
                simp only [h2, evError, if_neg h0]
                simp
            · exact queue _ h0 (by simp [hp]) h1
            · refine h.keep (by simp [Sock.Op.isClose]) ⟨fun _ _ _ => ⟨_, _, _, _, who, Or.inl ⟨ho, ?_⟩⟩, by simp⟩
              simp [h2, he]
  | dowork i n m =>
    obtain ⟨fin, hE, rfl⟩ := hE
    have idle : fin = true → evs = [] → Told oom L ⟨j, .dowork i n m, if fin then 1 else 0, evs⟩ := by
      rintro rfl rfl
      exact ⟨by simp [Sock.Op.isSend], by simp⟩
    cases a with
    | none => obtain ⟨h1, rfl, h2⟩ := hE; exact h.keep (by simp [Sock.Op.isClose]) (idle h1 h2)
    | some o =>
      simp only [DoworkE] at hE
      split at hE
      · obtain ⟨h1, rfl, h2⟩ := hE; exact h.keep (by simp [Sock.Op.isClose]) (idle h1 h2)
      · rename_i hs
        have hs : o.state = .opn := by simpa using hs
        have who := h.2.1 o rfl hs
        have hlen := h.1
        simp only [pendingOf] at hlen
        obtain ⟨o', rfl, h1⟩ := hE
        have fin' : ∀ {k : Nat} {b : Bool} {evs1 : List Ev}, SendLoop k o b o' evs1 → Told oom L ⟨j, .dowork i n m, if fin then 1 else 0, evs⟩ →
            Inv4 oom (some o') (L ++ [⟨j, .dowork i n m, if fin then 1 else 0, evs⟩]) := by
          intro k b evs1 hl ht
          obtain ⟨_, a2, a3, a4, a5, a6, _⟩ := sendLoop_rounds hl
          refine h.snoc (Nat.le_trans ?_ (grow _)) ?_ ht
          · simp only [pendingOf]; omega
          · rintro x hx _
            simp only [Option.some.injEq] at hx
            subst hx
            rw [a3, a4, a5, a6]
            exact who.snoc rfl
        rcases h1 with ⟨rfl, hl⟩ | ⟨e1, e2, rfl, hl, hr⟩
        · refine fin' hl ⟨by simp [Sock.Op.isSend], fun j' n' m' hj => ?_⟩
          simp only [Sock.Op.dowork.injEq] at hj
          obtain ⟨_, rfl, rfl⟩ := hj
          obtain ⟨a1, _, _, _, _, _, a7, a8⟩ := sendLoop_rounds hl
          refine ⟨fun _ => Or.inl ?_, fun _ => ⟨_, _, _, _, who, ?_⟩⟩
          · have := a1 rfl; dsimp only; omega
          · dsimp only; rw [a7, a8]; simp
        · refine fin' hl ⟨by simp [Sock.Op.isSend], fun j' n' m' hj => ?_⟩
          simp only [Sock.Op.dowork.injEq] at hj
          obtain ⟨_, rfl, rfl⟩ := hj
          obtain ⟨_, _, a3, a4, _, _, a7, a8⟩ := sendLoop_rounds hl
          obtain ⟨b1, b2⟩ := recvLoop_rounds hr
          have er : recvd (e1 ++ e2) = recvd e2 := by
            have : recvd (e1 ++ e2) = recvd e1 ++ recvd e2 := List.filterMap_append
            rw [this, a7, List.nil_append]
          have ed : deliveries (e1 ++ e2) = deliveries e2 := by
            have : deliveries (e1 ++ e2) = deliveries e1 ++ deliveries e2 := List.filterMap_append
            rw [this, a8, List.nil_append]
          dsimp only
          rw [er, ed]
          refine ⟨fun h0 => Or.inr (b1 ?_), fun _ => ⟨_, _, _, _, who, ?_⟩⟩
          · cases fin
            · rfl
            · simp at h0
          · rw [b2, a3, a4]

theorem told (h : Runs (step oom) ([], []) ops outs (as, log)) (i : Nat) {l1 l2 : Log} {e : Entry} (hl : ofPos i log = l1 ++ e :: l2) : Told oom l1 e := by
  have hp := at_pos (Inv := Inv4 oom) Inv4_new Inv4_step h i
  cases ha : as[i]? with
  | none =>
    have := hp.1 (List.getElem?_eq_none_iff.1 ha)
    rw [this] at hl; simp at hl
  | some a => exact (hp.2 a ha).2.2 l1 e l2 hl

/-- C97: if a send that reached the socket is refused, the error callback given to `socketio_open` was called, except when
the socket was busy and there was no memory to queue the bytes. -/
theorem failure_reported (h : Runs (step oom) ([], []) ops outs (as, log)) (i : Nat) {l1 l2 : Log} {e : Entry}
    (hl : ofPos i log = l1 ++ e :: l2) (hs : e.op.isSend = true) (hr : e.r ≠ 0) {fd : Int} {b : List UInt8} {n : Int} (hm : Ev.send fd b n ∈ e.evs) :
    ∃ f2 c2 f c, OpenedWith l1 f2 c2 f c ∧ ((oom ∧ Ev.lastError WSAEWOULDBLOCK ∈ e.evs) ∨ f = 0 ∨ Ev.error f c ∈ e.evs) :=
  (told h i hl).1 hs hr ⟨fd, b, n, hm⟩

/-- C97: every byte `socketio_dowork` receives is handed once, in order, to the callback given to `socketio_open`, and nothing else is. -/
theorem delivered (h : Runs (step oom) ([], []) ops outs (as, log)) (i : Nat) {l1 l2 : Log} {e : Entry}
    (hl : ofPos i log = l1 ++ e :: l2) {j n m : Nat} (hs : e.op = .dowork j n m) (hne : e.evs ≠ []) :
    ∃ f2 c2 f c, OpenedWith l1 f2 c2 f c ∧ deliveries e.evs = if f2 = 0 then [] else (recvd e.evs).map fun b => (f2, c2, [b]) :=
  ((told h i hl).2 j n m hs).2 hne

/-- C99: the only ways for `socketio_dowork` not to return: if it is still running after `n` rounds of sending and `m` of
receiving, the socket was busy at least `n` times less the number of sends accepted before, or `m` bytes arrived. -/
theorem dowork_rounds_partial (h : Runs (step oom) ([], []) ops outs (as, log)) (i : Nat) {l1 l2 : Log} {e : Entry}
    (hl : ofPos i log = l1 ++ e :: l2) {j n m : Nat} (hs : e.op = .dowork j n m) (hr : e.r = 0) :
    n ≤ (l1.filterMap Entry.sent).length + busy e.evs ∨ (recvd e.evs).length = m :=
  ((told h i hl).2 j n m hs).1 hr

end Verif.Sw
