import Verif.Curl.History
/-! # C66–C70: what every history of calls of `httpapi.h` does on libcurl -/
set_option linter.unusedSimpArgs false
namespace Verif.Curl
open Verif.Headers (Hdrs isLWS stored find StoreE okName)
open Verif.Buffer (Content)
open Verif.Sas (text)
variable {rel : Prop} {ops : List Op} {outs : List (Option Out)} {as : List (Option Obj)} {log : Log}

/-- effect of a call on an existing connection -/
def Eff (rel : Prop) (a : Option Obj) (c : Called) (a' : Option Obj) (evs : List Ev) : Prop :=
  match c with
  | .close => a' = none ∧ CloseE a evs
  | .setOption n b r => SetE n b a r a' ∧ evs = []
  | .request y r y' => (∃ p rh rcb, (rh = 0 ↔ y.rhdrs = none) ∧ ExecE rel p rh rcb a y r y' evs) ∧ a' = a
  | _ => False

/-- effect of a constructor -/
def New (rel : Prop) (c : Called) (a' : Option Obj) (evs : List Ev) : Prop :=
  match c with
  | .create host d => CreateE (¬ rel) host d evs ∧ a' = d.obj
  | _ => False

/-- effect of a call without a connection, after the calls `log` -/
def PlainE (rel : Prop) (log : Log) (c : Called) (evs : List Ev) : Prop :=
  match c with
  | .init r => ∃ n', InitE (users log) r n' evs
  | .deinit => ∃ n', DeinitE (users log) n' evs
  | .clone n b d r copy => CloneE (¬ rel) n b d r copy ∧ evs = []
  | _ => False

theorem step_cases {x x' : World} {op : Op} {o : Option Out} (h : step rel x op o x') :
    x' = x ∨ (∃ c evs, PlainE rel x.2 c evs ∧ x' = (x.1, x.2 ++ [⟨none, c, evs⟩])) ∨
    (∃ c a' evs, New rel c a' evs ∧ x' = (x.1 ++ [a'], x.2 ++ [⟨some x.1.length, c, evs⟩])) ∨
    ∃ i a c a' evs, x.1[i]? = some a ∧ Eff rel a c a' evs ∧ x' = (x.1.set i a', x.2 ++ [⟨some i, c, evs⟩]) := by
  cases op with
  | init =>
    obtain ⟨b, w, _, ⟨r, n', evs, h1, _, rfl⟩, rfl⟩ := h
    exact Or.inr (Or.inl ⟨.init r, evs, ⟨n', h1⟩, rfl⟩)
  | deinit =>
    obtain ⟨b, w, _, ⟨n', evs, h1, _, rfl⟩, rfl⟩ := h
    exact Or.inr (Or.inl ⟨.deinit, evs, ⟨n', h1⟩, rfl⟩)
  | clone n v out =>
    obtain ⟨b, w, _, ⟨b', d, r, copy, _, _, h1, _, rfl⟩, rfl⟩ := h
    exact Or.inr (Or.inl ⟨.clone n b' d r copy, [], ⟨h1, rfl⟩, rfl⟩)
  | create host =>
    obtain ⟨r, a', w', ho, ⟨c, evs, h1, _, h2, rfl⟩, rfl⟩ := h
    exact Or.inr (Or.inr (Or.inl ⟨.create host c, a', evs, ⟨h1, h2⟩, rfl⟩))
  | close i =>
    rcases h with ⟨_, hn, h⟩ | ⟨a, r, a', w', h1, ho, ⟨h2, h3, evs, h4, rfl⟩, rfl⟩
    · exact Or.inl h
    · exact Or.inr (Or.inr (Or.inr ⟨i, a, .close, a', evs, h1, ⟨h3, h4⟩, rfl⟩))
  | setOption i n v =>
    rcases h with ⟨_, hn, h⟩ | ⟨a, r, a', w', h1, ho, ⟨b, r', _, h4, h5, rfl⟩, rfl⟩
    · exact Or.inl h
    · exact Or.inr (Or.inr (Or.inr ⟨i, a, .setOption n b r', a', [], h1, ⟨h4, rfl⟩, rfl⟩))
  | request i type path hdrs content len status rhdrs rcontent =>
    rcases h with ⟨_, hn, h⟩ | ⟨a, r, a', w', h1, ho, ⟨y, p, rh, rcb, r', y', evs, _, h3, h4, h5, h6, rfl⟩, rfl⟩
    · exact Or.inl h
    · exact Or.inr (Or.inr (Or.inr ⟨i, a, .request y r' y', a', evs, h1, ⟨⟨p, rh, rcb, h3, h4⟩, h5⟩, rfl⟩))

theorem ofPos_snoc {i : Nat} {e : Entry} : ofPos i (log ++ [e]) = if e.pos = some i then ofPos i log ++ [e] else ofPos i log := by
  unfold ofPos
  rw [List.filter_append]
  by_cases h : e.pos = some i <;> simp [h]

theorem trace_append {l l' : Log} : trace (l ++ l') = trace l ++ trace l' := by simp [trace]

theorem snoc_split {α : Type} {l l1 l2 : List α} {e e' : α} (h : l ++ [e'] = l1 ++ e :: l2) : (l = l1 ∧ e' = e) ∨ ∃ l3, l = l1 ++ e :: l3 := by
  rcases List.eq_nil_or_concat l2 with rfl | ⟨l3, x, rfl⟩
  · have := List.append_inj' h rfl
    exact Or.inl ⟨this.1, by simpa using this.2⟩
  · refine Or.inr ⟨l3, ?_⟩
    have : l ++ [e'] = (l1 ++ e :: l3) ++ [x] := by simpa using h
    exact (List.append_inj' this rfl).1

/-- what is known of an entry when it is made, after the calls `l1` -/
def Known (rel : Prop) (Inv : Option Obj → Log → Prop) (l1 : Log) (e : Entry) : Prop :=
  match e.pos with
  | none => PlainE rel l1 e.call e.evs
  | some i => ((∃ a', New rel e.call a' e.evs) ∧ ofPos i l1 = []) ∨ ∃ a a', Inv a (ofPos i l1) ∧ Eff rel a e.call a' e.evs

/-- Induction over the life of each connection; what is known of each entry when it is made. -/
theorem at_pos {Inv : Option Obj → Log → Prop} (hnew : ∀ j c a' evs, New rel c a' evs → Inv a' [⟨some j, c, evs⟩])
    (hstep : ∀ j a L c a' evs, Inv a L → Eff rel a c a' evs → Inv a' (L ++ [⟨some j, c, evs⟩]))
    (h : Runs (step rel) ([], []) ops outs (as, log)) :
    (∀ i, (as.length ≤ i → ofPos i log = []) ∧ ∀ a, as[i]? = some a → Inv a (ofPos i log)) ∧
    ∀ l1 e l2, log = l1 ++ e :: l2 → Known rel Inv l1 e := by
  have gen : ∀ (x : World) ops outs x', Runs (step rel) x ops outs x' →
      ((∀ i, (x.1.length ≤ i → ofPos i x.2 = []) ∧ ∀ a, x.1[i]? = some a → Inv a (ofPos i x.2)) ∧
        ∀ l1 e l2, x.2 = l1 ++ e :: l2 → Known rel Inv l1 e) →
      ((∀ i, (x'.1.length ≤ i → ofPos i x'.2 = []) ∧ ∀ a, x'.1[i]? = some a → Inv a (ofPos i x'.2)) ∧
        ∀ l1 e l2, x'.2 = l1 ++ e :: l2 → Known rel Inv l1 e) := by
    intro x ops outs x' hr
    induction hr with
    | nil => exact id
    | cons h1 _ ih =>
      rintro ⟨hx, hx2⟩
      apply ih
      rcases step_cases h1 with rfl | ⟨c, evs, hN, rfl⟩ | ⟨c, a', evs, hN, rfl⟩ | ⟨j, a, c, a', evs, hj, hE, rfl⟩
      · exact ⟨hx, hx2⟩
      · refine ⟨fun i => ?_, fun l1 e l2 hl => ?_⟩
        · rw [ofPos_snoc, if_neg (by simp)]
          exact hx i
        · rcases snoc_split hl with ⟨rfl, rfl⟩ | ⟨l3, h⟩
          · exact hN
          · exact hx2 _ _ _ h
      · rename_i x op _ _ _ _ _
        refine ⟨fun i => ⟨fun hi => ?_, fun b hb => ?_⟩, fun l1 e l2 hl => ?_⟩
        · simp at hi
          rw [ofPos_snoc, if_neg (by simp; omega)]
          exact (hx i).1 (by omega)
        · rw [List.getElem?_append] at hb
          split at hb
          · rename_i hlt
            rw [ofPos_snoc, if_neg (by simp; omega)]
            exact (hx i).2 b hb
          · rename_i hge
            have : i = x.1.length := by
              rcases Nat.lt_or_ge (i - x.1.length) 1 with h | h
              · omega
              · rw [List.getElem?_eq_none (by simpa using h)] at hb; simp at hb
            subst this
            simp at hb
            subst hb
            rw [ofPos_snoc, if_pos rfl, (hx _).1 (Nat.le_refl _)]
            exact hnew _ _ _ _ hN
        · rcases snoc_split hl with ⟨rfl, rfl⟩ | ⟨l3, h⟩
          · exact Or.inl ⟨⟨a', hN⟩, (hx _).1 (Nat.le_refl _)⟩
          · exact hx2 _ _ _ h
      · rename_i x op _ _ _ _ _
        have hlt : j < x.1.length := (List.getElem?_eq_some_iff.1 hj).1
        refine ⟨fun i => ⟨fun hi => ?_, fun b hb => ?_⟩, fun l1 e l2 hl => ?_⟩
        · simp at hi
          rw [ofPos_snoc, if_neg (by simp; omega)]
          exact (hx i).1 hi
        · rw [List.getElem?_set] at hb
          by_cases hij : j = i
          · subst hij
            simp [hlt] at hb
            subst hb
            rw [ofPos_snoc, if_pos rfl]
            exact hstep _ _ _ _ _ _ ((hx j).2 a hj) hE
          · rw [if_neg hij] at hb
            rw [ofPos_snoc, if_neg (by simp [hij])]
            exact (hx i).2 b hb
        · rcases snoc_split hl with ⟨rfl, rfl⟩ | ⟨l3, h⟩
          · exact Or.inr ⟨a, a', (hx j).2 a hj, hE⟩
          · exact hx2 _ _ _ h
  exact gen _ _ _ _ h ⟨fun i => by simp [ofPos], by simp⟩

/-! ## What is known of each connection -/

def phase : Option Obj → Phase
  | none => .closed
  | some o => .open o.curl

theorem runs_append {p : Phase} {a b : List Ev} : runs p (a ++ b) = (runs p a).bind fun p' => runs p' b := by
  induction a generalizing p with
  | nil => rfl
  | cons e a ih =>
    simp only [List.cons_append, runs]
    cases next p e with
    | none => rfl
    | some q => simp [ih]

theorem runs_accepted {c : Nat} (plan : List Setting) : runs (.open c) (accepted c plan) = some (.open c) := by
  induction plan with
  | nil => rfl
  | cons s l ih => simpa [accepted, runs, next] using ih

theorem runs_refused {c : Nat} {plan : List Setting} {evs : List Ev} (h : Refused c plan evs) : runs (.open c) evs = some (.open c) := by
  obtain ⟨l1, s, l2, e, _, _, rfl⟩ := h
  rw [runs_append, runs_accepted]
  simp [runs, next]

theorem runs_pieces {c : Nat} (ps : List Piece) : runs (.running c) (ps.map (Piece.ev c)) = some (.running c) := by
  induction ps with
  | nil => rfl
  | cons p ps ih => cases p <;> simpa [runs, next, Piece.ev] using ih

theorem runs_sent {c : Nat} {q : Request} {x x' : Args} {r : Res} {evs : List Ev} (h : Sent rel c q x r x' evs) : runs (.open c) evs = some (.open c) := by
  obtain ⟨ps, e, tail, rh', st', rc', rfl, _, h, _⟩ := h
  have t : tail = [] ∨ ∃ e2 v, tail = [.code c e2 v] := by
    unfold Answered at h
    split at h
    · exact Or.inl h.2.2.2
    · obtain ⟨e2, v, h, _⟩ := h
      exact Or.inr ⟨e2, v, h⟩
  rw [List.append_assoc, List.append_assoc, runs_append]
  simp only [runs, next, Option.bind]
  rw [if_pos trivial]
  dsimp only
  rw [runs_append, runs_pieces]
  rcases t with rfl | ⟨e2, v, rfl⟩ <;> simp [runs, next]

theorem runs_exec {p : CharPtr} {rh rcb : Ptr} {a : Option Obj} {x x' : Args} {r : Res} {evs : List Ev} (h : ExecE rel p rh rcb a x r x' evs) :
    runs (phase a) evs = some (phase a) := by
  unfold ExecE at h
  split at h
  · split at h
    · rw [h.2.2]; rfl
    · rcases h with ⟨_, _, h, _⟩ | ⟨l, _, _, h⟩ | ⟨_, _, _, h⟩ | ⟨_, _, h, _⟩ | ⟨_, l, evs', h, hs⟩
      · rw [h]; rfl
      · exact runs_refused h
      · rw [h]; exact runs_accepted _
      · rw [h]; exact runs_accepted _
      · rw [h, runs_append]
        unfold phase
        rw [runs_accepted]
        exact runs_sent hs
  · rw [h.2.2]; rfl

/-- the options kept are the values given last -/
def Options (o : Obj) (L : Log) : Prop :=
  o.timeout = valueOf .timeout L ∧ o.limit = valueOf .limit L ∧ o.time = valueOf .time L ∧ o.forbid = valueOf .forbid L ∧
    o.fresh = valueOf .fresh L ∧ o.verbose = valueOf .verbose L

/-- a connection and the calls made on it -/
def Inv (a : Option Obj) (L : Log) : Prop :=
  runs .closed (trace L) = some (phase a) ∧ ∀ o, a = some o →
    o.curl ≠ 0 ∧ (∃ e ∈ L, e.call = .create (some o.host) (.good (fresh o.curl o.host)) ∧ e.evs = [.easyInit o.curl]) ∧ Options o L

theorem valueOf_snoc {n : Name} {L : Log} {e : Entry} : valueOf n (L ++ [e]) = (e.gives n).getD (valueOf n L) := by
  unfold valueOf
  rw [List.filterMap_append]
  cases h : e.gives n with
  | none => simp [h]
  | some v => simp [h]

theorem named_iff {t : Text} {n : Name} : named t = some n ↔ t = n.text := by
  constructor
  · intro h
    have := List.find?_some h
    exact (of_decide_eq_true this).symm
  · rintro rfl
    cases n <;> decide

theorem Inv_new (j : Nat) (c : Called) (a' : Option Obj) (evs : List Ev) (h : New rel c a' evs) : Inv a' [⟨some j, c, evs⟩] := by
  cases c with
  | create host d =>
    obtain ⟨h, rfl⟩ := h
    unfold CreateE at h
    cases host with
    | none =>
      obtain ⟨rfl, rfl⟩ := h
      exact ⟨rfl, by intro o ho; cases ho⟩
    | some t =>
      rcases h with ⟨rfl, _, rfl⟩ | ⟨rfl, _, rfl⟩ | ⟨rfl, rfl⟩ | ⟨c, hc, rfl, rfl⟩
      · exact ⟨rfl, by intro o ho; cases ho⟩
      · exact ⟨rfl, by intro o ho; cases ho⟩
      · exact ⟨rfl, by intro o ho; cases ho⟩
      · refine ⟨by simp [trace, runs, next, hc, phase, Conn.obj, fresh], ?_⟩
        intro o ho
        cases ho
        exact ⟨hc, ⟨_, List.mem_singleton_self _, rfl, rfl⟩, rfl, rfl, rfl, rfl, rfl, rfl⟩
  | _ => exact h.elim

theorem Inv_keep {j : Nat} {a : Option Obj} {L : Log} {c : Called} {evs : List Ev} (h : Inv a L) (h1 : runs (phase a) evs = some (phase a))
    (h2 : ∀ n, Entry.gives n ⟨some j, c, evs⟩ = none) : Inv a (L ++ [⟨some j, c, evs⟩]) := by
  refine ⟨?_, fun o ho => ?_⟩
  · rw [trace_append, runs_append, h.1]
    simpa [trace] using h1
  · obtain ⟨k1, ⟨e, he, he2⟩, k3⟩ := h.2 o ho
    refine ⟨k1, ⟨e, by simp [he], he2⟩, ?_⟩
    unfold Options at k3 ⊢
    simp only [valueOf_snoc, h2, Option.getD_none]
    exact k3

theorem Inv_step (j : Nat) (a : Option Obj) (L : Log) (c : Called) (a' : Option Obj) (evs : List Ev) (h : Inv a L) (hE : Eff rel a c a' evs) :
    Inv a' (L ++ [⟨some j, c, evs⟩]) := by
  cases c with
  | close =>
    obtain ⟨rfl, hE⟩ := hE
    refine ⟨?_, by intro o ho; cases ho⟩
    rw [trace_append, runs_append, h.1]
    unfold CloseE at hE
    subst hE
    cases a with
    | none => rfl
    | some o => simp [trace, runs, next, phase]
  | setOption n b r =>
    obtain ⟨hE, rfl⟩ := hE
    have keep : r = .invalidArg → a' = a → Inv a' (L ++ [⟨some j, .setOption n b r, []⟩]) := by
      rintro rfl rfl
      exact Inv_keep h rfl fun n => by simp [Entry.gives]
    unfold SetE at hE
    split at hE
    · rename_i o t v
      split at hE
      · rename_i m hm
        obtain ⟨rfl, rfl⟩ := hE
        rw [named_iff] at hm
        subst hm
        obtain ⟨k1, ⟨e, he, he2⟩, k3⟩ := h.2 o rfl
        refine ⟨?_, ?_⟩
        · rw [trace_append, runs_append, h.1]
          cases m <;> rfl
        · intro o' ho'
          cases ho'
          have e1 : (o.put m v).curl = o.curl := by cases m <;> rfl
          have e2 : (o.put m v).host = o.host := by cases m <;> rfl
          rw [e1, e2]
          refine ⟨k1, ⟨e, by simp [he], he2⟩, ?_⟩
          have inj : ∀ n : Name, n.text = m.text ↔ n = m := by
            intro n; constructor
            · intro h; cases n <;> cases m <;> first | rfl | (revert h; decide)
            · rintro rfl; rfl
          have g : ∀ n : Name, Entry.gives n ⟨some j, .setOption (some m.text) (some v) .ok, []⟩ = if n = m then some (m.value v) else none := by
            intro n
            simp only [Entry.gives, eq_comm (a := m.text), inj]
            split
            · rename_i h; rw [h]
            · rfl
          unfold Options at k3 ⊢
          simp only [valueOf_snoc, g]
          cases m <;> simp [Obj.put, k3]
      · exact keep hE.1 hE.2
    · exact keep hE.1 hE.2
  | request y r y' =>
    obtain ⟨⟨p, rh, rcb, _, hE⟩, rfl⟩ := hE
    exact Inv_keep h (runs_exec hE) fun n => rfl
  | _ => exact hE.elim

theorem invariant (h : Runs (step rel) ([], []) ops outs (as, log)) :
    (∀ i, (as.length ≤ i → ofPos i log = []) ∧ ∀ a, as[i]? = some a → Inv a (ofPos i log)) ∧
    ∀ l1 e l2, log = l1 ++ e :: l2 → Known rel Inv l1 e :=
  at_pos Inv_new Inv_step h

theorem request_entry (h : Runs (step rel) ([], []) ops outs (as, log)) {l1 l2 : Log} {p : Option Nat} {y y' : Args} {r : Res} {evs : List Ev}
    (hl : log = l1 ++ ⟨p, .request y r y', evs⟩ :: l2) :
    ∃ i a q rh rcb, p = some i ∧ Inv a (ofPos i l1) ∧ (rh = 0 ↔ y.rhdrs = none) ∧ ExecE rel q rh rcb a y r y' evs := by
  have k := (invariant h).2 _ _ _ hl
  unfold Known at k
  split at k
  · exact k.elim
  · rename_i i _
    rcases k with ⟨⟨a', k⟩, _⟩ | ⟨a, a', k1, ⟨⟨q, rh, rcb, k2, k3⟩, _⟩⟩
    · exact k.elim
    · exact ⟨i, a, q, rh, rcb, by assumption, k1, k2, k3⟩

/-! ## C66: the request that is sent -/

/-- A request as it should be sent: on the connection to `host`, with the path, headers and content of the call and the options `L` -/
def Faithful (host : Text) (L : Log) (x : Args) (q : Request) : Prop :=
  ∃ path hs, x.path = some path ∧ x.hdrs = some hs ∧
    q.url = text "https://" ++ host ++ path ∧ q.verb = verbOf x.type x.body ∧ q.headers = (allLines hs).filter shown ∧ q.body = x.body ∧
    q.timeout = toLong (valueOf .timeout L) ∧ q.lowLimit = toLong (valueOf .limit L) ∧ q.lowTime = toLong (valueOf .time L) ∧
    q.fresh = toLong (valueOf .fresh L) ∧ q.forbid = toLong (valueOf .forbid L) ∧ q.verbose = toLong (valueOf .verbose L) ∧ q.version = 2

theorem accepted_perform {c : Nat} {plan : List Setting} : ∀ e ∈ accepted c plan, e.isPerform = false := by
  intro e he
  obtain ⟨s, _, rfl⟩ := List.mem_map.1 he
  rfl

theorem refused_perform {c : Nat} {plan : List Setting} {evs : List Ev} (h : Refused c plan evs) : ∀ e ∈ evs, e.isPerform = false := by
  obtain ⟨l1, s, l2, e, _, _, rfl⟩ := h
  intro e he
  rcases List.mem_append.1 he with h | h
  · exact accepted_perform e h
  · simp at h; subst h; rfl

theorem pieces_perform {c : Nat} {ps : List Piece} : ∀ e ∈ ps.map (Piece.ev c), e.isPerform = false := by
  intro e he
  obtain ⟨s, _, rfl⟩ := List.mem_map.1 he
  cases s <;> rfl

theorem tail_cases {c : Nat} {ps : List Piece} {e : Int} {st st' : Option Val} {rc rc' : Option Content} {r : Res} {tail : List Ev}
    (h : Answered rel c ps e st rc r st' rc' tail) : (e ≠ 0 ∧ tail = []) ∨ (e = 0 ∧ ∃ e2 v, tail = [.code c e2 v]) := by
  unfold Answered at h
  split at h
  · rename_i he; exact Or.inl ⟨he, h.2.2.2⟩
  · rename_i he
    obtain ⟨e2, v, h, _⟩ := h
    exact Or.inr ⟨by simpa using he, e2, v, h⟩

/-- nothing is sent, or the request of the arguments is -/
theorem exec_cases {p : CharPtr} {rh rcb : Ptr} {a : Option Obj} {x x' : Args} {r : Res} {evs : List Ev} (h : ExecE rel p rh rcb a x r x' evs) :
    (r ≠ .ok ∧ x' = x ∧ ∀ e ∈ evs, e.isPerform = false) ∨
    ∃ o path hs plan evs', a = some o ∧ x.path = some path ∧ x.hdrs = some hs ∧ x.type < 5 ∧ evs = accepted o.curl plan ++ evs' ∧
      Sent rel o.curl (wanted o path hs x) x r x' evs' := by
  unfold ExecE at h
  split at h
  · rename_i o path hs hp hh
    split at h
    · exact Or.inl ⟨by rw [h.1]; simp, h.2.1, by rw [h.2.2]; simp⟩
    · rcases h with ⟨h1, h2, h, _⟩ | ⟨l, h1, h2, h⟩ | ⟨_, h1, h2, h⟩ | ⟨_, h2, h, h1⟩ | ⟨h5, l, evs', h, hs⟩
      · exact Or.inl ⟨by rw [h1]; simp, h2, by rw [h]; simp⟩
      · exact Or.inl ⟨by rw [h1]; simp, h2, refused_perform h⟩
      · exact Or.inl ⟨by rw [h1]; simp, h2, by rw [h]; exact accepted_perform⟩
      · refine Or.inl ⟨?_, h2, by rw [h]; exact accepted_perform⟩
        rcases h1 with ⟨h, _⟩ | ⟨h, _⟩ <;> rw [h] <;> simp
      · exact Or.inr ⟨o, path, _, _, evs', rfl, hp, hh, h5, h, hs⟩
  · exact Or.inl ⟨by rw [h.1]; simp, h.2.1, by rw [h.2.2]; simp⟩

theorem plain_perform {log : Log} {c : Called} {evs : List Ev} (h : PlainE rel log c evs) : ∀ e ∈ evs, e.isPerform = false := by
  cases c with
  | init r =>
    obtain ⟨n', k⟩ := h
    unfold InitE at k
    split at k
    · rcases k with ⟨_, _, _, _, rfl⟩ | ⟨_, _, rfl⟩ <;> simp [Ev.isPerform]
    · rw [k.2.2]; simp
  | deinit =>
    obtain ⟨n', _, rfl⟩ := h
    split <;> simp [Ev.isPerform]
  | clone _ _ _ _ _ => rw [h.2]; simp
  | _ => exact h.elim

theorem new_perform {c : Called} {a' : Option Obj} {evs : List Ev} (h : New rel c a' evs) : ∀ e ∈ evs, e.isPerform = false := by
  cases c with
  | create host d =>
    obtain ⟨k, _⟩ := h
    unfold CreateE at k
    split at k
    · rw [k.2]; simp
    · rcases k with ⟨_, _, rfl⟩ | ⟨_, _, rfl⟩ | ⟨_, rfl⟩ | ⟨_, _, _, rfl⟩ <;> simp [Ev.isPerform]
  | _ => exact h.elim

theorem eff_perform {a : Option Obj} {c : Called} {a' : Option Obj} {evs : List Ev} (h : Eff rel a c a' evs) (hc : ∀ y r y', c ≠ .request y r y') :
    ∀ e ∈ evs, e.isPerform = false := by
  cases c with
  | close =>
    obtain ⟨_, k⟩ := h
    unfold CloseE at k
    subst k
    split <;> simp [Ev.isPerform]
  | setOption _ _ _ => rw [h.2]; simp
  | request y r y' => exact absurd rfl (hc y r y')
  | _ => exact h.elim

/-- C66: Every request libcurl is made to send is sent by a request call on a connection, on the easy handle obtained when it was
made, and it is the request of the arguments: it does not depend on other requests, before or after, on this or other connections. -/
theorem request_faithful (h : Runs (step rel) ([], []) ops outs (as, log)) {l1 l2 : Log} {e : Entry} (hl : log = l1 ++ e :: l2)
    {c : Nat} {q : Request} (hq : .perform c q ∈ e.evs) :
    ∃ i x r x' host, e.pos = some i ∧ e.call = .request x r x' ∧ ⟨some i, .create (some host) (.good (fresh c host)), [.easyInit c]⟩ ∈ l1 ∧
      Faithful host (ofPos i l1) x q ∧ (x.content = none → x.len = 0) := by
  have none' : ∀ {l : List Ev}, (∀ e ∈ l, e.isPerform = false) → .perform c q ∉ l := fun h hm => by simpa [Ev.isPerform] using h _ hm
  obtain ⟨pos, call, evs⟩ := e
  cases call with
  | request x r x' =>
    obtain ⟨i, a, p, rh, rcb, rfl, hI, _, hE⟩ := request_entry h hl
    dsimp only at hq
    have hlen : x.content = none → x.len = 0 := by
      intro hn
      unfold ExecE at hE
      split at hE
      · split at hE
        · rw [hE.2.2] at hq; simp at hq
        · rename_i hc; rw [hn] at hc; simpa using hc
      · rw [hE.2.2] at hq; simp at hq
    rcases exec_cases hE with ⟨_, _, hn⟩ | ⟨o, path, hs, plan, evs', rfl, hp, hh, h5, rfl, hS⟩
    · exact absurd hq (none' hn)
    · obtain ⟨k1, ⟨e, he, he2, he3⟩, ko⟩ := hI.2 o rfl
      have hq2 : (.perform c q : Ev) = .perform o.curl (wanted o path hs x) := by
        rcases List.mem_append.1 hq with h | h
        · exact absurd h (none' accepted_perform)
        · obtain ⟨ps, e, tail, rh', st', rc', rfl, _, hA, _⟩ := hS
          rcases List.mem_append.1 h with h | h
          · rcases List.mem_append.1 h with h | h
            · rcases List.mem_append.1 h with h | h
              · simpa using h
              · exact absurd h (none' pieces_perform)
            · simp at h
          · rcases tail_cases hA with ⟨_, rfl⟩ | ⟨_, e2, v, rfl⟩ <;> simp at h
      obtain ⟨rfl, rfl⟩ : c = o.curl ∧ q = wanted o path hs x := by simpa using hq2
      obtain ⟨t1, t2, t3, t4, t5, t6⟩ := ko
      refine ⟨i, x, r, x', o.host, rfl, rfl, ?_, ⟨path, hs, hp, hh, rfl, rfl, rfl, rfl, ?_⟩, hlen⟩
      · unfold ofPos at he
        obtain ⟨he, hpos⟩ := List.mem_filter.1 he
        have hpos := of_decide_eq_true hpos
        obtain ⟨p1, p2, p3⟩ := e
        dsimp only at hpos he2 he3
        subst hpos; subst he2; subst he3
        exact he
      · rw [← t1, ← t2, ← t3, ← t4, ← t5, ← t6]
        exact ⟨rfl, rfl, rfl, rfl, rfl, rfl, rfl⟩
  | _ =>
    exfalso
    have k := (invariant h).2 _ _ _ hl
    unfold Known at k
    dsimp only at hq k
    split at k
    · exact none' (plain_perform k) hq
    · rcases k with ⟨⟨a', k⟩, _⟩ | ⟨a, a', k1, k⟩
      · exact none' (new_perform k) hq
      · exact none' (eff_perform k (by intro y r y' h; cases h)) hq

/-- C66: at most one request is sent by a call; with the result `HTTPAPI_OK` exactly one, and libcurl has performed it. -/
theorem request_once (h : Runs (step rel) ([], []) ops outs (as, log)) {l1 l2 : Log} {p : Option Nat} {x x' : Args} {r : Res} {evs : List Ev}
    (hl : log = l1 ++ ⟨p, .request x r x', evs⟩ :: l2) :
    evs.countP Ev.isPerform ≤ 1 ∧ (r = .ok → evs.countP Ev.isPerform = 1 ∧ ∃ c, .done c 0 ∈ evs) := by
  obtain ⟨i, a, q, rh, rcb, rfl, hI, _, hE⟩ := request_entry h hl
  have zero : ∀ {l : List Ev}, (∀ e ∈ l, e.isPerform = false) → l.countP Ev.isPerform = 0 := fun h => by
    rw [List.countP_eq_zero]; intro e he; rw [h e he]; simp
  rcases exec_cases hE with ⟨hr, _, hn⟩ | ⟨o, path, hs, plan, evs', rfl, hp, hh, h5, rfl, ps, e, tail, rh', st', rc', rfl, _, hA, _⟩
  · rw [zero hn]; exact ⟨by omega, fun h => absurd h hr⟩
  · have e1 : ((accepted o.curl plan ++ ([Ev.perform o.curl (wanted o path hs x)] ++ ps.map (Piece.ev o.curl) ++ [Ev.done o.curl e] ++ tail)).countP Ev.isPerform) = 1 := by
      simp only [List.countP_append, zero accepted_perform, zero pieces_perform]
      rcases tail_cases hA with ⟨_, rfl⟩ | ⟨_, e2, v, rfl⟩ <;> simp [Ev.isPerform, List.countP_cons]
    rw [e1]
    refine ⟨Nat.le_refl _, fun hr => ⟨rfl, o.curl, ?_⟩⟩
    unfold Answered at hA
    split at hA
    · rw [hA.1] at hr; cases hr
    · rename_i he
      have : e = 0 := by simpa using he
      subst this
      simp

/-- C66: the verb is the name of the method, except that a `GET` with content becomes a `POST`. -/
theorem verb_partial {type : Nat} {body : Text} (h : ¬ (type = 0 ∧ body ≠ [])) : verbOf type body = verbName type := by
  match type with
  | 0 => simp at h; simp [verbOf, verbName, h]
  | 1 => rfl
  | 2 => rfl
  | 3 => rfl
  | n + 4 => rfl

/-- C66: all headers are sent if none has a blank value. -/
theorem headers_partial {hs : Hdrs} (hn : ∀ p ∈ hs, 58 ∉ p.1) (h : ∀ p ∈ hs, p.2.any (fun c => !isSpace c) = true) :
    (allLines hs).filter shown = allLines hs := by
  rw [List.filter_eq_self]
  intro l hl
  obtain ⟨p, hp, rfl⟩ := List.mem_map.1 hl
  unfold shown
  have e : ∀ n : Text, 58 ∉ n → ∀ t, (n ++ 58 :: t).dropWhile (fun c : UInt8 => decide (c ≠ 58)) = 58 :: t := by
    intro n
    induction n with
    | nil => intro _ t; simp
    | cons c n ih =>
      intro hc t
      simp at hc
      have : c ≠ 58 := fun h => hc.1 h.symm
      simp only [List.cons_append, List.dropWhile_cons, this, ne_eq, not_false_eq_true, decide_true, if_true]
      exact ih hc.2 t
  have := e p.1 (hn p hp) (32 :: p.2)
  simp only [List.append_assoc, List.cons_append, List.nil_append, ne_eq] at this ⊢
  rw [this]
  simp only [List.drop_succ_cons, List.drop_zero, List.any_cons, h p hp, Bool.or_true]

/-! ## C67: the response -/

theorem absorbs_merged (hr : rel) {l : List (Text × Text)} {hs hs' : Hdrs} (h : Absorbs rel l hs hs') (hf : Fits hs l) : hs' = merged hs l := by
  induction h with
  | nil => rfl
  | @cons n v l hs hs1 hs2 r h1 h2 ih =>
    have f0 := hf [] (n, v) l rfl
    have e : hs1 = if okName n then stored false hs n (v.dropWhile isLWS) else hs := by
      unfold StoreE at h1
      dsimp only at h1
      split at h1
      · rename_i ho
        rw [if_pos ho]
        rcases h1 with ⟨_, h⟩ | ⟨_, _, h | h | ⟨old, h, h'⟩⟩
        · simpa using h
        · exact absurd hr h
        · have := f0.1; simp [merged] at this; omega
        · have := f0.2 old (by simpa [merged] using h); dsimp only at this; omega
      · rename_i ho
        rw [if_neg ho]
        simpa using h1.2
    have e2 : ∀ l1, merged hs ((n, v) :: l1) = merged hs1 l1 := by
      intro l1
      unfold merged
      rw [List.foldl_cons, ← e]
    rw [e2]
    refine ih fun l1 p l2 hl => ?_
    have := hf ((n, v) :: l1) p l2 (by rw [hl]; rfl)
    rwa [e2] at this

/-- C67: A call with the result `HTTPAPI_OK`: libcurl reported success for the request and then the status code `v`.  The status is
`v`; the headers of the response have been added to those of the client, in order of arrival; the response buffer holds the body, all
pieces in order; an empty body leaves the buffer as it was; if memory is refused, the buffer may be left as it was although there is a
body (if `v` is below 300). -/
theorem response_ok (h : Runs (step rel) ([], []) ops outs (as, log)) {l1 l2 : Log} {p : Option Nat} {x x' : Args} {evs : List Ev}
    (hl : log = l1 ++ ⟨p, .request x .ok x', evs⟩ :: l2) :
    ∃ c q plan ps v, evs = accepted c plan ++ [.perform c q] ++ ps.map (Piece.ev c) ++ [.done c 0, .code c 0 v] ∧
      x'.status = x.status.map (fun _ => Sock.intV v) ∧
      (match x.rhdrs with
        | some h => ∃ h', x'.rhdrs = some h' ∧ Absorbs rel (allHeaders ps) h h' ∧ (rel → Fits h (allHeaders ps) → h' = merged h (allHeaders ps))
        | none => x'.rhdrs = none ∧ ∀ bs, Piece.header bs ∉ ps) ∧
      (x'.rcontent = x.rcontent.map (fun c => if bodyOf ps = [] then c else some (bytesV (bodyOf ps))) ∨
        (¬ rel ∧ v < 300 ∧ x'.rcontent = x.rcontent)) ∧
      x'.path = x.path ∧ x'.hdrs = x.hdrs ∧ x'.content = x.content := by
  obtain ⟨i, a, q, rh, rcb, rfl, hI, _, hE⟩ := request_entry h hl
  obtain ⟨s1, s2, s3, _⟩ := hE.same
  rcases exec_cases hE with ⟨hr, _, hn⟩ | ⟨o, path, hs, plan, evs', rfl, hp, hh, h5, rfl, ps, e, tail, rh', st', rc', rfl, hR, hA, rfl⟩
  · exact absurd rfl hr
  · unfold Answered at hA
    split at hA
    · cases hA.1
    · rename_i he
      have : e = 0 := by simpa using he
      subst this
      obtain ⟨e2, v, rfl, hA⟩ := hA
      split at hA
      · cases hA.1
      · rename_i he
        have : e2 = 0 := by simpa using he
        subst this
        refine ⟨o.curl, wanted o path hs x, plan, ps, v, by simp, ?_, ?_, ?_, s1, s2, s3⟩
        · rcases hA with ⟨h, _⟩ | ⟨h, _⟩
          · cases h
          · exact h
        · dsimp only
          cases hx : x.rhdrs with
          | none => rw [hx] at hR; exact hR
          | some hh =>
            rw [hx] at hR
            obtain ⟨h', e, k⟩ := hR
            exact ⟨h', e, k, fun hr hf => absorbs_merged hr k hf⟩
        · dsimp only
          rcases hA with ⟨h, _⟩ | ⟨_, ⟨_, h⟩ | ⟨_, _, k1, k2, k3⟩⟩
          · cases h
          · exact Or.inl h
          · refine Or.inr ⟨k1, ?_, k2⟩
            split at k3
            · cases k3
            · omega

/-- C67: what the other results mean for the client's objects: the status and the buffer are as before (`HTTPAPI_INSUFFICIENT_RESPONSE_BUFFER`:
the status was received); request failed, headers not queried, no memory: see the list.  The arguments that are only read never change. -/
theorem response_failed (h : Runs (step rel) ([], []) ops outs (as, log)) {l1 l2 : Log} {p : Option Nat} {x x' : Args} {r : Res} {evs : List Ev}
    (hl : log = l1 ++ ⟨p, .request x r x', evs⟩ :: l2) (hr : r ≠ .ok) :
    x'.rcontent = x.rcontent ∧ x'.path = x.path ∧ x'.hdrs = x.hdrs ∧ x'.content = x.content ∧
    ((r = .openRequestFailed ∧ x'.status = x.status ∧ ∃ c e, e ≠ 0 ∧ .done c e ∈ evs) ∨
     (r = .queryHeadersFailed ∧ x'.status = x.status ∧ ∃ c e v, e ≠ 0 ∧ .code c e v ∈ evs) ∨
     (r = .readDataFailed ∧ x'.status = x.status ∧ ¬ rel) ∨
     (r = .insufficientResponseBuffer ∧ ¬ rel ∧ ∃ c v, v ≥ 300 ∧ .code c 0 v ∈ evs ∧ x'.status = x.status.map fun _ => Sock.intV v) ∨
     (x' = x ∧ ∀ c q, .perform c q ∉ evs)) := by
  obtain ⟨i, a, q, rh, rcb, rfl, hI, _, hE⟩ := request_entry h hl
  obtain ⟨s1, s2, s3, _⟩ := hE.same
  rcases exec_cases hE with ⟨_, rfl, hn⟩ | ⟨o, path, hs, plan, evs', rfl, hp, hh, h5, rfl, ps, e, tail, rh', st', rc', rfl, hR, hA, rfl⟩
  · exact ⟨rfl, rfl, rfl, rfl, Or.inr (Or.inr (Or.inr (Or.inr ⟨rfl, fun c q hm => by simpa [Ev.isPerform] using hn _ hm⟩)))⟩
  · unfold Answered at hA
    dsimp only at s1 s2 s3 ⊢
    split at hA
    · rename_i he
      exact ⟨hA.2.2.1, rfl, rfl, rfl, Or.inl ⟨hA.1, hA.2.1, o.curl, e, he, by simp⟩⟩
    · obtain ⟨e2, v, rfl, hA⟩ := hA
      split at hA
      · rename_i he
        exact ⟨hA.2.2, rfl, rfl, rfl, Or.inr (Or.inl ⟨hA.1, hA.2.1, o.curl, e2, v, he, by simp⟩)⟩
      · rename_i he
        have : e2 = 0 := by simpa using he
        subst this
        rcases hA with ⟨k1, k2, k3, _, k4⟩ | ⟨k1, ⟨k2, _⟩ | ⟨_, _, k2, k3, k4⟩⟩
        · exact ⟨k3, rfl, rfl, rfl, Or.inr (Or.inr (Or.inl ⟨k1, k2, k4⟩))⟩
        · exact absurd k2 hr
        · split at k4
          · rename_i hv
            exact ⟨k3, rfl, rfl, rfl, Or.inr (Or.inr (Or.inr (Or.inl ⟨k4, k2, o.curl, v, hv, by simp, k1⟩)))⟩
          · exact absurd k4 hr

/-! ## C68: options -/

/-- C68: an option is accepted exactly if the connection, its name and its value are given and the name is one of the six; it then is
the value of that option for all later requests (`request_faithful`); nothing is asked of libcurl. -/
theorem option_result (h : Runs (step rel) ([], []) ops outs (as, log)) {l1 l2 : Log} {i : Nat} {n : Option Text} {v : Option Nat} {r : Res} {evs : List Ev}
    (hl : log = l1 ++ ⟨some i, .setOption n v r, evs⟩ :: l2) :
    evs = [] ∧ (r = .ok ∨ r = .invalidArg) ∧
    (r = .ok → ∃ (m : Name) (w : Nat), n = some m.text ∧ v = some w ∧ ∀ k : Name, valueOf k (ofPos i l1 ++ [⟨some i, .setOption n v r, evs⟩]) =
      if k = m then m.value w else valueOf k (ofPos i l1)) ∧
    (r = .invalidArg → n = none ∨ v = none ∨ (∀ m : Name, n ≠ some m.text) ∨ runs .closed (trace (ofPos i l1)) = some .closed) := by
  have k := (invariant h).2 _ _ _ hl
  unfold Known at k
  dsimp only at k
  rcases k with ⟨⟨a', k⟩, _⟩ | ⟨a, a', k1, k2, rfl⟩
  · exact k.elim
  · refine ⟨rfl, ?_⟩
    unfold SetE at k2
    split at k2
    · rename_i o t w
      cases hm : named t with
      | some m =>
        rw [hm] at k2
        obtain ⟨rfl, _⟩ := k2
        rw [named_iff] at hm
        subst hm
        refine ⟨Or.inl rfl, fun _ => ⟨m, w, rfl, rfl, fun k => ?_⟩, fun h => by cases h⟩
        rw [valueOf_snoc]
        have inj : k.text = m.text ↔ k = m := by
          constructor
          · intro h; cases k <;> cases m <;> first | rfl | (revert h; decide)
          · rintro rfl; rfl
        simp only [Entry.gives, eq_comm (a := m.text), inj]
        split
        · rename_i h; rw [h]; rfl
        · rfl
      | none =>
        rw [hm] at k2
        obtain ⟨rfl, _⟩ := k2
        refine ⟨Or.inr rfl, fun h => (by cases h), fun _ => Or.inr (Or.inr (Or.inl fun m hm' => ?_))⟩
        have : t = m.text := by simpa using hm'
        rw [named_iff.2 this] at hm
        cases hm
    · rename_i hno
      obtain ⟨rfl, _⟩ := k2
      refine ⟨Or.inr rfl, fun h => (by cases h), fun _ => ?_⟩
      cases a with
      | none => exact Or.inr (Or.inr (Or.inr k1.1))
      | some o =>
        cases n with
        | none => exact Or.inl rfl
        | some t =>
          cases v with
          | none => exact Or.inr (Or.inl rfl)
          | some w => exact absurd rfl (hno o t w rfl rfl)

/-- C68: a copy of an option's value is the value that setting the option would keep; setting the option to the copy does the same. -/
theorem clone_result (h : Runs (step rel) ([], []) ops outs (as, log)) {l1 l2 : Log} {p : Option Nat} {n : Option Text} {v : Option Nat} {out : Bool} {r : Res}
    {copy : Option Nat} {evs : List Ev} (hl : log = l1 ++ ⟨p, .clone n v out r copy, evs⟩ :: l2) :
    evs = [] ∧ (r ≠ .ok → copy = none) ∧
    (r = .ok → ∃ (m : Name) (w : Nat), n = some m.text ∧ v = some w ∧ copy = some (m.value w) ∧ ∀ o : Obj, o.put m (m.value w) = o.put m w) ∧
    (rel → n ≠ none → v ≠ none → out = true → (r = .ok ↔ ∃ m : Name, n = some m.text)) := by
  have k := (invariant h).2 _ _ _ hl
  unfold Known at k
  dsimp only at k
  have idem : ∀ (m : Name) (w : Nat) (o : Obj), o.put m (m.value w) = o.put m w := by
    intro m w o
    cases m <;> simp [Obj.put, Name.value]
  split at k
  · obtain ⟨k, rfl⟩ := k
    refine ⟨rfl, ?_⟩
    unfold CloneE at k
    split at k
    · rename_i t w
      cases hm : named t with
      | some m =>
        rw [hm] at k
        have ht := named_iff.1 hm
        subst ht
        rcases k with ⟨rfl, rfl⟩ | ⟨rfl, rfl, ho⟩
        · exact ⟨fun h => absurd rfl h, fun _ => ⟨m, w, rfl, rfl, rfl, idem m w⟩, fun _ _ _ _ => ⟨fun _ => ⟨m, rfl⟩, fun _ => rfl⟩⟩
        · exact ⟨fun _ => rfl, fun h => (by cases h), fun hr => absurd hr ho⟩
      | none =>
        rw [hm] at k
        obtain ⟨rfl, rfl⟩ := k
        refine ⟨fun _ => rfl, fun h => (by cases h), fun _ _ _ _ => ⟨fun h => (by cases h), ?_⟩⟩
        rintro ⟨m, h⟩
        rw [named_iff.2 (by simpa using h)] at hm
        cases hm
    · rename_i hno
      obtain ⟨rfl, rfl⟩ := k
      refine ⟨fun _ => rfl, fun h => (by cases h), fun _ h1 h2 h3 => ?_⟩
      obtain ⟨t, rfl⟩ := Option.ne_none_iff_exists'.1 h1
      obtain ⟨w, rfl⟩ := Option.ne_none_iff_exists'.1 h2
      exact absurd h3 (fun h => hno t w rfl rfl h)
  · rcases k with ⟨⟨a', k⟩, _⟩ | ⟨a, a', _, k⟩ <;> exact k.elim

/-! ## C69: initialisation is counted -/

theorem runs_global {p p' : Phase} {evs : List Ev} (h : runs p evs = some p') : ∀ e ∈ evs, e ≠ .globalCleanup ∧ ∀ r, e ≠ .globalInit r := by
  induction evs generalizing p with
  | nil => simp
  | cons e evs ih =>
    simp only [runs] at h
    cases hn : next p e with
    | none => simp [hn] at h
    | some q =>
      simp only [hn, Option.bind_some] at h
      intro e' he'
      rcases List.mem_cons.1 he' with rfl | he'
      · cases e' <;> first | (cases p <;> cases hn; done) | simp
      · exact ih h e' he'

theorem Eff_runs {a a' : Option Obj} {c : Called} {evs : List Ev} {L : Log} (h : Inv a L) (hE : Eff rel a c a' evs) : runs (phase a) evs = some (phase a') := by
  have := (Inv_step 0 a L c a' evs h hE).1
  rw [trace_append, runs_append, h.1] at this
  simpa [trace] using this

theorem New_runs {a' : Option Obj} {c : Called} {evs : List Ev} (hE : New rel c a' evs) : runs .closed evs = some (phase a') := by
  have := (Inv_new 0 c a' evs hE).1
  simpa [trace] using this

/-- C69: libcurl is initialised only by a call of `HTTPAPI_Init` when there is no user, and cleaned up only by a call of `HTTPAPI_Deinit`
of the last user; the result of an initialisation is libcurl's, or success without calling it if there are users. -/
theorem global_calls (h : Runs (step rel) ([], []) ops outs (as, log)) {l1 l2 : Log} {e : Entry} (hl : log = l1 ++ e :: l2) :
    (∀ r, .globalInit r ∈ e.evs → users l1 = 0 ∧ e.evs = [.globalInit r] ∧ e.call = .init (if r = 0 then .ok else .initFailed)) ∧
    (.globalCleanup ∈ e.evs → users l1 = 1 ∧ e.evs = [.globalCleanup] ∧ e.call = .deinit) ∧
    (∀ r, e.call = .init r → (users l1 = 0 → ∃ x, e.evs = [.globalInit x]) ∧ (users l1 ≠ 0 → r = .ok ∧ e.evs = [])) ∧
    (e.call = .deinit → users l1 = 1 → e.evs = [.globalCleanup]) := by
  have k := (invariant h).2 _ _ _ hl
  unfold Known at k
  split at k
  · obtain ⟨pos, call, evs⟩ := e
    dsimp only at k ⊢
    cases call with
    | init r =>
      obtain ⟨n', k⟩ := k
      unfold InitE at k
      split at k
      · rename_i h0
        rcases k with ⟨x, hx, rfl, _, rfl⟩ | ⟨rfl, _, rfl⟩
        · refine ⟨?_, by simp, ?_, by simp⟩
          · intro r hr; simp at hr; subst hr; exact ⟨h0, rfl, by rw [if_neg hx]⟩
          · intro r _; exact ⟨fun _ => ⟨x, rfl⟩, fun h => absurd h0 h⟩
        · refine ⟨?_, by simp, ?_, by simp⟩
          · intro r hr; simp at hr; subst hr; exact ⟨h0, rfl, rfl⟩
          · intro r _; exact ⟨fun _ => ⟨0, rfl⟩, fun h => absurd h0 h⟩
      · rename_i h0
        obtain ⟨rfl, _, rfl⟩ := k
        refine ⟨by simp, by simp, ?_, by simp⟩
        intro r hr; cases hr; exact ⟨fun h => absurd h h0, fun _ => ⟨rfl, rfl⟩⟩
    | deinit =>
      obtain ⟨n', _, rfl⟩ := k
      split
      · rename_i h1; exact ⟨by simp, fun _ => ⟨h1, rfl, rfl⟩, by simp, fun _ _ => rfl⟩
      · rename_i h1; exact ⟨by simp, by simp, by simp, fun _ h => absurd h h1⟩
    | clone n b d r copy =>
      obtain ⟨_, rfl⟩ := k
      exact ⟨by simp, by simp, by simp, by simp⟩
    | create _ _ => exact k.elim
    | close => exact k.elim
    | setOption _ _ _ => exact k.elim
    | request _ _ _ => exact k.elim
  · have t : ∃ p p', runs p e.evs = some p' := by
      rcases k with ⟨⟨a', k⟩, _⟩ | ⟨a, a', k1, k⟩
      · exact ⟨_, _, New_runs k⟩
      · exact ⟨_, _, Eff_runs k1 k⟩
    obtain ⟨p, p', t⟩ := t
    have g := runs_global t
    have hc : (∀ r, e.call ≠ .init r) ∧ e.call ≠ .deinit := by
      rcases k with ⟨⟨a', k⟩, _⟩ | ⟨a, a', k1, k⟩
      · unfold New at k; split at k
        · rename_i he; rw [he]; simp
        · exact k.elim
      · unfold Eff at k; split at k
        · rename_i he; rw [he]; simp
        · rename_i he; rw [he]; simp
        · rename_i he; rw [he]; simp
        · exact k.elim
    exact ⟨fun r hr => absurd rfl ((g _ hr).2 r), fun hr => absurd rfl (g _ hr).1, fun r hr => absurd hr (hc.1 r), fun hr => absurd hr hc.2⟩

/-- C69: as long as there are users, libcurl has been initialised once more than it was cleaned up; otherwise equally often. -/
theorem users_balance (h : Runs (step rel) ([], []) ops outs (as, log)) :
    inits (trace log) = cleanups (trace log) + if users log = 0 then 0 else 1 := by
  suffices g : ∀ l1 l2, log = l1 ++ l2 → inits (trace l1) = cleanups (trace l1) + if users l1 = 0 then 0 else 1 from g log [] (by simp)
  intro l1
  induction hn : l1.length generalizing l1 with
  | zero =>
    have : l1 = [] := List.length_eq_zero_iff.1 hn
    subst this; intro _ _; rfl
  | succ n ih =>
    intro l2 hl
    rcases List.eq_nil_or_concat l1 with rfl | ⟨l, e, rfl⟩
    · simp at hn
    · have hn' : l.length = n := by simpa using hn
      simp only [List.append_assoc, List.cons_append, List.nil_append, List.concat_eq_append] at hl
      have i1 := ih l hn' _ hl
      obtain ⟨g1, g2, g3, g4⟩ := global_calls h hl
      simp only [List.concat_eq_append]
      rw [trace_snoc, users_snoc]
      unfold inits cleanups at *
      rw [List.count_append, List.count_append]
      have z1 : (∀ r, .globalInit r ∉ e.evs) → e.evs.count (.globalInit 0) = 0 := fun h => List.count_eq_zero.2 (h 0)
      have z2 : Ev.globalCleanup ∉ e.evs → e.evs.count .globalCleanup = 0 := List.count_eq_zero.2
      unfold usersStep
      split
      · rename_i hc
        by_cases h0 : users l = 0
        · obtain ⟨x, hx⟩ := (g3 _ hc).1 h0
          have : x = 0 := by
            have := (g1 x (by rw [hx]; simp)).2.2
            rw [hc] at this
            by_cases hx0 : x = 0
            · exact hx0
            · rw [if_neg hx0] at this; cases this
          subst this
          rw [hx, i1, h0]
          simp
        · have := ((g3 _ hc).2 h0).2
          rw [this, i1]
          simp [h0]
      · rename_i hc
        by_cases h1 : users l = 1
        · rw [g4 hc h1, i1, h1]; simp
        · have a1 : Ev.globalCleanup ∉ e.evs := fun hm => h1 (g2 hm).1
          have a2 : ∀ r, .globalInit r ∉ e.evs := fun r hm => by have := (g1 r hm).2.2; rw [hc] at this; cases this
          rw [z1 a2, z2 a1, i1]
          by_cases h0 : users l = 0
          · simp [h0]
          · rw [if_neg h0, if_neg (by omega)]
      · rename_i hc1 hc2
        have a1 : Ev.globalCleanup ∉ e.evs := fun hm => hc2 (g2 hm).2.2
        rw [z2 a1, i1]
        have : e.evs.count (.globalInit 0) = 0 := by
          rw [List.count_eq_zero]
          intro hm
          have := (g1 0 hm).2.2
          rw [if_pos rfl] at this
          exact hc1 this
        rw [this]
        omega

/-! ## C70: easy handles and memory -/

/-- C70: The calls made for one connection follow the protocol: an easy handle is used only while the connection is open, and given up
exactly once, when it is closed. -/
theorem protocol (h : Runs (step rel) ([], []) ops outs (as, log)) {i : Nat} {a : Option Obj} (ha : as[i]? = some a) :
    runs .closed (trace (ofPos i log)) = some (match a with | none => .closed | some o => .open o.curl) := by
  rw [(((invariant h).1 i).2 a ha).1]
  cases a <;> rfl

/-- C70: so does every prefix of them. -/
theorem protocol_always (h : Runs (step rel) ([], []) ops outs (as, log)) {i : Nat} {tr tr' : List Ev} (ht : trace (ofPos i log) = tr ++ tr') :
    runs .closed tr ≠ none := by
  have : runs .closed (tr ++ tr') ≠ none := by
    by_cases hi : i < as.length
    · rw [← ht, protocol h (List.getElem?_eq_getElem hi)]; simp
    · rw [← ht, ((invariant h).1 i).1 (by omega)]; simp [trace, runs]
  rw [runs_append] at this
  intro hn
  rw [hn] at this
  exact this rfl

def hasEasy (c : Nat) : Phase → Nat
  | .closed => 0
  | .open d => if d = c then 1 else 0
  | .running d => if d = c then 1 else 0

theorem runs_easy {c : Nat} (hc : c ≠ 0) {p p' : Phase} {evs : List Ev} (h : runs p evs = some p') : obtained c evs + hasEasy c p = cleaned c evs + hasEasy c p' := by
  induction evs generalizing p with
  | nil => cases h; rfl
  | cons e evs ih =>
    simp only [runs] at h
    cases hn : next p e with
    | none => simp [hn] at h
    | some q =>
      simp only [hn, Option.bind_some] at h
      have := ih h
      unfold obtained cleaned at *
      rw [List.count_cons, List.count_cons]
      unfold next at hn
      split at hn
      · cases hn
        rename_i d
        by_cases hd : d = 0
        · subst hd
          simp [hasEasy, Ne.symm hc] at this ⊢; omega
        · by_cases hdc : d = c
          · subst hdc; simp [hasEasy, hd] at this ⊢; omega
          · simp [hasEasy, hd, hdc] at this ⊢; omega
      · split at hn <;> cases hn; simp_all [hasEasy]
      · split at hn <;> cases hn; simp_all [hasEasy]
      · split at hn <;> cases hn; simp_all [hasEasy]
      · split at hn <;> cases hn; simp_all [hasEasy]
      · split at hn <;> cases hn; simp_all [hasEasy]
      · split at hn <;> cases hn; simp_all [hasEasy]
      · split at hn <;> cases hn
        rename_i d hcd
        subst hcd
        by_cases hdc : d = c
        · subst hdc; simp [hasEasy] at this ⊢; omega
        · simp [hasEasy, hdc] at this ⊢; omega
      · cases hn

theorem holders_set {f : Option Obj → Bool} {as : List (Option Obj)} {i : Nat} {a a' : Option Obj} (h : as[i]? = some a) :
    (as.set i a').countP f + (if f a then 1 else 0) = as.countP f + (if f a' then 1 else 0) := by
  obtain ⟨hi, ha⟩ := List.getElem?_eq_some_iff.1 h
  have hp : f a = true → 0 < as.countP f := by
    intro hf
    rw [List.countP_pos_iff]
    exact ⟨a, List.mem_of_getElem? h, hf⟩
  rw [List.countP_set hi, ha]
  by_cases h1 : f a = true
  · have := hp h1; simp only [h1, if_true]; omega
  · simp only [h1]; simp

theorem plain_easy {log : Log} {c : Called} {evs : List Ev} (h : PlainE rel log c evs) (d : Nat) : obtained d evs = 0 ∧ cleaned d evs = 0 := by
  cases c with
  | init r =>
    obtain ⟨n', k⟩ := h
    unfold InitE at k
    split at k
    · rcases k with ⟨_, _, _, _, rfl⟩ | ⟨_, _, rfl⟩ <;> simp [obtained, cleaned]
    · rw [k.2.2]; simp [obtained, cleaned]
  | deinit =>
    obtain ⟨n', _, rfl⟩ := h
    split <;> simp [obtained, cleaned]
  | clone _ _ _ _ _ => rw [h.2]; simp [obtained, cleaned]
  | _ => exact h.elim

/-- C70: over all connections: an easy handle was obtained as often as it was given up plus the number of connections that have it. -/
theorem balance (h : Runs (step rel) ([], []) ops outs (as, log)) {c : Nat} (hc : c ≠ 0) :
    obtained c (trace log) = cleaned c (trace log) + holders c as := by
  have ph : ∀ a : Option Obj, hasEasy c (phase a) = if decide (a.map Obj.curl = some c) = true then 1 else 0 := by
    intro a; cases a <;> simp [phase, hasEasy]
  have gen : ∀ (x : World) ops outs x', Runs (step rel) x ops outs x' →
      ((∀ (i : Nat) a, x.1[i]? = some a → ∃ L, Inv a L) ∧ obtained c (trace x.2) = cleaned c (trace x.2) + holders c x.1) →
      obtained c (trace x'.2) = cleaned c (trace x'.2) + holders c x'.1 := by
    intro x ops outs x' hr
    induction hr with
    | nil => exact fun h => h.2
    | cons h1 _ ih =>
      rintro ⟨hx, hb⟩
      apply ih
      rcases step_cases h1 with rfl | ⟨d, evs, hN, rfl⟩ | ⟨d, a', evs, hN, rfl⟩ | ⟨j, a, d, a', evs, hj, hE, rfl⟩
      · exact ⟨hx, hb⟩
      · refine ⟨hx, ?_⟩
        dsimp only
        have := plain_easy hN c
        rw [trace_snoc]
        unfold obtained cleaned at *
        rw [List.count_append, List.count_append]
        dsimp only
        omega
      · have hI := Inv_new 0 d a' evs hN
        refine ⟨?_, ?_⟩
        · intro i a ha
          rw [List.getElem?_append] at ha
          split at ha
          · exact hx i a ha
          · have := List.mem_of_getElem? ha
            simp at this
            subst this
            exact ⟨_, hI⟩
        · dsimp only
          have e1 := runs_easy hc (New_runs hN)
          rw [ph] at e1
          rw [trace_snoc]
          unfold obtained cleaned holders at *
          rw [List.count_append, List.count_append, List.countP_append, List.countP_singleton]
          simp only [hasEasy] at e1
          dsimp only
          omega
      · obtain ⟨L, hI⟩ := hx j a hj
        have hR := Eff_runs hI hE
        refine ⟨?_, ?_⟩
        · intro i b hb'
          rw [List.getElem?_set] at hb'
          split at hb'
          · split at hb'
            · cases hb'; exact ⟨_, Inv_step 0 _ _ _ _ _ hI hE⟩
            · cases hb'
          · exact hx i b hb'
        · dsimp only
          have e1 := runs_easy hc hR
          have e2 := holders_set (f := fun a => a.map Obj.curl = some c) (a' := a') hj
          rw [ph, ph] at e1
          rw [trace_snoc]
          unfold obtained cleaned holders at *
          rw [List.count_append, List.count_append]
          dsimp only
          omega
  exact gen _ _ _ _ h ⟨by simp, by simp [trace, obtained, cleaned, holders]⟩

/-- C70: when all connections are closed, every easy handle was given up as often as it was obtained. -/
theorem all_closed (h : Runs (step rel) ([], []) ops outs (as, log)) (hd : ∀ a ∈ as, a = none) {c : Nat} (hc : c ≠ 0) :
    obtained c (trace log) = cleaned c (trace log) := by
  have : holders c as = 0 := by
    unfold holders
    rw [List.countP_eq_zero]
    intro a ha
    rw [hd a ha]; simp
  rw [balance h hc, this, Nat.add_zero]

/-- C70: a handle that is no connection is returned only if memory is refused or the host name is longer than the address space allows -/
theorem none_lost (h : Runs (step rel) ([], []) ops outs (as, log)) (hr : rel) (hs : ∀ t, .create (some t) ∈ ops → t.length + 9 ≤ maxObj) : lost log = 0 := by
  have gen : ∀ (x : World) ops outs x', Runs (step rel) x ops outs x' → (∀ t, .create (some t) ∈ ops → t.length + 9 ≤ maxObj) → lost x.2 = 0 → lost x'.2 = 0 := by
    intro x ops outs x' hrun
    induction hrun with
    | nil => exact fun _ h => h
    | @cons x op o x1 ops os x2 h1 _ ih =>
      intro hs h0
      refine ih (fun t ht => hs t (by simp [ht])) ?_
      have snoc : ∀ (e : Entry), e.isLost = false → lost (x.2 ++ [e]) = 0 := by intro e he; rw [lost_snoc, he, h0]; rfl
      cases op with
      | init =>
        obtain ⟨b, w, _, ⟨r, n', evs, _, _, rfl⟩, rfl⟩ := h1
        exact snoc _ rfl
      | deinit =>
        obtain ⟨b, w, _, ⟨n', evs, _, _, rfl⟩, rfl⟩ := h1
        exact snoc _ rfl
      | clone n v out =>
        obtain ⟨b, w, _, ⟨b', d, r, copy, _, _, _, _, rfl⟩, rfl⟩ := h1
        exact snoc _ rfl
      | create host =>
        obtain ⟨r, a', w', ho, ⟨c, evs, h1, _, h2, rfl⟩, rfl⟩ := h1
        refine snoc _ ?_
        have : c ≠ .broken := by
          rintro rfl
          unfold CreateE at h1
          cases host with
          | none => simp at h1
          | some t =>
            have := hs t (by simp)
            rcases h1 with ⟨h, _⟩ | ⟨_, h | h, _⟩ | ⟨h, _⟩ | ⟨_, _, h, _⟩
            · cases h
            · exact h hr
            · omega
            · cases h
            · cases h
        cases c <;> first | rfl | exact absurd rfl this
      | close i =>
        rcases h1 with ⟨_, _, rfl⟩ | ⟨a, r, a', w', _, _, ⟨_, _, evs, _, rfl⟩, rfl⟩
        · exact h0
        · exact snoc _ rfl
      | setOption i n v =>
        rcases h1 with ⟨_, _, rfl⟩ | ⟨a, r, a', w', _, _, ⟨b, r', _, _, _, rfl⟩, rfl⟩
        · exact h0
        · exact snoc _ rfl
      | request i type path hdrs content len status rhdrs rcontent =>
        rcases h1 with ⟨_, _, rfl⟩ | ⟨a, r, a', w', _, _, ⟨y, p, rh, rcb, r', y', evs, _, _, _, _, _, rfl⟩, rfl⟩
        · exact h0
        · exact snoc _ rfl
  exact gen _ _ _ _ h hs rfl

section
variable {lib : Lib} {Net : List Ev → HProp} {Global : HProp} {Easy : Nat → HProp} {Slist : Nat → List Text → HProp} {Busy : Nat → Transfer → Nat → HProp}

theorem Own_gone {env : List Nat} (h : ∀ a ∈ as, a = none) : Own (OConn Easy) env as ⊢ₕ emp := by
  induction as generalizing env with
  | nil =>
    intro x hx
    obtain ⟨hl, hx⟩ := hx
    have : env = [] := List.length_eq_zero_iff.1 (by simpa using hl)
    subst this
    exact hx
  | cons a as ih =>
    have ha := h a (by simp)
    subst ha
    cases env with
    | nil => intro x hx; have := hx.1; simp at this
    | cons p env =>
      rw [Map.Own_cons, OConn, ORep_none]
      rw [pand_sep, emp_sep]
      exact entails_pand_l fun _ => ih fun a ha => h a (by simp [ha])

/-- C70: What a history leaves behind when all connections are closed and all users are gone, if memory is not refused: the memory of
libcurl (without a session) and the two variables, nothing else. -/
theorem nothing_left (H : Honours True lib Net Global Easy Slist Busy) {g rcb : Ptr} (ops : List Op) (hops : ∀ op ∈ ops, good op)
    (hlen : ops.length < szMod) (hs : ∀ t, .create (some t) ∈ ops → t.length + 9 ≤ maxObj)
    (s : St) (hf : s.heap.fin) (hr : Reliable s.alloc) (h0 : NetL Net Global g rcb [] s.heap) :
    ∃ outs env as log s', runOps (exec lib g rcb) ops [] s = some (.ok ((outs, env), s')) ∧ Runs (step True) ([], []) ops outs (as, log) ∧
      ((∀ a ∈ as, a = none) → users log = 0 → (Net (trace log) ∗ g ↦ [.int 0] ∗ Cell3 rcb) s'.heap) := by
  obtain ⟨outs, env, as, log, s', h1, h2, h3⟩ := histories_run H ops hops hlen s hf (fun _ => hr) h0
  refine ⟨outs, env, as, log, s', h1, h2, fun ha hu => ?_⟩
  have := sep_mono (Own_gone (env := env) ha) (entails_refl _) _ h3
  rw [emp_sep, NetL_eq, none_lost h2 trivial hs, hu, Users_eq, if_pos rfl, Lost, sep_emp, sep_emp] at this
  exact this

/-- C70: If memory is refused: in addition, one block for each handle that is no connection. -/
theorem nothing_left_partial (H : Honours False lib Net Global Easy Slist Busy) {g rcb : Ptr} (ops : List Op) (hops : ∀ op ∈ ops, good op)
    (hlen : ops.length < szMod) (s : St) (hf : s.heap.fin) (h0 : NetL Net Global g rcb [] s.heap) :
    ∃ outs env as log s', runOps (exec lib g rcb) ops [] s = some (.ok ((outs, env), s')) ∧ Runs (step False) ([], []) ops outs (as, log) ∧
      ((∀ a ∈ as, a = none) → users log = 0 → (Net (trace log) ∗ g ↦ [.int 0] ∗ Cell3 rcb ∗ Lost (lost log)) s'.heap) := by
  obtain ⟨outs, env, as, log, s', h1, h2, h3⟩ := histories_run H ops hops hlen s hf (fun h => h.elim) h0
  refine ⟨outs, env, as, log, s', h1, h2, fun ha hu => ?_⟩
  have := sep_mono (Own_gone (env := env) ha) (entails_refl _) _ h3
  rw [emp_sep, NetL_eq, hu, Users_eq, if_pos rfl, sep_emp] at this
  exact this

end

end Verif.Curl
