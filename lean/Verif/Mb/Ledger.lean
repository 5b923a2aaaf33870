import Verif.Mb.History
/-! # C89–C92: what every history of calls of `httpapi_mbed.cpp` does -/
set_option linter.unusedSimpArgs false
namespace Verif.Mb
open Verif.Headers (Hdrs)
open Verif.Buffer (Content)
open Verif.Curl (Args)
open Verif.Sas (text)
variable {rel W : Prop} {Peer : Text → Wire → Prop} {ops : List Op} {outs : List (Option Out)} {as : List (Option Obj)} {log : Log}

/-! ## Sending -/

/-- the pieces of a request make up its text -/
theorem pieces_text {x : Args} {path : Text} {hs : Hdrs} : (pieces x path hs).flatMap Piece.text = requestText x path hs := by
  have hh : ∀ hs : Hdrs, (headerPieces hs).flatMap Piece.text = hs.flatMap fun p => headerLine p ++ crlf := by
    intro hs
    induction hs with
    | nil => rfl
    | cons p hs ih =>
      rw [headerPieces] at *
      rw [List.flatMap_cons, List.flatMap_append, ih, List.flatMap_cons]
      simp [Piece.text]
  have ht : ∀ b : Text, (tailPieces b).flatMap Piece.text = crlf ++ b := by
    intro b
    unfold tailPieces
    by_cases h : b = []
    · subst h; simp [Piece.text]
    · simp [h, Piece.text]
  rw [pieces, List.flatMap_cons, List.flatMap_append, hh, ht, requestText]
  simp [Piece.text]

/-- a request sent without failure was sent completely; otherwise a part of it, from its start -/
theorem Sends.all (hW : W) {ps : List Piece} {w w' : Wire} {r : Res} (h : Sends rel W ps w r w') :
    ∃ t, t <+: ps.flatMap Piece.text ∧ w' = w.sent t ∧ (r = .ok → t = ps.flatMap Piece.text) ∧
      (r = .ok ∨ r = .sendRequestFailed ∨ r = .httpHeadersFailed) := by
  induction h with
  | nil => exact ⟨[], List.prefix_refl _, by simp [Wire.sent], fun _ => rfl, .inl rfl⟩
  | noMem h => exact ⟨[], List.nil_prefix, by simp [Wire.sent], (fun e => by cases e), .inr (.inr rfl)⟩
  | fail hp =>
    obtain ⟨n, _, h2, _⟩ := hp
    refine ⟨_, ?_, h2, (fun e => by cases e), .inr (.inl rfl)⟩
    rw [List.flatMap_cons]
    exact (List.take_prefix _ _).trans (List.prefix_append _ _)
  | next hp _ ih =>
    obtain ⟨n, h1, h2, h3⟩ := hp
    obtain ⟨t, i1, i2, i3, i4⟩ := ih
    have hn := h3 trivial hW
    rw [hn, List.take_length] at h2
    refine ⟨_ ++ t, ?_, by rw [i2, h2]; simp [Wire.sent]; rfl, fun e => by rw [i3 e, List.flatMap_cons], i4⟩
    rw [List.flatMap_cons]
    exact (List.prefix_append_right_inj _).2 i1

theorem Chunks.res {fin : Bool} {cap : Nat} {s : Text} {o : Body} (h : Chunks fin cap s o) : o.res = .ok ∨ o.res = .readDataFailed ∨ o.res = .receiveResponseFailed := by
  induction h with
  | bad => exact .inr (.inl rfl)
  | notHex => exact .inr (.inr rfl)
  | last => exact .inl rfl
  | lastBad => exact .inr (.inl rfl)
  | chunk _ _ _ _ _ _ ih => exact ih
  | chunkBad => exact .inr (.inl rfl)

theorem Says.res {fin : Bool} {c : Option Content} {s : Text} {y : Reply} (h : Says fin c s y) :
    y.body.res = .ok ∨ y.body.res = .readDataFailed ∨ y.body.res = .receiveResponseFailed := by
  cases h with
  | bad => exact .inr (.inl rfl)
  | notHttp => exact .inr (.inl rfl)
  | headBad => exact .inr (.inl rfl)
  | plain => exact .inl rfl
  | chunked _ _ _ _ h => exact h.res

/-! ## The record -/

/-- effect of a call on the handle at some position -/
def Eff (rel W : Prop) (Peer : Text → Wire → Prop) (a : Option Obj) (c : Called) (a' : Option Obj) (evs : List Ev) : Prop :=
  match c with
  | .close => a' = none ∧ CloseE (conOf a) a evs
  | .setOption n v r => SetE a n v r a' ∧ evs = []
  | .request y r y' => ExecE rel W Peer (conOf a) a y r y' a' evs
  | _ => False

theorem step_cases {x x' : World} {op : Op} {o : Option Out} (h : step rel W Peer x op o x') :
    x' = x ∨ (∃ host a' evs, CreateE (conOf a') host a' evs ∧ x' = (x.1 ++ [a'], x.2 ++ [⟨x.1.length, .create host, evs⟩])) ∨
    ∃ i a c a' evs, x.1[i]? = some a ∧ Eff rel W Peer a c a' evs ∧ x' = (x.1.set i a', x.2 ++ [⟨i, c, evs⟩]) := by
  cases op with
  | create host =>
    obtain ⟨r, a', w', ho, ⟨evs, h1, _, rfl⟩, rfl⟩ := h
    exact .inr (.inl ⟨host, a', evs, h1, rfl⟩)
  | close i =>
    rcases h with ⟨_, hn, h⟩ | ⟨a, r, a', w', h1, ho, ⟨h2, h3, evs, h4, rfl⟩, rfl⟩
    · exact .inl h
    · exact .inr (.inr ⟨i, a, .close, a', evs, h1, ⟨h3, h4⟩, rfl⟩)
  | setOption i n v =>
    rcases h with ⟨_, hn, h⟩ | ⟨a, r, a', w', h1, ho, ⟨r', h2, _, rfl⟩, rfl⟩
    · exact .inl h
    · exact .inr (.inr ⟨i, a, .setOption n v r', a', [], h1, ⟨h2, rfl⟩, rfl⟩)
  | request i type path hdrs content len status rhdrs rcontent =>
    rcases h with ⟨_, hn, h⟩ | ⟨a, r, a', w', h1, ho, ⟨y, r', y', evs, _, h4, h5, rfl⟩, rfl⟩
    · exact .inl h
    · exact .inr (.inr ⟨i, a, .request y r' y', a', evs, h1, h4, rfl⟩)

/-- an invariant of all histories -/
theorem always {Inv : World → Prop} (h0 : Inv ([], []))
    (hn : ∀ x host a' evs, Inv x → CreateE (conOf a') host a' evs → Inv (x.1 ++ [a'], x.2 ++ [⟨x.1.length, .create host, evs⟩]))
    (hs : ∀ x i a c a' evs, Inv x → x.1[i]? = some a → Eff rel W Peer a c a' evs → Inv (x.1.set i a', x.2 ++ [⟨i, c, evs⟩]))
    (h : Runs (step rel W Peer) ([], []) ops outs (as, log)) : Inv (as, log) := by
  have gen : ∀ (x : World) ops outs x', Runs (step rel W Peer) x ops outs x' → Inv x → Inv x' := by
    intro x ops outs x' hr
    induction hr with
    | nil => exact id
    | cons h1 _ ih =>
      intro hx
      apply ih
      rcases step_cases h1 with rfl | ⟨host, a', evs, hc, rfl⟩ | ⟨i, a, c, a', evs, hi, hE, rfl⟩
      · exact hx
      · exact hn _ host a' evs hx hc
      · exact hs _ i a c a' evs hx hi hE
  exact gen _ _ _ _ h h0

theorem ofPos_snoc {i : Nat} {log : Log} {e : Entry} : ofPos i (log ++ [e]) = ofPos i log ++ (if e.pos = i then [e] else []) := by
  unfold ofPos; rw [List.filter_append]; congr 1
  by_cases h : e.pos = i <;> simp [h]

/-- An invariant of what is at one position, and of the calls on it.  -/
theorem always_at {I : Nat → Log → Option Obj → Prop}
    (hn : ∀ i host a' evs, CreateE (conOf a') host a' evs → I i [⟨i, .create host, evs⟩] a')
    (hs : ∀ i l a c a' evs, I i l a → Eff rel W Peer a c a' evs → I i (l ++ [⟨i, c, evs⟩]) a')
    (h : Runs (step rel W Peer) ([], []) ops outs (as, log)) (i : Nat) :
    (∀ a, as[i]? = some a → I i (ofPos i log) a) ∧ (as[i]? = none → ofPos i log = []) := by
  refine always (rel := rel) (W := W) (Peer := Peer) (Inv := fun w => ∀ i, (∀ a, w.1[i]? = some a → I i (ofPos i w.2) a) ∧ (w.1[i]? = none → ofPos i w.2 = [])) ?_ ?_ ?_ h i
  · intro i; exact ⟨(fun a h => by simp at h), fun _ => rfl⟩
  · intro x host a' evs hx hc i
    dsimp only
    rw [ofPos_snoc]
    dsimp only
    rcases Nat.lt_trichotomy i x.1.length with hi | hi | hi
    · rw [List.getElem?_append_left hi, if_neg (by omega), List.append_nil]; exact hx i
    · subst hi
      rw [if_pos rfl, (hx _).2 (by simp)]
      refine ⟨?_, by simp⟩
      intro a ha
      simp at ha; subst ha
      exact hn _ host a' evs hc
    · rw [if_neg (by omega), List.append_nil]
      have := (hx i).2 (by rw [List.getElem?_eq_none_iff]; omega)
      refine ⟨?_, fun _ => this⟩
      intro a ha
      rw [List.getElem?_eq_none (by simp; omega)] at ha
      cases ha
  · intro x j a c a' evs hx hj hE i
    dsimp only
    rw [ofPos_snoc]
    dsimp only
    by_cases hi : j = i
    · subst hi
      have hlt := (List.getElem?_eq_some_iff.1 hj).1
      rw [if_pos rfl]
      refine ⟨?_, ?_⟩
      · intro b hb
        rw [List.getElem?_set_self hlt] at hb
        cases hb
        exact hs _ _ _ _ _ _ ((hx j).1 a hj) hE
      · intro hb; rw [List.getElem?_set_self hlt] at hb; cases hb
    · rw [if_neg hi, List.append_nil, List.getElem?_set_ne hi]
      exact hx i

/-! ## Connection objects -/

theorem runs_append {p : Phase} : ∀ {a b : List Ev}, runs p (a ++ b) = (runs p a).bind fun q => runs q b
  | [], b => rfl
  | e :: a, b => by
    simp only [List.cons_append, runs]
    cases next p e with
    | none => rfl
    | some q => exact runs_append

theorem connect_runs {c : Nat} {o : Obj} {r : Res} {w' : Option Wire} {evs : List Ev} (hc : c = o.con) (h : ConnectE Peer c o r w' evs) :
    runs (phaseOf (some o)) evs = some (phaseOf (some { o with wire := w' })) := by
  subst hc
  unfold ConnectE at h
  cases hw : o.wire with
  | some w =>
    rw [hw] at h; obtain ⟨_, rfl, rfl⟩ := h
    simp [phaseOf, hw, runs]
  | none =>
    rw [hw] at h
    dsimp only at h
    rcases h with ⟨t, ht, _, rfl, rfl⟩ | ⟨e, he, _, rfl, rfl⟩ | ⟨w, _, rfl, _, _, _, rfl⟩
    · simp [phaseOf, hw, runs, next]
    · cases o.cert <;> simp [phaseOf, hw, runs, next, he]
    · cases o.cert <;> simp [phaseOf, hw, runs, next]

theorem eff_runs {a a' : Option Obj} {c : Called} {evs : List Ev} (h : Eff rel W Peer a c a' evs) : runs (phaseOf a) evs = some (phaseOf a') := by
  cases c with
  | create host => exact h.elim
  | close =>
    obtain ⟨rfl, h⟩ := h
    unfold CloseE at h
    cases a with
    | none => subst h; rfl
    | some o =>
      subst h
      cases hw : o.wire <;> simp [phaseOf, conOf, hw, runs, next]
  | setOption n v r =>
    obtain ⟨h, rfl⟩ := h
    unfold SetE at h
    split at h
    · split at h
      · obtain ⟨_, rfl⟩ := h; rfl
      · obtain ⟨_, rfl⟩ := h; rfl
    · obtain ⟨_, rfl⟩ := h; rfl
  | request y r y' =>
    have h : ExecE rel W Peer (conOf a) a y r y' a' evs := h
    unfold ExecE at h
    split at h
    · split at h
      · obtain ⟨_, _, rfl, rfl⟩ := h; rfl
      · obtain ⟨r1, w1, hC, h⟩ := h
        have := connect_runs rfl hC
        rw [this]
        rcases h with ⟨_, _, _, rfl⟩ | ⟨_, w, rfl, ⟨_, _, _, rfl⟩ | ⟨_, r2, w2, _, ⟨_, _, _, rfl⟩ | ⟨_, y, _, _, _, rfl⟩⟩⟩ <;> simp [phaseOf]
    · obtain ⟨_, _, rfl, rfl⟩ := h; rfl

/-- C92: the calls received by the connection object of each handle are in order and complete: it is constructed, certificates are loaded before it is connected (to port 443), it is
not connected twice, it is closed if and only if it is connected, and destroyed once; as long as the handle is open its object is as the handle says. -/
theorem objects_ordered (h : Runs (step rel W Peer) ([], []) ops outs (as, log)) (i : Nat) :
    runs .none (trace (ofPos i log)) = some (phaseOf (as[i]?.getD none)) := by
  have := always_at (rel := rel) (W := W) (Peer := Peer) (I := fun _ l a => runs .none (trace l) = some (phaseOf a)) ?_ ?_ h i
  · cases hi : as[i]? with
    | none => rw [this.2 hi]; rfl
    | some a => exact this.1 a hi
  · intro i host a' evs hc
    unfold CreateE at hc
    cases host with
    | none => obtain ⟨rfl, rfl⟩ := hc; rfl
    | some t =>
      dsimp only at hc
      split at hc
      · obtain ⟨h1, rfl⟩ := hc
        have h2 : phaseOf a' = .fresh (conOf a') := by rw [h1]; simp [phaseOf, conOf]
        rw [h2]; simp [trace, runs, next]
      · obtain ⟨rfl, c', rfl⟩ := hc; simp [trace, runs, next, phaseOf]
  · intro i l a c a' evs hi hE
    rw [trace_snoc, runs_append, hi]
    exact eff_runs hE

/-! ## Conversations -/

/-- what is known of the connection of a handle from the calls made on it -/
def Talked (rel : Prop) (Peer : Text → Wire → Prop) (cs : List Called) (a : Option Obj) : Prop :=
  ∃ wr : Option Wire, (∀ o, a = some o → o.wire = wr ∧ .create (some o.host) ∈ cs) ∧
    match wr with
    | none => ∀ c ∈ cs, c.answered = false ∧ c.broken = false
    | some w => ∃ host w0, .create (some host) ∈ cs ∧ Peer host w0 ∧ w0.out = [] ∧ w0.pos = 0 ∧ w.srv = w0.srv ∧ w.fin = w0.fin ∧ Talk rel w0.srv w0.fin cs w.out w.pos

theorem talk_quiet {srv : Text → Text} {fin : Bool} : ∀ (cs : List Called), (∀ c ∈ cs, c.answered = false ∧ c.broken = false) → Talk rel srv fin cs [] 0 := by
  intro cs
  rw [← List.reverse_reverse cs]
  generalize cs.reverse = l
  induction l with
  | nil => intro _; exact .nil
  | cons c l ih =>
    intro h
    rw [List.reverse_cons] at h ⊢
    exact .quiet (ih fun d hd => h d (by simp at hd ⊢; exact .inl hd)) (h c (by simp)).1 (h c (by simp)).2

theorem Talked.quiet {cs : List Called} {a a' : Option Obj} {c : Called} (h : Talked rel Peer cs a) (h1 : c.answered = false) (h2 : c.broken = false)
    (ha : ∀ o', a' = some o' → ∃ o, a = some o ∧ o'.wire = o.wire ∧ o'.host = o.host) : Talked rel Peer (cs ++ [c]) a' := by
  obtain ⟨wr, i1, i2⟩ := h
  refine ⟨wr, ?_, ?_⟩
  · intro o' e
    obtain ⟨o, e1, e2, e3⟩ := ha o' e
    rw [e2, e3]
    exact ⟨(i1 o e1).1, List.mem_append_left _ (i1 o e1).2⟩
  · cases wr with
    | none =>
      intro d hd
      rcases List.mem_append.1 hd with hd | hd
      · exact i2 d hd
      · simp at hd; subst hd; exact ⟨h1, h2⟩
    | some w =>
      obtain ⟨host, w0, j1, j2, j3, j4, j5, j6, j7⟩ := i2
      exact ⟨host, w0, List.mem_append_left _ j1, j2, j3, j4, j5, j6, .quiet j7 h1 h2⟩

theorem text_request {x x' : Args} {r : Res} {path : Text} {hs : Hdrs} (hp : x.path = some path) (hh : x.hdrs = some hs) :
    (Called.request x r x').text = (pieces x path hs).flatMap Piece.text := by
  rw [pieces_text]; simp [Called.text, hp, hh]

theorem eff_talked (hW : W) {cs : List Called} {a a' : Option Obj} {c : Called} {evs : List Ev} (hT : Talked rel Peer cs a) (h : Eff rel W Peer a c a' evs) :
    Talked rel Peer (cs ++ [c]) a' := by
  cases c with
  | create host => exact h.elim
  | close => obtain ⟨rfl, _⟩ := h; exact hT.quiet rfl rfl (fun o e => by cases e)
  | setOption n v r =>
    refine hT.quiet rfl rfl ?_
    obtain ⟨h, _⟩ := h
    unfold SetE at h
    split at h
    · rename_i o _ _
      split at h
      · obtain ⟨_, rfl⟩ := h; intro o' e; cases e; exact ⟨o, rfl, rfl, rfl⟩
      · obtain ⟨_, rfl⟩ := h; intro o' e; exact ⟨o', e, rfl, rfl⟩
    · obtain ⟨_, rfl⟩ := h; intro o' e; exact ⟨o', e, rfl, rfl⟩
  | request x r x' =>
    replace h : ExecE rel W Peer (conOf a) a x r x' a' evs := h
    unfold ExecE at h
    split at h
    · rename_i o path hs hp hh
      split at h
      · obtain ⟨rfl, _, rfl, _⟩ := h
        exact hT.quiet rfl rfl fun o' e => ⟨o', e, rfl, rfl⟩
      · obtain ⟨r1, w1, hC, h⟩ := h
        have hT1 : Talked rel Peer cs (some { o with wire := w1 }) ∧ (r1 = .ok ∨ r1 = .error) := by
          obtain ⟨wr, i1, i2⟩ := hT
          unfold ConnectE at hC
          cases hw : o.wire with
          | some w =>
            rw [hw] at hC
            obtain ⟨rfl, rfl, _⟩ := hC
            refine ⟨⟨wr, ?_, i2⟩, .inl rfl⟩
            intro o' e; cases e
            exact ⟨by rw [← (i1 o rfl).1, hw], (i1 o rfl).2⟩
          | none =>
            rw [hw] at hC
            have hn : wr = none := by rw [← (i1 o rfl).1, hw]
            subst hn
            rcases hC with ⟨t, _, rfl, rfl, _⟩ | ⟨e, _, rfl, rfl, _⟩ | ⟨w, rfl, rfl, h1, h2, h3, _⟩
            · exact ⟨⟨none, fun o' e => by cases e; exact ⟨rfl, (i1 o rfl).2⟩, i2⟩, .inr rfl⟩
            · exact ⟨⟨none, fun o' e => by cases e; exact ⟨rfl, (i1 o rfl).2⟩, i2⟩, .inr rfl⟩
            · refine ⟨⟨some w, fun o' e => by cases e; exact ⟨rfl, (i1 o rfl).2⟩, o.host, w, (i1 o rfl).2, h1, h2, h3, rfl, rfl, ?_⟩, .inl rfl⟩
              rw [h2, h3]; exact talk_quiet cs i2
        obtain ⟨hT1, hr1⟩ := hT1
        rcases h with ⟨h0, rfl, _, rfl⟩ | ⟨_, w, rfl, ⟨_, rfl, _, rfl⟩ | ⟨_, r2, w2, hS, h⟩⟩
        · rcases hr1 with rfl | rfl
          · exact absurd rfl h0
          · exact hT1.quiet rfl rfl fun o' e => by cases e; exact ⟨_, rfl, rfl, rfl⟩
        · exact hT1.quiet rfl rfl fun o' e => by cases e; exact ⟨_, rfl, rfl, rfl⟩
        · obtain ⟨t, s1, s2, s3, s4⟩ := hS.all hW
          obtain ⟨wr, i1, i2⟩ := hT1
          have e0 : wr = some w := ((i1 _ rfl).1).symm
          have ec := (i1 _ rfl).2
          subst e0
          obtain ⟨host, w0, j1, j2, j3, j4, j5, j6, j7⟩ := i2
          rcases h with ⟨h0, rfl, _, rfl⟩ | ⟨h0, y, hy, rfl, hF, rfl⟩
          · refine ⟨some w2, fun o' e => by cases e; exact ⟨rfl, List.mem_append_left _ ec⟩, host, w0, List.mem_append_left _ j1, j2, j3, j4, ?_, ?_, ?_⟩
            · rw [s2]; exact j5
            · rw [s2]; exact j6
            · rw [s2]
              refine .broken j7 ?_ ?_ (by rw [text_request hp hh]; exact s1)
              · rcases s4 with rfl | rfl | rfl
                · exact absurd rfl h0
                · rfl
                · rfl
              · rcases s4 with rfl | rfl | rfl
                · exact absurd rfl h0
                · rfl
                · rfl
          · have e3 := s3 h0
            subst e3
            rw [← text_request (r := y.body.res) (x' := x') hp hh] at s2
            subst s2
            refine ⟨some ((w.sent (Called.request x y.body.res x').text).to y.body.rest), fun o' e => by cases e; exact ⟨rfl, List.mem_append_left _ ec⟩, host, w0,
              List.mem_append_left _ j1, j2, j3, j4, j5, j6, ?_⟩
            rw [← j5, ← j6] at j7 ⊢
            exact .answered j7 hy hF
    · obtain ⟨rfl, _, rfl, _⟩ := h
      exact hT.quiet rfl rfl fun o' e => ⟨o', e, rfl, rfl⟩

/-- Everything that was sent and received on a handle's connection is one conversation with one peer met at the handle's host. -/
theorem conversation (hW : W) (h : Runs (step rel W Peer) ([], []) ops outs (as, log)) {i : Nat} {a : Option Obj} (hi : as[i]? = some a) :
    Talked rel Peer (callsOf i log) a := by
  have := always_at (rel := rel) (W := W) (Peer := Peer) (I := fun _ l a => Talked rel Peer (l.map Entry.call) a) ?_ ?_ h i
  · exact this.1 a hi
  · intro i host a' evs hc
    refine ⟨none, ?_, by intro c hc; simp at hc; subst hc; exact ⟨rfl, rfl⟩⟩
    intro o e
    subst e
    unfold CreateE at hc
    cases host with
    | none => cases hc.1
    | some t =>
      dsimp only at hc
      split at hc
      · have := congrArg (Option.map Obj.host) hc.1
        simp at this; simp [this]; have := congrArg (Option.map Obj.wire) hc.1; simp at this; exact this
      · cases hc.1
  · intro i l a c a' evs hT hE
    simp only [List.map_append, List.map_cons, List.map_nil]
    exact eff_talked hW hT hE

theorem get_snoc {α : Type} {l : List α} {a b : α} {k : Nat} (h : (l ++ [a])[k]? = some b) : l[k]? = some b ∨ (k = l.length ∧ b = a) := by
  rcases Nat.lt_trichotomy k l.length with hk | hk | hk
  · rw [List.getElem?_append_left hk] at h; exact .inl h
  · subst hk; simp at h; exact .inr ⟨rfl, h.symm⟩
  · rw [List.getElem?_eq_none (by simp; omega)] at h; cases h

theorem Talk.sent {srv : Text → Text} {fin : Bool} {cs : List Called} {out : Text} {pos : Nat} (h : Talk rel srv fin cs out pos) :
    ∃ ts : List Text, ts.length = cs.length ∧ (∀ (k : Nat) c t, cs[k]? = some c → ts[k]? = some t → SentBy c t) ∧ out = ts.flatten := by
  have add : ∀ {cs : List Called} {out : Text} {c : Called} {t : Text}, SentBy c t →
      (∃ ts : List Text, ts.length = cs.length ∧ (∀ (k : Nat) c t, cs[k]? = some c → ts[k]? = some t → SentBy c t) ∧ out = ts.flatten) →
      (∃ ts : List Text, ts.length = (cs ++ [c]).length ∧ (∀ (k : Nat) d t, (cs ++ [c])[k]? = some d → ts[k]? = some t → SentBy d t) ∧ out ++ t = ts.flatten) := by
    rintro cs out c t ht ⟨ts, h1, h2, h3⟩
    refine ⟨ts ++ [t], by simp [h1], ?_, by simp [h3]⟩
    intro k d u hd hu
    rcases get_snoc hd with hd | ⟨rfl, rfl⟩
    · rcases get_snoc hu with hu | ⟨rfl, rfl⟩
      · exact h2 k d u hd hu
      · rw [h1, List.getElem?_eq_none (Nat.le_refl _)] at hd; cases hd
    · rcases get_snoc hu with hu | ⟨_, rfl⟩
      · rw [← h1, List.getElem?_eq_none (Nat.le_refl _)] at hu; cases hu
      · exact ht
  induction h with
  | nil => exact ⟨[], rfl, (fun k c t h => by simp at h), rfl⟩
  | @answered cs out pos x x' y _ hy _ ih =>
    refine add ?_ ih
    have : (Called.request x y.body.res x').answered = true := by rcases hy.res with h | h | h <;> rw [h] <;> rfl
    unfold SentBy; rw [if_pos this]
  | @broken cs out pos c t _ h1 h2 h3 ih =>
    refine add ?_ ih
    unfold SentBy; rw [if_neg (by rw [h1]; simp), if_pos h2]; exact h3
  | @quiet cs out pos c _ h1 h2 ih =>
    have := add (c := c) (t := []) (by unfold SentBy; rw [if_neg (by rw [h1]; simp), if_neg (by rw [h2]; simp)]) ih
    rwa [List.append_nil] at this

/-- C90: what was sent on the connection of an open handle: call by call, the complete text of every request that was answered, a part (from the start) of every
request that failed while it was sent, and nothing else. -/
theorem requests_sent (hW : W) (h : Runs (step rel W Peer) ([], []) ops outs (as, log)) {i : Nat} {o : Obj} {w : Wire} (hi : as[i]? = some (some o)) (hw : o.wire = some w) :
    ∃ ts : List Text, ts.length = (callsOf i log).length ∧ (∀ (k : Nat) c t, (callsOf i log)[k]? = some c → ts[k]? = some t → SentBy c t) ∧ w.out = ts.flatten := by
  obtain ⟨wr, i1, i2⟩ := conversation hW h hi
  have e : wr = some w := by rw [← (i1 o rfl).1, hw]
  subst e
  obtain ⟨host, w0, _, _, _, _, _, _, hT⟩ := i2
  exact hT.sent

theorem flatMap_snoc {α : Type} {l : List α} {a : α} {f : α → Text} : (l ++ [a]).flatMap f = l.flatMap f ++ f a := by simp

theorem filter_one {α : Type} {p : α → Bool} {a : α} : [a].filter p = if p a = true then [a] else [] := by cases h : p a <;> simp [h]

theorem Talk.matched {srv : Text → Text} {fin : Bool} {cs : List Called} {out : Text} {pos : Nat} (h : Talk rel srv fin cs out pos) (hb : ∀ c ∈ cs, c.broken = false) :
    ∀ ys, Answers srv fin (cs.filter Called.answered) ys → out = (cs.filter Called.answered).flatMap Called.text ∧ pos = (ys.flatMap Prod.fst).length ∧
      ∀ (k : Nat) x r x' t y, (cs.filter Called.answered)[k]? = some (.request x r x') → ys[k]? = some (t, y) → r = y.body.res ∧ Filled rel x y x' := by
  induction h with
  | nil =>
    intro ys hA
    have := hA.count
    simp at this; subst this
    exact ⟨rfl, rfl, (fun k _ _ _ _ _ h => by simp at h)⟩
  | @answered cs out pos x x' y hT hy hF ih =>
    intro ys hA
    have han : (Called.request x y.body.res x').answered = true := by rcases hy.res with h | h | h <;> rw [h] <;> rfl
    rw [List.filter_append, filter_one, han] at hA ⊢
    simp only [if_true] at hA ⊢
    have hl := hA.count
    rcases List.eq_nil_or_concat ys with rfl | ⟨ys', ⟨t, y0⟩, rfl⟩
    · simp at hl
    rw [List.concat_eq_append] at hA hl ⊢
    have hl' : ys'.length = (cs.filter Called.answered).length := by simpa using hl
    have hA' : Answers srv fin (cs.filter Called.answered) ys' := by
      refine ⟨hl', ?_, ?_⟩
      · intro k hk
        have := hA.sends k (by simp; omega)
        rwa [List.take_append_of_le_length hk, List.take_append_of_le_length (by omega)] at this
      · intro k a r a' t y h1 h2
        have hk := (List.getElem?_eq_some_iff.1 h1).1
        exact hA.says k a r a' t y (by rw [List.getElem?_append_left hk]; exact h1) (by rw [List.getElem?_append_left (by omega)]; exact h2)
    obtain ⟨e1, e2, e3⟩ := ih (fun c hc => hb c (by simp [hc])) ys' hA'
    subst e1 e2
    have hs := hA.sends _ (Nat.le_refl _)
    rw [List.take_length, ← hl, List.take_length, flatMap_snoc, flatMap_snoc] at hs
    rw [hs] at hy ⊢
    rw [List.drop_left] at hy ⊢
    obtain ⟨s1, s2⟩ := hA.says ys'.length x y.body.res x' t y0 (by rw [hl']; simp) (by simp)
    have ey := hy.det s1
    subst ey
    refine ⟨flatMap_snoc.symm, by rw [s2, flatMap_snoc]; simp, ?_⟩
    intro k a r a' u z h1 h2
    rcases get_snoc h1 with h1 | ⟨hk, g1⟩
    · rcases get_snoc h2 with h2 | ⟨rfl, h2⟩
      · exact e3 k a r a' u z h1 h2
      · rw [hl', List.getElem?_eq_none (Nat.le_refl _)] at h1; cases h1
    · subst hk
      rcases get_snoc h2 with h2 | ⟨_, g2⟩
      · rw [← hl', List.getElem?_eq_none (Nat.le_refl _)] at h2; cases h2
      · cases g1; cases g2; exact ⟨rfl, hF⟩
  | @broken cs out pos c t hT h1 h2 h3 ih =>
    have := hb c (by simp)
    rw [h2] at this; cases this
  | @quiet cs out pos c hT h1 h2 ih =>
    intro ys hA
    rw [List.filter_append, filter_one, h1] at hA ⊢
    simp only [Bool.false_eq_true, if_false, List.append_nil] at hA ⊢
    exact ih (fun c hc => hb c (by simp [hc])) ys hA

/-- C91: requests and answers of a handle stay matched.  All requests of a handle go to one peer, met at the host of the handle.  If none of them failed while it was sent
and the peer answers the requests in order, then each request returned what its own answer says, and filled in its own objects with it; and on an open connection
nothing is left to be received. -/
theorem answers_matched (hW : W) (h : Runs (step rel W Peer) ([], []) ops outs (as, log)) {i : Nat} {a : Option Obj} (hi : as[i]? = some a)
    (hb : ∀ c ∈ callsOf i log, c.broken = false) (hne : exchanges i log ≠ []) :
    ∃ host w0, .create (some host) ∈ callsOf i log ∧ Peer host w0 ∧ ∀ ys, Answers w0.srv w0.fin (exchanges i log) ys →
      (∀ (k : Nat) x r x' t y, (exchanges i log)[k]? = some (.request x r x') → ys[k]? = some (t, y) → r = y.body.res ∧ Filled rel x y x') ∧
      ∀ o w, a = some o → o.wire = some w → w.out = (exchanges i log).flatMap Called.text ∧ w.ins = [] := by
  obtain ⟨wr, i1, i2⟩ := conversation hW h hi
  cases wr with
  | none =>
    exfalso
    apply hne
    unfold exchanges
    rw [List.filter_eq_nil_iff]
    intro c hc
    rw [(i2 c hc).1]; simp
  | some w =>
    obtain ⟨host, w0, j1, j2, j3, j4, j5, j6, hT⟩ := i2
    refine ⟨host, w0, j1, j2, ?_⟩
    intro ys hA
    obtain ⟨e1, e2, e3⟩ := hT.matched hb ys hA
    refine ⟨e3, ?_⟩
    intro o w' ho hw
    have ew := (i1 o ho).1
    rw [hw] at ew; cases ew
    refine ⟨e1, ?_⟩
    have hs := hA.sends _ (Nat.le_refl _)
    rw [List.take_length, ← hA.count, List.take_length] at hs
    unfold Wire.ins
    rw [j5, e1, e2]
    show List.drop _ (w0.srv ((exchanges i log).flatMap Called.text)) = []
    rw [hs, List.drop_length]

/-! ## Certificates -/

theorem lastCert_snoc {cs : List Called} {c : Called} : lastCert (cs ++ [c]) = certStep (lastCert cs) c := by simp [lastCert]

theorem connect_dialed {cs : List Called} {c : Nat} {o : Obj} {r : Res} {w' : Option Wire} {evs : List Ev} (h1 : o.cert = lastCert cs) (h2 : .create (some o.host) ∈ cs)
    (h : ConnectE Peer c o r w' evs) : Dialed cs evs := by
  unfold ConnectE at h
  cases hw : o.wire with
  | some w => rw [hw] at h; obtain ⟨_, _, rfl⟩ := h; intro e he; simp at he
  | none =>
    rw [hw] at h
    dsimp only at h
    rcases h with ⟨t, ht, _, _, rfl⟩ | ⟨e, he, _, _, rfl⟩ | ⟨w, _, _, _, _, _, rfl⟩
    · intro ev he; simp at he; subst he; rw [h1] at ht; exact ht
    · cases hc : o.cert with
      | none =>
        rw [hc] at h1
        intro ev he; simp at he; subst he
        exact ⟨rfl, h2, fun t ht => by rw [← h1] at ht; cases ht⟩
      | some t =>
        rw [hc] at h1
        intro ev he; simp at he
        rcases he with rfl | rfl
        · exact h1.symm
        · exact ⟨rfl, h2, fun t' ht => by rw [← h1] at ht; cases ht; simp⟩
    · cases hc : o.cert with
      | none =>
        rw [hc] at h1
        intro ev he; simp at he; subst he
        exact ⟨rfl, h2, fun t ht => by rw [← h1] at ht; cases ht⟩
      | some t =>
        rw [hc] at h1
        intro ev he; simp at he
        rcases he with rfl | rfl
        · exact h1.symm
        · exact ⟨rfl, h2, fun t' ht => by rw [← h1] at ht; cases ht; simp⟩

theorem eff_dialed {cs : List Called} {a a' : Option Obj} {c : Called} {evs : List Ev} (hc : ∀ o, a = some o → o.cert = lastCert cs ∧ .create (some o.host) ∈ cs)
    (h : Eff rel W Peer a c a' evs) : (∀ o, a' = some o → o.cert = lastCert (cs ++ [c]) ∧ .create (some o.host) ∈ cs ++ [c]) ∧ Dialed cs evs := by
  have same : ∀ {a' : Option Obj}, certStep (lastCert cs) c = lastCert cs → (∀ o', a' = some o' → ∃ o, a = some o ∧ o'.cert = o.cert ∧ o'.host = o.host) →
      ∀ o, a' = some o → o.cert = lastCert (cs ++ [c]) ∧ .create (some o.host) ∈ cs ++ [c] := by
    intro a' h1 h2 o' e
    obtain ⟨o, e1, e2, e3⟩ := h2 o' e
    rw [e2, e3, lastCert_snoc, h1]
    exact ⟨(hc o e1).1, List.mem_append_left _ (hc o e1).2⟩
  cases c with
  | create host => exact h.elim
  | close =>
    obtain ⟨rfl, h⟩ := h
    refine ⟨(fun o e => by cases e), ?_⟩
    unfold CloseE at h
    cases a with
    | none => subst h; intro e he; simp at he
    | some o =>
      subst h
      intro e he
      cases hw : o.wire <;> simp [hw] at he
      · subst he; trivial
      · rcases he with rfl | rfl <;> trivial
  | setOption n v r =>
    obtain ⟨h, rfl⟩ := h
    refine ⟨?_, fun e he => by simp at he⟩
    unfold SetE at h
    split at h
    · rename_i o n v
      split at h
      · rename_i hn
        obtain ⟨rfl, rfl⟩ := h
        intro o' e; cases e
        refine ⟨?_, List.mem_append_left _ (hc o rfl).2⟩
        rw [lastCert_snoc]; simp [certStep, hn]
      · rename_i hn
        obtain ⟨rfl, rfl⟩ := h
        exact same (by simp [certStep]) fun o' e => ⟨o', e, rfl, rfl⟩
    · obtain ⟨rfl, rfl⟩ := h
      exact same (by cases n <;> cases v <;> simp [certStep]) fun o' e => ⟨o', e, rfl, rfl⟩
  | request x r x' =>
    replace h : ExecE rel W Peer (conOf a) a x r x' a' evs := h
    unfold ExecE at h
    split at h
    · rename_i o path hs hp hh
      split at h
      · obtain ⟨rfl, _, rfl, rfl⟩ := h
        exact ⟨same rfl fun o' e => ⟨o', e, rfl, rfl⟩, fun e he => by simp at he⟩
      · obtain ⟨r1, w1, hC, h⟩ := h
        refine ⟨same rfl ?_, connect_dialed (hc o rfl).1 (hc o rfl).2 hC⟩
        rcases h with ⟨_, _, _, rfl⟩ | ⟨_, w, rfl, ⟨_, _, _, rfl⟩ | ⟨_, r2, w2, _, ⟨_, _, _, rfl⟩ | ⟨_, y, _, _, _, rfl⟩⟩⟩ <;>
          (intro o' e; cases e; exact ⟨o, rfl, rfl, rfl⟩)
    · obtain ⟨rfl, _, rfl, rfl⟩ := h
      exact ⟨same rfl fun o' e => ⟨o', e, rfl, rfl⟩, fun e he => by simp at he⟩

/-- C92: a connection is opened to the host the handle was created with, at port 443, after the certificate set last (if one was set) was loaded successfully; no other
certificate is loaded. -/
theorem certificate_first (h : Runs (step rel W Peer) ([], []) ops outs (as, log)) {i : Nat} {pre post : Log} {e : Entry} (he : ofPos i log = pre ++ e :: post) :
    Dialed (pre.map Entry.call) e.evs := by
  have := always_at (rel := rel) (W := W) (Peer := Peer) (I := fun _ l a => (∀ o, a = some o → o.cert = lastCert (l.map Entry.call) ∧ .create (some o.host) ∈ l.map Entry.call) ∧
    ∀ pre e post, l = pre ++ e :: post → Dialed (pre.map Entry.call) e.evs) ?_ ?_ h i
  · cases hi : as[i]? with
    | none => rw [this.2 hi] at he; simp at he
    | some a => exact (this.1 a hi).2 _ _ _ he
  · intro i host a' evs hc
    unfold CreateE at hc
    have quiet : ∀ {evs : List Ev}, (∀ ev ∈ evs, ∃ c, ev = .construct c ∨ ev = .destruct c) →
        ∀ pre e post, [(⟨i, .create host, evs⟩ : Entry)] = pre ++ e :: post → Dialed (pre.map Entry.call) e.evs := by
      intro evs hq pre e post he
      cases pre with
      | nil =>
        simp at he
        rw [← he.1]
        intro ev hev
        obtain ⟨c, rfl | rfl⟩ := hq ev hev <;> trivial
      | cons p pre => simp at he
    cases host with
    | none => obtain ⟨rfl, rfl⟩ := hc; exact ⟨(fun o e => by cases e), quiet fun ev h => by simp at h⟩
    | some t =>
      dsimp only at hc
      split at hc
      · obtain ⟨h1, rfl⟩ := hc
        refine ⟨?_, quiet fun ev h => ⟨_, .inl (by simpa using h)⟩⟩
        intro o e
        rw [e] at h1
        have e1 := congrArg (Option.map Obj.host) h1
        have e2 := congrArg (Option.map Obj.cert) h1
        simp at e1 e2
        simp [e1, e2, lastCert, certStep]
      · obtain ⟨rfl, c', rfl⟩ := hc
        refine ⟨(fun o e => by cases e), quiet fun ev h => ⟨c', by simpa using h⟩⟩
  · intro i l a c a' evs hi hE
    obtain ⟨h1, h2⟩ := eff_dialed hi.1 hE
    refine ⟨by simpa using h1, ?_⟩
    intro pre e post he
    rcases List.eq_nil_or_concat post with rfl | ⟨post', q, rfl⟩
    · obtain ⟨e1, e2⟩ := List.append_inj' he rfl
      cases e2; subst e1; exact h2
    · rw [List.concat_eq_append] at he
      have : l ++ [(⟨i, c, evs⟩ : Entry)] = (pre ++ e :: post') ++ [q] := by rw [he]; simp
      exact hi.2 pre e post' (List.append_inj' this rfl).1

end Verif.Mb
