import Verif.Wce.History
import Verif.Mb.Ledger
/-! # C112–C115: what every history of calls of `httpapi_wince.c` does -/
set_option linter.unusedSimpArgs false
namespace Verif.Wce
open Verif.Headers (Hdrs)
open Verif.Buffer (Content)
open Verif.Curl (Args)
open Verif.Sas (text)
open Verif.Mb (Wire Op Out Called Talk Answers SentBy Filled requestLine talk_quiet text_request)
variable {rel W : Prop} {J : Res → Prop} {Peer : Text → Wire → Prop} {ops : List Op} {outs : List (Option Out)} {as : List (Option Obj)} {log : Log}

/-! ## The record -/

/-- effect of a call on the handle at some position -/
def Eff (rel W : Prop) (J : Res → Prop) (Peer : Text → Wire → Prop) (a : Option Obj) (c : Called) (a' : Option Obj) (evs : List Ev) : Prop :=
  match c with
  | .close => a' = none ∧ evs = closing a
  | .setOption _ _ r => r = .invalidArg ∧ a' = a ∧ evs = []
  | .request y r y' => ExecE rel W J Peer a y r y' a' evs
  | _ => False

theorem step_cases {x x' : World} {op : Op} {o : Option Out} (h : step rel W J Peer x op o x') :
    x' = x ∨ (∃ host a', CreateE host a' ∧ x' = (x.1 ++ [a'], x.2 ++ [⟨x.1.length, .create host, []⟩])) ∨
    ∃ i a c a' evs, x.1[i]? = some a ∧ Eff rel W J Peer a c a' evs ∧ x' = (x.1.set i a', x.2 ++ [⟨i, c, evs⟩]) := by
  cases op with
  | create host =>
    obtain ⟨r, a', w', ho, ⟨h1, _, rfl⟩, rfl⟩ := h
    exact .inr (.inl ⟨host, a', h1, rfl⟩)
  | close i =>
    rcases h with ⟨_, hn, h⟩ | ⟨a, r, a', w', h1, ho, ⟨h2, h3, rfl⟩, rfl⟩
    · exact .inl h
    · exact .inr (.inr ⟨i, a, .close, a', closing a, h1, ⟨h3, rfl⟩, rfl⟩)
  | setOption i n v =>
    rcases h with ⟨_, hn, h⟩ | ⟨a, r, a', w', h1, ho, ⟨_, h2, rfl⟩, rfl⟩
    · exact .inl h
    · exact .inr (.inr ⟨i, a, .setOption n v .invalidArg, a', [], h1, ⟨rfl, h2, rfl⟩, rfl⟩)
  | request i type path hdrs content len status rhdrs rcontent =>
    rcases h with ⟨_, hn, h⟩ | ⟨a, r, a', w', h1, ho, ⟨y, r', y', evs, _, h4, h5, rfl⟩, rfl⟩
    · exact .inl h
    · exact .inr (.inr ⟨i, a, .request y r' y', a', evs, h1, h4, rfl⟩)

/-- an invariant of all histories -/
theorem always {Inv : World → Prop} (h0 : Inv ([], []))
    (hn : ∀ x host a', Inv x → CreateE host a' → Inv (x.1 ++ [a'], x.2 ++ [⟨x.1.length, .create host, []⟩]))
    (hs : ∀ x i a c a' evs, Inv x → x.1[i]? = some a → Eff rel W J Peer a c a' evs → Inv (x.1.set i a', x.2 ++ [⟨i, c, evs⟩]))
    (h : Runs (step rel W J Peer) ([], []) ops outs (as, log)) : Inv (as, log) := by
  have gen : ∀ (x : World) ops outs x', Runs (step rel W J Peer) x ops outs x' → Inv x → Inv x' := by
    intro x ops outs x' hr
    induction hr with
    | nil => exact id
    | cons h1 _ ih =>
      intro hx
      apply ih
      rcases step_cases h1 with rfl | ⟨host, a', hc, rfl⟩ | ⟨i, a, c, a', evs, hi, hE, rfl⟩
      · exact hx
      · exact hn _ host a' hx hc
      · exact hs _ i a c a' evs hx hi hE
  exact gen _ _ _ _ h h0

theorem ofPos_snoc {i : Nat} {log : Log} {e : Entry} : ofPos i (log ++ [e]) = ofPos i log ++ (if e.pos = i then [e] else []) := by
  unfold ofPos; rw [List.filter_append]; congr 1
  by_cases h : e.pos = i <;> simp [h]

/-- An invariant of what is at one position, and of the calls on it.  -/
theorem always_at {I : Nat → Log → Option Obj → Prop}
    (hn : ∀ i host a', CreateE host a' → I i [⟨i, .create host, []⟩] a')
    (hs : ∀ i l a c a' evs, I i l a → Eff rel W J Peer a c a' evs → I i (l ++ [⟨i, c, evs⟩]) a')
    (h : Runs (step rel W J Peer) ([], []) ops outs (as, log)) (i : Nat) :
    (∀ a, as[i]? = some a → I i (ofPos i log) a) ∧ (as[i]? = none → ofPos i log = []) := by
  refine always (rel := rel) (W := W) (J := J) (Peer := Peer) (Inv := fun w => ∀ i, (∀ a, w.1[i]? = some a → I i (ofPos i w.2) a) ∧ (w.1[i]? = none → ofPos i w.2 = [])) ?_ ?_ ?_ h i
  · intro i; exact ⟨(fun a h => by simp at h), fun _ => rfl⟩
  · intro x host a' hx hc i
    dsimp only
    rw [ofPos_snoc]
    dsimp only
    rcases Nat.lt_trichotomy i x.1.length with hi | hi | hi
    · rw [List.getElem?_append_left hi, if_neg (by omega), List.append_nil]; exact hx i
    · subst hi
      rw [if_pos rfl, (hx _).2 (by simp)]
      refine ⟨?_, by simp⟩
      intro a ha
      simp at ha; subst ha
      exact hn _ host a' hc
    · rw [if_neg (by omega), List.append_nil]
      have := (hx i).2 (by rw [List.getElem?_eq_none_iff]; omega)
      refine ⟨?_, fun _ => this⟩
      intro a ha
      rw [List.getElem?_eq_none (by simp; omega)] at ha
      cases ha
  · intro x j a c a' evs hx hj hE i
    dsimp only
    rw [ofPos_snoc]
    dsimp only
    by_cases hi : j = i
    · subst hi
      have hlt := (List.getElem?_eq_some_iff.1 hj).1
      rw [if_pos rfl]
      refine ⟨?_, ?_⟩
      · intro b hb
        rw [List.getElem?_set_self hlt] at hb
        cases hb
        exact hs _ _ _ _ _ _ ((hx j).1 a hj) hE
      · intro hb; rw [List.getElem?_set_self hlt] at hb; cases hb
    · rw [if_neg hi, List.append_nil, List.getElem?_set_ne hi]
      exact hx i

/-! ## Sockets -/

theorem runs_append {p : Phase} : ∀ {a b : List Ev}, runs p (a ++ b) = (runs p a).bind fun q => runs q b
  | [], b => rfl
  | e :: a, b => by
    simp only [List.cons_append, runs]
    cases next p e with
    | none => rfl
    | some q => exact runs_append

theorem connect_runs {o : Obj} {r : Option Res} {s : Option (Nat × Option Wire)} {evs : List Ev} {p : Phase} (hp : Has (some o) p) (h : ConnectE J Peer o r s evs) :
    ∃ q, runs p evs = some q ∧ Has (some ⟨o.host, s⟩) q := by
  have none0 : o.sock = none → p = .none := by
    intro h0; simp only [Has, h0] at hp; exact hp
  cases h with
  | kept h => exact ⟨p, rfl, by simpa only [Has, h] using hp⟩
  | noSocket h0 => exact ⟨p, rfl, none0 h0⟩
  | noName h0 => rw [none0 h0]; exact ⟨_, rfl, .inl rfl⟩
  | @noTls r fd evs h0 _ he =>
    rw [none0 h0]
    refine ⟨.failed fd, ?_, .inr rfl⟩
    simp at he
    rcases he with rfl | rfl | rfl <;> simp [runs, next]
  | @refused r fd h0 => rw [none0 h0]; exact ⟨.none, by simp [runs, next, ready], rfl⟩
  | @done fd w h0 => rw [none0 h0]; exact ⟨.open fd, by simp [runs, next, ready], rfl⟩

theorem eff_runs {a a' : Option Obj} {c : Called} {evs : List Ev} {p : Phase} (hp : Has a p) (h : Eff rel W J Peer a c a' evs) : ∃ q, runs p evs = some q ∧ Has a' q := by
  cases c with
  | create host => exact h.elim
  | close =>
    obtain ⟨rfl, rfl⟩ := h
    refine ⟨.none, ?_, rfl⟩
    cases a with
    | none => rw [show p = .none from hp]; rfl
    | some o =>
      obtain ⟨host, sock⟩ := o
      match sock with
      | none => rw [show p = .none from hp]; rfl
      | some (fd, none) =>
        rcases (show p = .made fd ∨ p = .failed fd from hp) with rfl | rfl <;> simp [closing, runs, next]
      | some (fd, some w) => rw [show p = .open fd from hp]; simp [closing, runs, next]
  | setOption n v r => obtain ⟨_, rfl, rfl⟩ := h; exact ⟨p, rfl, hp⟩
  | request y r y' =>
    have h : ExecE rel W J Peer a y r y' a' evs := h
    unfold ExecE at h
    split at h
    · split at h
      · obtain ⟨_, _, rfl, rfl⟩ := h; exact ⟨p, rfl, hp⟩
      · obtain ⟨r1, s1, hC, h⟩ := h
        obtain ⟨q, h1, h2⟩ := connect_runs hp hC
        refine ⟨q, h1, ?_⟩
        rcases h with ⟨_, _, rfl⟩ | ⟨_, fd, rfl, _, _, rfl⟩ | ⟨_, fd, w, w', rfl, _, rfl⟩
        · exact h2
        · exact h2
        · exact h2
    · obtain ⟨_, _, rfl, rfl⟩ := h; exact ⟨p, rfl, hp⟩

/-- C113: the calls of Winsock made for each handle are in order: one socket at a time; it is made secure, then gets the function that validates certificates, then TLS, and only then is connected, once, to
port 443, with the strict option; it is closed at most once, and nothing is done with it afterwards.  The handle has its socket as long as it is not closed. -/
theorem sockets_ordered (h : Runs (step rel W J Peer) ([], []) ops outs (as, log)) (i : Nat) :
    ∃ p, runs .none (trace (ofPos i log)) = some p ∧ Has (as[i]?.getD none) p := by
  have := always_at (rel := rel) (W := W) (J := J) (Peer := Peer) (I := fun _ l a => ∃ p, runs .none (trace l) = some p ∧ Has a p) ?_ ?_ h i
  · cases hi : as[i]? with
    | none => rw [this.2 hi]; exact ⟨.none, rfl, rfl⟩
    | some a => exact this.1 a hi
  · intro i host a' hc
    refine ⟨.none, rfl, ?_⟩
    unfold CreateE at hc
    cases host with
    | none => subst hc; rfl
    | some t =>
      dsimp only at hc
      subst hc
      split <;> rfl
  · rintro i l a c a' evs ⟨p, h1, h2⟩ hE
    obtain ⟨q, h3, h4⟩ := eff_runs h2 hE
    refine ⟨q, ?_, h4⟩
    rw [trace_snoc, runs_append, h1]
    exact h3

/-! ### read off the automaton -/

/-- sockets that were made and not closed -/
def openSockets (evs : List Ev) : Int := (evs.filter fun e => e matches .socket _).length - (evs.filter fun e => e matches .close _).length

/-- what the automaton counts -/
def Phase.count : Phase → Int
  | .none => 0
  | _ => 1

theorem runs_count {p q : Phase} : ∀ {evs : List Ev}, runs p evs = some q → q.count = p.count + openSockets evs
  | [], h => by simp only [runs, Option.some.injEq] at h; subst h; simp [openSockets]
  | e :: es, h => by
    simp only [runs] at h
    cases hn : next p e with
    | none => rw [hn] at h; cases h
    | some p1 =>
      rw [hn] at h
      have ih := runs_count (evs := es) h
      have h1 : p1.count = p.count + openSockets [e] := by
        revert hn
        cases p <;> cases e <;> simp only [next] <;> intro hn <;> (try split at hn) <;> (try cases hn) <;> (try (split <;> rfl)) <;> rfl
      rw [ih, h1]
      have hs : openSockets (e :: es) = openSockets [e] + openSockets es := by
        unfold openSockets
        rw [← List.singleton_append, List.filter_append, List.filter_append, List.length_append, List.length_append]
        omega
      rw [hs]; omega

/-- C115: no socket is lost: as many are open as handles have; when a handle is closed its socket is. -/
theorem sockets_closed (h : Runs (step rel W J Peer) ([], []) ops outs (as, log)) (i : Nat) :
    openSockets (trace (ofPos i log)) = match as[i]?.getD none with
      | some ⟨_, some _⟩ => 1
      | _ => 0 := by
  obtain ⟨p, h1, h2⟩ := sockets_ordered h i
  have := runs_count h1
  rw [show Phase.count .none = 0 from rfl, Int.zero_add] at this
  rw [← this]
  cases ha : as[i]?.getD none with
  | none => rw [ha] at h2; rw [show p = .none from h2]; rfl
  | some o =>
    rw [ha] at h2
    obtain ⟨host, sock⟩ := o
    match sock with
    | none => rw [show p = .none from h2]; rfl
    | some (fd, none) => rcases (show p = .made fd ∨ p = .failed fd from h2) with rfl | rfl <;> rfl
    | some (fd, some w) => rw [show p = .open fd from h2]; rfl

/-! ## Connections -/

/-- the connections in `evs` are to `host`, at port 443, with the strict option, on a socket made secure just before -/
def Secured (host : Text) (evs : List Ev) : Prop :=
  ∀ pre post fd t port opt ok, evs = pre ++ .connect fd t port opt ok :: post →
    t = host ∧ port = 443 ∧ opt = SSL_OPT_STRICT_CHECK ∧ pre = [.socket fd, .secure fd true, .hook fd true, .tls fd true]

theorem secured_no {host : Text} {evs : List Ev} (h : ∀ e ∈ evs, ∀ fd t port opt ok, e ≠ .connect fd t port opt ok) : Secured host evs := by
  intro pre post fd t port opt ok e
  subst e
  exact absurd rfl (h (.connect fd t port opt ok) (by simp) fd t port opt ok)

theorem secured_one {host : Text} {fd : Nat} {b : Bool} {l : List Ev} (h : ∀ e ∈ l, ∀ fd t port opt ok, e ≠ .connect fd t port opt ok) :
    Secured host (.socket fd :: ready fd ++ .connect fd host 443 2 b :: l) := by
  intro pre post fd' t port opt ok e
  simp only [ready, List.cons_append, List.nil_append] at e
  match pre, e with
  | [], e => cases e
  | [_], e => cases e
  | [_, _], e => cases e
  | [_, _, _], e => cases e
  | [_, _, _, _], e => cases e; exact ⟨rfl, rfl, rfl, rfl⟩
  | _ :: _ :: _ :: _ :: _ :: pre, e =>
    simp at e
    exact absurd rfl (h (.connect fd' t port opt ok) (by rw [e.2.2.2.2.2]; simp) fd' t port opt ok)

theorem connect_secured {o : Obj} {r : Option Res} {s : Option (Nat × Option Wire)} {evs : List Ev} (h : ConnectE J Peer o r s evs) : Secured o.host evs := by
  cases h with
  | kept h => exact secured_no (by simp)
  | noSocket h0 => exact secured_no (by simp)
  | noName h0 => exact secured_no (by simp)
  | @noTls r fd evs h0 _ he =>
    refine secured_no ?_
    simp at he
    rcases he with rfl | rfl | rfl <;> simp
  | @refused r fd h0 => exact secured_one (by simp)
  | @done fd w h0 => exact secured_one (by simp)

/-- C113: a connection is only made by a request, to the host the handle was created with, at port 443, with the strict validation of certificates, on a new socket that was successfully made secure, given the
function that validates certificates, and TLS. -/
theorem connections_secured (h : Runs (step rel W J Peer) ([], []) ops outs (as, log)) {i : Nat} {pre post : Log} {e : Entry} (he : ofPos i log = pre ++ e :: post) :
    ∀ fd t port opt ok, .connect fd t port opt ok ∈ e.evs → .create (some t) ∈ pre.map Entry.call ∧ Secured t e.evs := by
  have key : ∀ {host : Text} {evs : List Ev} {cs : List Called}, Secured host evs → .create (some host) ∈ cs →
      ∀ fd t port opt ok, .connect fd t port opt ok ∈ evs → .create (some t) ∈ cs ∧ Secured t evs := by
    intro host evs cs h1 h2 fd t port opt ok hm
    obtain ⟨pre, post, e⟩ := List.append_of_mem hm
    have := (h1 pre post fd t port opt ok e).1
    subst this
    exact ⟨h2, h1⟩
  have := always_at (rel := rel) (W := W) (J := J) (Peer := Peer) (I := fun _ l a => (∀ o, a = some o → .create (some o.host) ∈ l.map Entry.call) ∧
    ∀ pre e post, l = pre ++ e :: post → ∀ fd t port opt ok, .connect fd t port opt ok ∈ e.evs → .create (some t) ∈ pre.map Entry.call ∧ Secured t e.evs) ?_ ?_ h i
  · cases hi : as[i]? with
    | none => rw [this.2 hi] at he; simp at he
    | some a => exact (this.1 a hi).2 _ _ _ he
  · intro i host a' hc
    refine ⟨?_, ?_⟩
    · intro o e
      unfold CreateE at hc
      cases host with
      | none => rw [hc] at e; cases e
      | some t =>
        dsimp only at hc
        rw [hc] at e
        split at e
        · cases e; simp
        · cases e
    · intro pre e post he fd t port opt ok hm
      cases pre with
      | nil => simp at he; rw [← he.1] at hm; simp at hm
      | cons p pre => simp at he
  · intro i l a c a' evs hi hE
    have h2 : (∀ o, a' = some o → .create (some o.host) ∈ l.map Entry.call) ∧
        ∀ fd t port opt ok, .connect fd t port opt ok ∈ evs → .create (some t) ∈ l.map Entry.call ∧ Secured t evs := by
      cases c with
      | create host => exact hE.elim
      | close =>
        obtain ⟨rfl, rfl⟩ := hE
        refine ⟨(fun o e => by cases e), ?_⟩
        intro fd t port opt ok hm
        unfold closing at hm
        split at hm <;> simp at hm
      | setOption n v r =>
        obtain ⟨_, rfl, rfl⟩ := hE
        exact ⟨hi.1, (fun _ _ _ _ _ hm => by simp at hm)⟩
      | request x r x' =>
        have h : ExecE rel W J Peer a x r x' a' evs := hE
        unfold ExecE at h
        split at h
        · rename_i o path hs hp hh
          have ho := hi.1 o rfl
          split at h
          · obtain ⟨_, _, rfl, rfl⟩ := h; exact ⟨hi.1, (fun _ _ _ _ _ hm => by simp at hm)⟩
          · obtain ⟨r1, s1, hC, h⟩ := h
            refine ⟨?_, key (connect_secured hC) ho⟩
            rcases h with ⟨_, _, rfl⟩ | ⟨_, fd, _, _, _, rfl⟩ | ⟨_, fd, w, w', _, _, rfl⟩ <;> (intro o' e; cases e; exact ho)
        · obtain ⟨_, _, rfl, rfl⟩ := h; exact ⟨hi.1, (fun _ _ _ _ _ hm => by simp at hm)⟩
    refine ⟨fun o e => by simpa using .inl (by simpa using h2.1 o e), ?_⟩
    intro pre e post he
    rcases List.eq_nil_or_concat post with rfl | ⟨post', q, rfl⟩
    · obtain ⟨e1, e2⟩ := List.append_inj' he rfl
      cases e2; subst e1; exact h2.2
    · rw [List.concat_eq_append] at he
      have : l ++ [(⟨i, c, evs⟩ : Entry)] = (pre ++ e :: post') ++ [q] := by rw [he]; simp
      exact hi.2 pre e post' (List.append_inj' this rfl).1

/-! ## Conversations -/

/-- the result is none of those of a request that was sent, or of which a part was sent -/
def Mute (r : Res) : Prop := r ≠ .ok ∧ r ≠ .readDataFailed ∧ r ≠ .receiveResponseFailed ∧ r ≠ .sendRequestFailed ∧ r ≠ .httpHeadersFailed

theorem Mute.quiet {r : Res} {x x' : Args} (h : Mute r) : (Called.request x r x').answered = false ∧ (Called.request x r x').broken = false := by
  obtain ⟨h1, h2, h3, h4, h5⟩ := h
  simp [Called.answered, Called.broken, h1, h2, h3, h4, h5]

/-- what is known of the connection of a handle from the calls made on it: there was none, or there is a socket that is not connected, or there is (was) one -/
def Talked (rel : Prop) (Peer : Text → Wire → Prop) (cs : List Called) (a : Option Obj) : Prop :=
  (∀ o, a = some o → .create (some o.host) ∈ cs) ∧
  (((∀ o, a = some o → o.sock = none) ∧ ∀ c ∈ cs, c.answered = false ∧ c.broken = false) ∨
   ((∀ o, a = some o → ∃ fd, o.sock = some (fd, none)) ∧ ∀ c ∈ cs, c.answered = false) ∨
   ∃ w, (∀ o, a = some o → ∃ fd, o.sock = some (fd, some w)) ∧ ∃ host w0, .create (some host) ∈ cs ∧ Peer host w0 ∧ w0.out = [] ∧ w0.pos = 0 ∧ w.srv = w0.srv ∧ w.fin = w0.fin ∧
     Talk rel w0.srv w0.fin cs w.out w.pos)

theorem Talked.quiet {cs : List Called} {a a' : Option Obj} {c : Called} (h : Talked rel Peer cs a) (h1 : c.answered = false) (h2 : c.broken = false)
    (ha : ∀ o', a' = some o' → a = some o') : Talked rel Peer (cs ++ [c]) a' := by
  obtain ⟨i0, h⟩ := h
  refine ⟨fun o e => List.mem_append_left _ (i0 o (ha o e)), ?_⟩
  have app : ∀ {Q : Called → Prop}, (∀ d ∈ cs, Q d) → Q c → ∀ d ∈ cs ++ [c], Q d := by
    intro Q h1 h2 d hd
    rcases List.mem_append.1 hd with hd | hd
    · exact h1 d hd
    · simp at hd; subst hd; exact h2
  rcases h with ⟨i1, i2⟩ | ⟨i1, i2⟩ | ⟨w, i1, host, w0, j1, j2, j3, j4, j5, j6, j7⟩
  · exact .inl ⟨fun o e => i1 o (ha o e), app i2 ⟨h1, h2⟩⟩
  · exact .inr (.inl ⟨fun o e => i1 o (ha o e), app i2 h1⟩)
  · exact .inr (.inr ⟨w, fun o e => i1 o (ha o e), host, w0, List.mem_append_left _ j1, j2, j3, j4, j5, j6, .quiet j7 h1 h2⟩)

theorem eff_talked (hW : W) (hJ : ∀ r, J r → Mute r) {cs : List Called} {a a' : Option Obj} {c : Called} {evs : List Ev} (hT : Talked rel Peer cs a) (h : Eff rel W J Peer a c a' evs) :
    Talked rel Peer (cs ++ [c]) a' := by
  cases c with
  | create host => exact h.elim
  | close => obtain ⟨rfl, _⟩ := h; exact hT.quiet rfl rfl (fun o e => by cases e)
  | setOption n v r => obtain ⟨_, rfl, _⟩ := h; exact hT.quiet rfl rfl (fun o e => e)
  | request x r x' =>
    replace h : ExecE rel W J Peer a x r x' a' evs := h
    unfold ExecE at h
    split at h
    · rename_i o path hs hp hh
      split at h
      · obtain ⟨rfl, _, rfl, _⟩ := h
        exact hT.quiet rfl rfl fun o' e => e
      · obtain ⟨r1, s1, hC, h⟩ := h
        have ho := hT.1 o rfl
        have noneQ : o.sock = none → ∀ c ∈ cs, c.answered = false ∧ c.broken = false := by
          intro h0
          rcases hT.2 with ⟨_, i2⟩ | ⟨i1, _⟩ | ⟨w, i1, _⟩
          · exact i2
          · obtain ⟨fd, e⟩ := i1 o rfl; rw [h0] at e; cases e
          · obtain ⟨fd, e⟩ := i1 o rfl; rw [h0] at e; cases e
        have muted : ∀ {s : Option (Nat × Option Wire)}, o.sock = none → J r → (s = none ∨ ∃ fd, s = some (fd, none)) →
            Talked rel Peer (cs ++ [.request x r x']) (some ⟨o.host, s⟩) := by
          intro s h0 hj hs
          have hq := (hJ r hj).quiet (x := x) (x' := x')
          refine ⟨fun o' e => by cases e; exact List.mem_append_left _ ho, ?_⟩
          have all : ∀ c ∈ cs ++ [.request x r x'], c.answered = false ∧ c.broken = false := by
            intro d hd
            rcases List.mem_append.1 hd with hd | hd
            · exact noneQ h0 d hd
            · simp at hd; subst hd; exact hq
          rcases hs with rfl | ⟨fd, rfl⟩
          · exact .inl ⟨fun o' e => by cases e; rfl, all⟩
          · exact .inr (.inl ⟨fun o' e => by cases e; exact ⟨fd, rfl⟩, fun d hd => (all d hd).1⟩)
        rcases h with ⟨rfl, rfl, rfl⟩ | ⟨rfl, fd, rfl, rfl, rfl, rfl⟩ | ⟨rfl, fd, w, w', rfl, hX, rfl⟩
        · cases hC with
          | noSocket h0 hj => exact muted h0 hj (.inl rfl)
          | noName h0 hj => exact muted h0 hj (.inr ⟨_, rfl⟩)
          | noTls h0 hj _ => exact muted h0 hj (.inr ⟨_, rfl⟩)
          | refused h0 hj => exact muted h0 hj (.inl rfl)
        · have h0 : o.sock = some (fd, none) := by cases hC with | kept h => exact h
          refine ⟨fun o' e => by cases e; exact List.mem_append_left _ ho, .inr (.inl ⟨fun o' e => by cases e; exact ⟨fd, rfl⟩, ?_⟩)⟩
          have hc : ∀ c ∈ cs, c.answered = false := by
            rcases hT.2 with ⟨i1, i2⟩ | ⟨_, i2⟩ | ⟨w, i1, _⟩
            · exact fun c hc => (i2 c hc).1
            · exact i2
            · obtain ⟨fd', e⟩ := i1 o rfl; rw [h0] at e; cases e
          intro d hd
          rcases List.mem_append.1 hd with hd | hd
          · exact hc d hd
          · simp at hd; subst hd
            split <;> rfl
        · obtain ⟨host, w0, j1, j2, j3, j4, j5, j6, j7⟩ : ∃ host w0, .create (some host) ∈ cs ∧ Peer host w0 ∧ w0.out = [] ∧ w0.pos = 0 ∧ w.srv = w0.srv ∧ w.fin = w0.fin ∧
              Talk rel w0.srv w0.fin cs w.out w.pos := by
            cases hC with
            | kept h =>
              rcases hT.2 with ⟨i1, _⟩ | ⟨i1, _⟩ | ⟨w1, i1, i2⟩
              · rw [i1 o rfl] at h; cases h
              · obtain ⟨fd', e⟩ := i1 o rfl; rw [h] at e; cases e
              · obtain ⟨fd', e⟩ := i1 o rfl; rw [h] at e; cases e; exact i2
            | done h0 h1 h2 h3 => exact ⟨o.host, w, ho, h1, h2, h3, rfl, rfl, by rw [h2, h3]; exact talk_quiet cs (noneQ h0)⟩
          refine ⟨fun o' e => by cases e; exact List.mem_append_left _ ho, .inr (.inr ⟨w', fun o' e => by cases e; exact ⟨fd, rfl⟩, host, w0, List.mem_append_left _ j1, j2, j3, j4, ?_⟩)⟩
          rcases hX with ⟨_, rfl, _, rfl⟩ | ⟨_, r2, w2, hS, h⟩
          · exact ⟨j5, j6, .quiet j7 rfl rfl⟩
          · obtain ⟨t, s1, s2, s3, s4⟩ := hS.all hW
            rcases h with ⟨h0, rfl, _, rfl⟩ | ⟨h0, y, hy, rfl, hF, rfl⟩
            · rw [s2]
              refine ⟨j5, j6, .broken j7 ?_ ?_ (by rw [text_request hp hh]; exact s1)⟩
              · rcases s4 with rfl | rfl | rfl
                · exact absurd rfl h0
                · rfl
                · rfl
              · rcases s4 with rfl | rfl | rfl
                · exact absurd rfl h0
                · rfl
                · rfl
            · have e3 := s3 h0
              subst e3
              rw [← text_request (r := y.body.res) (x' := x') hp hh] at s2
              subst s2
              refine ⟨j5, j6, ?_⟩
              rw [← j5, ← j6] at j7 ⊢
              exact .answered j7 hy hF
    · obtain ⟨rfl, _, rfl, _⟩ := h
      exact hT.quiet rfl rfl fun o' e => e

/-- Everything that was sent and received on a handle's connection is one conversation with one peer met at the handle's host. -/
theorem conversation (hW : W) (hJ : ∀ r, J r → Mute r) (h : Runs (step rel W J Peer) ([], []) ops outs (as, log)) {i : Nat} {a : Option Obj} (hi : as[i]? = some a) :
    Talked rel Peer (callsOf i log) a := by
  have := always_at (rel := rel) (W := W) (J := J) (Peer := Peer) (I := fun _ l a => Talked rel Peer (l.map Entry.call) a) ?_ ?_ h i
  · exact this.1 a hi
  · intro i host a' hc
    unfold CreateE at hc
    have q : ∀ c ∈ [Called.create host], c.answered = false ∧ c.broken = false := by intro c hc; simp at hc; subst hc; exact ⟨rfl, rfl⟩
    cases host with
    | none => subst hc; exact ⟨(fun o e => by cases e), .inl ⟨(fun o e => by cases e), q⟩⟩
    | some t =>
      dsimp only at hc
      subst hc
      split
      · exact ⟨fun o e => by cases e; simp, .inl ⟨fun o e => by cases e; rfl, q⟩⟩
      · exact ⟨(fun o e => by cases e), .inl ⟨(fun o e => by cases e), q⟩⟩
  · intro i l a c a' evs hT hE
    simp only [List.map_append, List.map_cons, List.map_nil]
    exact eff_talked hW hJ hT hE

/-- C112: what was sent on the connection of an open handle: call by call, the complete text of every request that was answered, a part (from the start) of every
request that failed while it was sent, and nothing else.  This assumes (`hJ`) that the variable that was not set does not look like such a result. -/
theorem requests_sent_partial (hW : W) (hJ : ∀ r, J r → Mute r) (h : Runs (step rel W J Peer) ([], []) ops outs (as, log)) {i fd : Nat} {o : Obj} {w : Wire} (hi : as[i]? = some (some o))
    (hw : o.sock = some (fd, some w)) :
    ∃ ts : List Text, ts.length = (callsOf i log).length ∧ (∀ (k : Nat) c t, (callsOf i log)[k]? = some c → ts[k]? = some t → SentBy c t) ∧ w.out = ts.flatten := by
  rcases (conversation hW hJ h hi).2 with ⟨i1, _⟩ | ⟨i1, _⟩ | ⟨w1, i1, host, w0, _, _, _, _, _, _, hT⟩
  · rw [i1 o rfl] at hw; cases hw
  · obtain ⟨fd', e⟩ := i1 o rfl; rw [hw] at e; cases e
  · obtain ⟨fd', e⟩ := i1 o rfl; rw [hw] at e; cases e; exact hT.sent

/-- C112: a request that returned success, or that could not be read, was sent: the handle was connected. -/
theorem no_answer_partial (hW : W) (hJ : ∀ r, J r → Mute r) (h : Runs (step rel W J Peer) ([], []) ops outs (as, log)) {i : Nat} {o : Obj} (hi : as[i]? = some (some o))
    (hw : ∀ fd w, o.sock ≠ some (fd, some w)) : exchanges i log = [] := by
  unfold exchanges
  rw [List.filter_eq_nil_iff]
  intro c hc
  rcases (conversation hW hJ h hi).2 with ⟨_, i2⟩ | ⟨_, i2⟩ | ⟨w1, i1, _⟩
  · rw [(i2 c hc).1]; simp
  · rw [i2 c hc]; simp
  · obtain ⟨fd', e⟩ := i1 o rfl; exact absurd e (hw _ _)

/-- C114: requests and answers of a handle stay matched.  All requests of a handle go to one peer, met at the host of the handle.  If none of them failed while it was sent
and the peer answers the requests in order, then each request returned what its own answer says, and filled in its own objects with it; and on an open connection
nothing is left to be received.  Assumes `hJ`, as above. -/
theorem answers_matched_partial (hW : W) (hJ : ∀ r, J r → Mute r) (h : Runs (step rel W J Peer) ([], []) ops outs (as, log)) {i : Nat} {a : Option Obj} (hi : as[i]? = some a)
    (hb : ∀ c ∈ callsOf i log, c.broken = false) (hne : exchanges i log ≠ []) :
    ∃ host w0, .create (some host) ∈ callsOf i log ∧ Peer host w0 ∧ ∀ ys, Answers w0.srv w0.fin (exchanges i log) ys →
      (∀ (k : Nat) x r x' t y, (exchanges i log)[k]? = some (.request x r x') → ys[k]? = some (t, y) → r = y.body.res ∧ Filled rel x y x') ∧
      ∀ o fd w, a = some o → o.sock = some (fd, some w) → w.out = (exchanges i log).flatMap Called.text ∧ w.ins = [] := by
  have none0 : (∀ c ∈ callsOf i log, c.answered = false) → False := by
    intro hq
    apply hne
    unfold exchanges
    rw [List.filter_eq_nil_iff]
    intro c hc
    rw [hq c hc]; simp
  rcases (conversation hW hJ h hi).2 with ⟨_, i2⟩ | ⟨_, i2⟩ | ⟨w, i1, host, w0, j1, j2, j3, j4, j5, j6, hT⟩
  · exact (none0 fun c hc => (i2 c hc).1).elim
  · exact (none0 i2).elim
  · refine ⟨host, w0, j1, j2, ?_⟩
    intro ys hA
    obtain ⟨e1, e2, e3⟩ := hT.matched hb ys hA
    refine ⟨e3, ?_⟩
    intro o fd w' ho hw
    obtain ⟨fd', ew⟩ := i1 o ho
    rw [hw] at ew; cases ew
    refine ⟨e1, ?_⟩
    have hs := hA.sends _ (Nat.le_refl _)
    rw [List.take_length, ← hA.count, List.take_length] at hs
    unfold Wire.ins
    rw [j5, e1, e2]
    show List.drop _ (w0.srv ((exchanges i log).flatMap Called.text)) = []
    rw [hs, List.drop_length]

/-! ## A socket that is not connected -/

/-- C112: once a host name could not be looked up, or a socket could not be made secure, the handle never connects again: every request fails, and no call of Winsock other than `send` is made, until it is closed. -/
theorem never_connects {x : World} (h : Runs (step rel W J Peer) x ops outs (as, log)) {i fd : Nat} {o : Obj} (hx : x.1[i]? = some (some o)) (hs : o.sock = some (fd, none))
    (hc : .close i ∉ ops) : as[i]? = some (some o) ∧ ∃ l, log = x.2 ++ l ∧ ∀ e ∈ l, e.pos = i → e.evs = [] ∧ ∀ y r y', e.call = .request y r y' → r ≠ .ok := by
  have gen : ∀ {x x' : World} {ops outs}, Runs (step rel W J Peer) x ops outs x' → x.1[i]? = some (some o) → .close i ∉ ops →
      x'.1[i]? = some (some o) ∧ ∃ l, x'.2 = x.2 ++ l ∧ ∀ e ∈ l, e.pos = i → e.evs = [] ∧ ∀ y r y', e.call = .request y r y' → r ≠ .ok := by
    intro x x' ops outs hr
    induction hr with
    | nil => intro hx _; exact ⟨hx, [], by simp, by simp⟩
    | @cons x op o1 x1 ops outs x2 h1 _ ih =>
      intro hx hc
      have hlt := (List.getElem?_eq_some_iff.1 hx).1
      obtain ⟨k1, l1, k2, k3⟩ : x1.1[i]? = some (some o) ∧ ∃ l, x1.2 = x.2 ++ l ∧ ∀ e ∈ l, e.pos = i → e.evs = [] ∧ ∀ y r y', e.call = .request y r y' → r ≠ .ok := by
        cases op with
        | create host =>
          obtain ⟨r, a', w', ho, ⟨h1, _, rfl⟩, rfl⟩ := h1
          refine ⟨by dsimp only; rw [List.getElem?_append_left hlt]; exact hx, _, rfl, ?_⟩
          intro e he; simp at he; subst he
          intro hp; dsimp only at hp; omega
        | close j =>
          have hj : j ≠ i := by rintro rfl; exact hc (by simp)
          rcases h1 with ⟨_, hn, h⟩ | ⟨a, r, a', w', g1, ho, ⟨h2, h3, rfl⟩, rfl⟩
          · subst h; exact ⟨hx, [], by simp, by simp⟩
          · refine ⟨by dsimp only; rw [List.getElem?_set_ne hj]; exact hx, _, rfl, ?_⟩
            intro e he; simp at he; subst he
            intro hp; exact absurd hp hj
        | setOption j n v =>
          rcases h1 with ⟨_, hn, h⟩ | ⟨a, r, a', w', g1, ho, ⟨_, rfl, rfl⟩, rfl⟩
          · subst h; exact ⟨hx, [], by simp, by simp⟩
          · refine ⟨?_, _, rfl, ?_⟩
            · dsimp only
              by_cases hj : j = i
              · subst hj; rw [List.getElem?_set_self hlt]; rw [hx] at g1; exact g1.symm
              · rw [List.getElem?_set_ne hj]; exact hx
            · intro e he; simp at he; subst he
              intro _; exact ⟨rfl, (fun y r y' e => by cases e)⟩
        | request j type path hdrs content len status rhdrs rcontent =>
          rcases h1 with ⟨_, hn, h⟩ | ⟨a, r, a', w', g1, ho, ⟨y, r', y', evs, _, hE, h5, rfl⟩, rfl⟩
          · subst h; exact ⟨hx, [], by simp, by simp⟩
          · by_cases hj : j = i
            · subst hj
              rw [hx] at g1; cases g1
              have key : r' ≠ .ok ∧ a' = some o ∧ evs = [] := by
                unfold ExecE at hE
                split at hE
                · rename_i o2 path2 hs2 eo ep eh
                  cases eo
                  split at hE
                  · obtain ⟨rfl, _, h3, h4⟩ := hE; exact ⟨by simp, h3, h4⟩
                  · obtain ⟨r1, s1, hC, h⟩ := hE
                    cases hC with
                    | kept hk =>
                      rw [hs] at hk; cases hk
                      rcases h with ⟨h, _⟩ | ⟨_, fd', e1, rfl, _, rfl⟩ | ⟨_, fd', w, w', e1, _⟩
                      · cases h
                      · cases e1
                        refine ⟨by split <;> simp, ?_, rfl⟩
                        obtain ⟨host, sock⟩ := o
                        dsimp only at hs; subst hs; rfl
                      · cases e1
                    | noSocket h0 => rw [hs] at h0; cases h0
                    | noName h0 => rw [hs] at h0; cases h0
                    | noTls h0 => rw [hs] at h0; cases h0
                    | refused h0 => rw [hs] at h0; cases h0
                    | done h0 => rw [hs] at h0; cases h0
                · obtain ⟨rfl, _, h3, h4⟩ := hE; exact ⟨by simp, h3, h4⟩
              obtain ⟨q1, rfl, rfl⟩ := key
              refine ⟨by dsimp only; rw [List.getElem?_set_self hlt], _, rfl, ?_⟩
              intro e he; simp at he; subst he
              intro _; exact ⟨rfl, (fun y r y' e => by cases e; exact q1)⟩
            · refine ⟨by dsimp only; rw [List.getElem?_set_ne hj]; exact hx, _, rfl, ?_⟩
              intro e he; simp at he; subst he
              intro hp; exact absurd hp hj
      obtain ⟨m1, l2, m2, m3⟩ := ih k1 (fun h => hc (by simp [h]))
      refine ⟨m1, l1 ++ l2, by rw [m2, k2, List.append_assoc], ?_⟩
      intro e he
      rcases List.mem_append.1 he with he | he
      · exact k3 e he
      · exact m3 e he
  exact gen h hx hc

end Verif.Wce
