import Verif.Ti.History
/-! # C85–C88: what every history of calls of `httpapi.h` does on TI's `HTTPCli` -/
set_option linter.unusedSimpArgs false
namespace Verif.Ti
open Verif.Headers (Hdrs isLWS stored find StoreE okName)
open Verif.Buffer (Content)
open Verif.Curl (Args)
open Verif.Ex (Passed Built Headed)
open Verif.Sas (text)
variable {rel : Prop} {ops : List Op} {outs : List (Option Out)} {as : List (Option Nat)} {log : Log}

/-! ## The record -/

/-- effect of a call on an existing connection -/
def Eff (rel : Prop) (a : Option Nat) (c : Called) (a' : Option Nat) (evs : List Ev) : Prop :=
  match c with
  | .close => a' = none ∧ CloseE a evs
  | .setOption _ => a' = a ∧ evs = []
  | .request y r y' k => ExecE rel a y r y' evs k ∧ a' = a
  | _ => False

/-- a call without a connection -/
def Called.plain : Called → Prop
  | .init | .deinit | .clone _ => True
  | _ => False

theorem step_cases {x x' : World} {op : Op} {o : Option Out} (h : step rel x op o x') :
    x' = x ∨ (∃ c, c.plain ∧ x' = (x.1, x.2 ++ [⟨none, c, []⟩])) ∨
    (∃ host a' evs, CreateE host a' evs ∧ x' = (x.1 ++ [a'], x.2 ++ [⟨some x.1.length, .create host a', evs⟩])) ∨
    ∃ i a c a' evs, x.1[i]? = some a ∧ Eff rel a c a' evs ∧ x' = (x.1.set i a', x.2 ++ [⟨some i, c, evs⟩]) := by
  cases op with
  | init => obtain ⟨b, w, _, ⟨_, rfl⟩, rfl⟩ := h; exact .inr (.inl ⟨.init, trivial, rfl⟩)
  | deinit => obtain ⟨b, w, _, ⟨_, rfl⟩, rfl⟩ := h; exact .inr (.inl ⟨.deinit, trivial, rfl⟩)
  | clone n => obtain ⟨b, w, _, ⟨_, rfl⟩, rfl⟩ := h; exact .inr (.inl ⟨.clone n, trivial, rfl⟩)
  | create host =>
    obtain ⟨r, a', w', ho, ⟨evs, h1, _, rfl⟩, rfl⟩ := h
    exact .inr (.inr (.inl ⟨host, a', evs, h1, rfl⟩))
  | close i =>
    rcases h with ⟨_, hn, h⟩ | ⟨a, r, a', w', h1, ho, ⟨h2, h3, evs, h4, rfl⟩, rfl⟩
    · exact .inl h
    · exact .inr (.inr (.inr ⟨i, a, .close, a', evs, h1, ⟨h3, h4⟩, rfl⟩))
  | setOption i n =>
    rcases h with ⟨_, hn, h⟩ | ⟨a, r, a', w', h1, ho, ⟨h2, _, rfl⟩, rfl⟩
    · exact .inl h
    · exact .inr (.inr (.inr ⟨i, a, .setOption n, a', [], h1, ⟨h2, rfl⟩, rfl⟩))
  | request i type path hdrs content len status rhdrs rcontent =>
    rcases h with ⟨_, hn, h⟩ | ⟨a, r, a', w', h1, ho, ⟨y, r', y', evs, k, _, h4, h5, h6, rfl⟩, rfl⟩
    · exact .inl h
    · exact .inr (.inr (.inr ⟨i, a, .request y r' y' k, a', evs, h1, ⟨h4, h5⟩, rfl⟩))

/-- an invariant of all histories -/
theorem always {Inv : World → Prop} (h0 : Inv ([], []))
    (hp : ∀ x c, Inv x → Called.plain c → Inv (x.1, x.2 ++ [⟨none, c, []⟩]))
    (hn : ∀ x host a' evs, Inv x → CreateE host a' evs → Inv (x.1 ++ [a'], x.2 ++ [⟨some x.1.length, .create host a', evs⟩]))
    (hs : ∀ x i a c a' evs, Inv x → x.1[i]? = some a → Eff rel a c a' evs → Inv (x.1.set i a', x.2 ++ [⟨some i, c, evs⟩]))
    (h : Runs (step rel) ([], []) ops outs (as, log)) : Inv (as, log) := by
  have gen : ∀ (x : World) ops outs x', Runs (step rel) x ops outs x' → Inv x → Inv x' := by
    intro x ops outs x' hr
    induction hr with
    | nil => exact id
    | cons h1 _ ih =>
      intro hx
      apply ih
      rcases step_cases h1 with rfl | ⟨c, hc, rfl⟩ | ⟨host, a', evs, hc, rfl⟩ | ⟨i, a, c, a', evs, hi, hE, rfl⟩
      · exact hx
      · exact hp _ c hx hc
      · exact hn _ host a' evs hx hc
      · exact hs _ i a c a' evs hx hi hE
  exact gen _ _ _ _ h h0

/-- every request of the record did what the specification says -/
theorem requests (h : Runs (step rel) ([], []) ops outs (as, log)) {i : Option Nat} {x x' : Args} {r : Res} {k : Nat} {evs : List Ev}
    (he : (⟨i, .request x r x' k, evs⟩ : Entry) ∈ log) : ∃ a, ExecE rel a x r x' evs k := by
  refine always (rel := rel) (Inv := fun w => ∀ e ∈ w.2, ∀ x r x' k, e.call = .request x r x' k → ∃ a, ExecE rel a x r x' e.evs k) ?_ ?_ ?_ ?_ h _ he x r x' k rfl
  · intro e he; simp at he
  · intro w c hx hc e he x r x' k hk
    rcases List.mem_append.1 he with he | he
    · exact hx e he x r x' k hk
    · simp at he; subst he; dsimp only at hk; subst hk; exact hc.elim
  · intro w host a' evs hx hc e he x r x' k hk
    rcases List.mem_append.1 he with he | he
    · exact hx e he x r x' k hk
    · simp at he; subst he; cases hk
  · intro w i a c a' evs hx hi hE e he x r x' k hk
    rcases List.mem_append.1 he with he | he
    · exact hx e he x r x' k hk
    · simp at he; subst he; dsimp only at hk; subst hk; exact ⟨a, hE.1⟩

/-- the arguments of every request of the record were made from those of an operation of the client -/
theorem requests_made (h : Runs (step rel) ([], []) ops outs (as, log)) {p : Option Nat} {x x' : Args} {r : Res} {k : Nat} {evs : List Ev}
    (he : (⟨p, .request x r x' k, evs⟩ : Entry) ∈ log) : ∃ i type path hdrs content len status rhdrs rcontent, p = some i ∧
      Op.request i type path hdrs content len status rhdrs rcontent ∈ ops ∧ Made rel type path hdrs content len status rhdrs rcontent x := by
  have gen : ∀ (w : World) ops outs w', Runs (step rel) w ops outs w' → (⟨p, .request x r x' k, evs⟩ : Entry) ∈ w'.2 → (⟨p, .request x r x' k, evs⟩ : Entry) ∈ w.2 ∨
      ∃ i type path hdrs content len status rhdrs rcontent, p = some i ∧
      Op.request i type path hdrs content len status rhdrs rcontent ∈ ops ∧ Made rel type path hdrs content len status rhdrs rcontent x := by
    intro w ops outs w' hr
    induction hr with
    | nil => exact .inl
    | @cons _ op _ _ _ _ _ h1 _ ih =>
      intro hm
      rcases ih hm with hm | ⟨i, t, q, hd, ct, len, st, rh, rc, h2, h3, h4⟩
      · clear ih
        have plain : ∀ {w2 : Log} {e : Entry}, (⟨p, .request x r x' k, evs⟩ : Entry) ∈ w2 ++ [e] → (∀ a b c d, e.call ≠ .request a b c d) → (⟨p, .request x r x' k, evs⟩ : Entry) ∈ w2 := by
          intro w2 e hm hne
          rcases List.mem_append.1 hm with hm | hm
          · exact hm
          · simp at hm; subst hm; exact absurd rfl (hne _ _ _ _)
        cases op with
        | init => obtain ⟨b, w2, _, ⟨_, rfl⟩, rfl⟩ := h1; exact .inl (plain hm (by simp))
        | deinit => obtain ⟨b, w2, _, ⟨_, rfl⟩, rfl⟩ := h1; exact .inl (plain hm (by simp))
        | clone n => obtain ⟨b, w2, _, ⟨_, rfl⟩, rfl⟩ := h1; exact .inl (plain hm (by simp))
        | create host => obtain ⟨b, a', w2, _, ⟨_, _, _, rfl⟩, rfl⟩ := h1; exact .inl (plain hm (by simp))
        | close i =>
          rcases h1 with ⟨_, _, rfl⟩ | ⟨a, r, a', w2, _, _, ⟨_, _, evs, _, rfl⟩, rfl⟩
          · exact .inl hm
          · exact .inl (plain hm (by simp))
        | setOption i n =>
          rcases h1 with ⟨_, _, rfl⟩ | ⟨a, r, a', w2, _, _, ⟨_, _, rfl⟩, rfl⟩
          · exact .inl hm
          · exact .inl (plain hm (by simp))
        | request i t q hd ct len st rh rc =>
          rcases h1 with ⟨_, _, rfl⟩ | ⟨a, r2, a', w2, _, _, ⟨y, r1, y', evs1, k1, hM, _, _, _, rfl⟩, rfl⟩
          · exact .inl hm
          · rcases List.mem_append.1 hm with hm | hm
            · exact .inl hm
            · simp at hm
              obtain ⟨rfl, ⟨rfl, rfl, rfl, rfl⟩, rfl⟩ := hm
              exact .inr ⟨i, t, q, hd, ct, len, st, rh, rc, rfl, by simp, hM⟩
      · exact .inr ⟨i, t, q, hd, ct, len, st, rh, rc, h2, by simp [h3], h4⟩
  rcases gen _ _ _ _ h he with h | h
  · simp at h
  · exact h

/-! ## Clients -/

theorem FieldsE.quiet {c : Nat} {P : Ev → Prop} (hP : ∀ n v e, P (.field c n v e)) : ∀ {ls : List Text} {r : Res} {evs : List Ev}, FieldsE rel c ls r evs → ∀ e ∈ evs, P e
  | [], r, evs, h => by rw [h.2]; simp
  | l :: ls, r, evs, h => by
    rcases h with ⟨_, rfl, _⟩ | ⟨e, _, _, rfl⟩ | ⟨e, rest, _, rfl, h⟩
    · simp
    · simpa using hP _ _ _
    · intro e' he'
      rcases List.mem_cons.1 he' with rfl | he'
      · exact hP _ _ _
      · exact FieldsE.quiet hP h e' he'

/-- the calls of a request are calls on its client, none of them obtains or gives up a client -/
def Ev.inside (c : Nat) : Ev → Prop
  | .request c' _ _ _ | .field c' _ _ _ | .endFields c' _ | .body c' _ _ | .status c' _ | .header c' _ | .content c' _ => c' = c
  | _ => False

theorem SendE.inside {c : Nat} {verb path : Text} {ls : List Text} {body : Text} {r : Res} {evs : List Ev} (h : SendE rel c verb path ls body r evs) : ∀ e ∈ evs, e.inside c := by
  rcases h with ⟨e, _, _, rfl⟩ | ⟨e, r1, evs1, _, hF, ⟨_, _, rfl⟩ | ⟨_, evs2, hT, rfl⟩⟩
  · simp [Ev.inside]
  · intro e' he'
    rcases List.mem_cons.1 he' with rfl | he'
    · rfl
    · exact hF.quiet (P := Ev.inside c) (fun _ _ _ => rfl) e' he'
  · intro e' he'
    rcases List.mem_cons.1 he' with rfl | he'
    · rfl
    · rcases List.mem_append.1 he' with he' | he'
      · exact hF.quiet (P := Ev.inside c) (fun _ _ _ => rfl) e' he'
      · rcases hT with ⟨e2, _, _, rfl⟩ | ⟨e2, _, ⟨_, _, rfl⟩ | ⟨_, e3, rfl, _⟩⟩ <;> simp at he'
        · subst he'; rfl
        · subst he'; rfl
        · rcases he' with rfl | rfl <;> rfl

theorem ReceiveE.inside {c : Nat} {x x' : Args} {hs : Hdrs} {r : Res} {evs : List Ev} {k : Nat} (h : ReceiveE rel c x hs r x' evs k) : ∀ e ∈ evs, e.inside c := by
  have hh : ∀ (e0 : Int) (xs ys : List Read), ∀ e ∈ Ev.status c e0 :: (xs.map (Ev.header c) ++ ys.map (Ev.content c)), e.inside c := by
    intro e0 xs ys e he
    simp at he
    rcases he with rfl | ⟨a, _, rfl⟩ | ⟨a, _, rfl⟩ <;> rfl
  rcases h with ⟨e, _, _, _, rfl, _⟩ | ⟨e, xs, r1, hs', _, _, _, ⟨_, _, _, rfl⟩ | ⟨_, _, h⟩⟩
  · simpa using hh e [] []
  · simpa using hh e xs []
  · split at h
    · rw [h.2]; simpa using hh e xs []
    · obtain ⟨ys, b', _, _, rfl⟩ := h
      exact hh e xs ys

theorem ExecE.inside {a : Option Nat} {x x' : Args} {r : Res} {evs : List Ev} {k : Nat} (h : ExecE rel a x r x' evs k) : evs = [] ∨ ∃ c, a = some c ∧ ∀ e ∈ evs, e.inside c := by
  unfold ExecE at h
  split at h
  · split at h
    · exact .inl h.2.2.1
    · split at h
      · exact .inl h.2.2.1
      · refine .inr ⟨_, rfl, ?_⟩
        obtain ⟨r1, evs1, hS, ⟨_, _, _, rfl, _⟩ | ⟨_, evs2, hR, rfl⟩⟩ := h
        · exact hS.inside
        · intro e he
          rcases List.mem_append.1 he with he | he
          · exact hS.inside e he
          · exact hR.inside e he
  · exact .inl h.2.2.1

theorem inside_count {c d : Nat} {evs : List Ev} (h : ∀ e ∈ evs, e.inside c) : created d evs = 0 ∧ deleted d evs = 0 := by
  constructor
  · refine List.count_eq_zero.2 fun hm => ?_
    exact (h _ hm : False)
  · refine List.count_eq_zero.2 fun hm => ?_
    exact (h _ hm : False)

theorem count_set {c : Nat} {as : List (Option Nat)} {i : Nat} {a a' : Option Nat} (h : as[i]? = some a) :
    holders c (as.set i a') + (if a = some c then 1 else 0) = holders c as + if a' = some c then 1 else 0 := by
  unfold holders
  induction as generalizing i with
  | nil => simp at h
  | cons b bs ih =>
    cases i with
    | zero =>
      simp at h; subst h
      simp only [List.set_cons_zero, List.count_cons, beq_iff_eq]
      omega
    | succ i =>
      simp only [List.getElem?_cons_succ] at h
      have := ih h
      simp only [List.set_cons_succ, List.count_cons]
      omega

/-- C85: whatever the history, each client that was obtained from the library has been given up, or belongs to an open connection. -/
theorem clients_balance (h : Runs (step rel) ([], []) ops outs (as, log)) {c : Nat} (hc : c ≠ 0) :
    created c (trace log) = deleted c (trace log) + holders c as := by
  refine always (rel := rel) (Inv := fun w => created c (trace w.2) = deleted c (trace w.2) + holders c w.1) ?_ ?_ ?_ ?_ h
  · rfl
  · intro x d hx _
    dsimp only
    rw [trace_snoc, List.append_nil]; exact hx
  · intro x host a' evs hx hE
    dsimp only
    rw [trace_snoc]
    unfold created deleted holders at hx ⊢
    rw [List.count_append, List.count_append, List.count_append, hx]
    rcases hE with ⟨r, y, _, rfl, rfl⟩ | ⟨r, y, _, ⟨rfl, rfl⟩ | ⟨d, hd, ⟨e, _, rfl, rfl⟩ | ⟨e, _, rfl, rfl⟩⟩⟩
    · simp
    · simp [hc.symm]
    · by_cases hcd : d = c <;> simp [hcd, List.count_cons] <;> omega
    · by_cases hcd : d = c <;> simp [hcd, List.count_cons] <;> omega
  · intro x i a d a' evs hx hi hE
    dsimp only
    rw [trace_snoc]
    have hset := count_set (c := c) (a' := a') hi
    have key : created c evs + (if a = some c then 1 else 0) = deleted c evs + if a' = some c then 1 else 0 := by
      unfold Eff at hE
      split at hE
      · obtain ⟨rfl, hE⟩ := hE
        unfold CloseE at hE
        subst hE
        cases a with
        | none => simp [created, deleted]
        | some d => by_cases hcd : d = c <;> simp [created, deleted, hcd]
      · obtain ⟨rfl, rfl⟩ := hE
        rfl
      · obtain ⟨hE, rfl⟩ := hE
        rcases hE.inside with rfl | ⟨d, rfl, hd⟩
        · rfl
        · rw [(inside_count hd).1, (inside_count hd).2]
      · exact hE.elim
    have e1 : created c (trace x.2 ++ evs) = created c (trace x.2) + created c evs := List.count_append ..
    have e2 : deleted c (trace x.2 ++ evs) = deleted c (trace x.2) + deleted c evs := List.count_append ..
    rw [e1, e2]
    omega

/-! ## The order of calls -/

theorem runs_append {p : Phase} {l1 l2 : List Ev} : runs p (l1 ++ l2) = (runs p l1).bind fun q => runs q l2 := by
  induction l1 generalizing p with
  | nil => rfl
  | cons e es ih =>
    simp only [List.cons_append, runs]
    cases next p e with
    | none => rfl
    | some q => exact ih

/-- the connected client `c`, with a request or without -/
def Open (c : Nat) (p : Phase) : Prop := p.live = true ∧ p.cli = some c

theorem Open.ready {c : Nat} : Open c (.ready c) := ⟨rfl, rfl⟩

theorem next_request {c : Nat} {p : Phase} {v t : Text} {r : Int} (h : Open c p) : next p (.request c v t r) = some (if r < 0 then .ready c else .fields c) := by
  obtain ⟨h1, h2⟩ := h
  cases p <;> simp [Phase.live] at h1 <;> simp [Phase.cli] at h2 <;> subst h2 <;> simp [next, Phase.live, Phase.cli]

theorem next_disconnect {c : Nat} {p : Phase} (h : Open c p) : next p (.disconnect c) = some (.fresh c) := by
  obtain ⟨h1, h2⟩ := h
  cases p <;> simp [Phase.live] at h1 <;> simp [Phase.cli] at h2 <;> subst h2 <;> simp [next, Phase.live, Phase.cli]

theorem FieldsE.order {c : Nat} : ∀ {ls : List Text} {r : Res} {evs : List Ev}, FieldsE rel c ls r evs →
    ∃ p, runs (.fields c) evs = some p ∧ Open c p ∧ (r = .ok → p = .fields c)
  | [], r, evs, h => by rw [h.2]; exact ⟨_, rfl, ⟨rfl, rfl⟩, fun _ => rfl⟩
  | l :: ls, r, evs, h => by
    rcases h with ⟨rfl, rfl, _⟩ | ⟨e, he, rfl, rfl⟩ | ⟨e, rest, he, rfl, h⟩
    · exact ⟨_, rfl, ⟨rfl, rfl⟩, fun h => by cases h⟩
    · exact ⟨.ready c, by simp [runs, next, he], ⟨rfl, rfl⟩, fun h => by cases h⟩
    · obtain ⟨p, h1, h2⟩ := FieldsE.order h
      exact ⟨p, by simp [runs, next, Int.not_lt.2 he, h1], h2⟩

theorem SendE.order {c : Nat} {p : Phase} (hp : Open c p) {verb path : Text} {ls : List Text} {body : Text} {r : Res} {evs : List Ev} (h : SendE rel c verb path ls body r evs) :
    ∃ q, runs p evs = some q ∧ Open c q ∧ (r = .ok → q = .sent c ∨ q = .whole c) := by
  rcases h with ⟨e, he, rfl, rfl⟩ | ⟨e, r1, evs1, he, hF, h⟩
  · exact ⟨.ready c, by simp [runs, next_request hp, he], ⟨rfl, rfl⟩, fun h => by cases h⟩
  · obtain ⟨q, h1, h2, h3⟩ := hF.order
    rcases h with ⟨hr, rfl, rfl⟩ | ⟨rfl, evs2, hT, rfl⟩
    · exact ⟨q, by simp [runs, next_request hp, Int.not_lt.2 he, h1], h2, fun h => absurd h hr⟩
    · rw [h3 rfl] at h1
      have : ∃ q, runs (.fields c) evs2 = some q ∧ Open c q ∧ (r = .ok → q = .sent c ∨ q = .whole c) := by
        rcases hT with ⟨e2, h4, rfl, rfl⟩ | ⟨e2, h4, ⟨_, rfl, rfl⟩ | ⟨_, e3, rfl, h5⟩⟩
        · exact ⟨.ready c, by simp [runs, next, h4], ⟨rfl, rfl⟩, fun h => by cases h⟩
        · exact ⟨.sent c, by simp [runs, next, Int.not_lt.2 h4], ⟨rfl, rfl⟩, fun _ => .inl rfl⟩
        · by_cases h6 : e3 < 0
          · rw [if_pos h6] at h5
            exact ⟨.ready c, by simp [runs, next, Int.not_lt.2 h4, h6], ⟨rfl, rfl⟩, fun h => by rw [h5] at h; cases h⟩
          · exact ⟨.whole c, by simp [runs, next, Int.not_lt.2 h4, h6], ⟨rfl, rfl⟩, fun _ => .inr rfl⟩
      obtain ⟨q2, h4, h5⟩ := this
      exact ⟨q2, by simp [runs, next_request hp, Int.not_lt.2 he, runs_append, h1, h4], h5⟩

theorem HeadersE.order {c : Nat} : ∀ {xs : List Read} {cur : Text} {hs hs' : Hdrs} {r : Res}, HeadersE rel cur xs hs r hs' →
    ∃ p, runs (.headers c) (xs.map (.header c)) = some p ∧ Open c p ∧ (r = .ok → p = .content c)
  | [], _, _, _, _, h => h.elim
  | .err e :: l, cur, hs, hs', r, h => by
    obtain ⟨h1, rfl, rfl, _⟩ := h
    exact ⟨.ready c, by simp [runs, next], ⟨rfl, rfl⟩, fun h => by cases h⟩
  | .data bs more :: l, cur, hs, hs', r, h => by
    unfold HeadersE at h
    split at h
    · rename_i hb
      obtain ⟨rfl, rfl, _⟩ := h
      subst hb
      exact ⟨.content c, by simp [runs, next], ⟨rfl, rfl⟩, fun _ => rfl⟩
    · rename_i hb
      have hn : next (.headers c) (.header c (.data bs more)) = some (.headers c) := by
        cases bs with
        | nil => exact absurd rfl hb
        | cons b bs => simp [next]
      have stop : l = [] → r ≠ .ok → ∃ p, runs (.headers c) ((Read.data bs more :: l).map (.header c)) = some p ∧ Open c p ∧ (r = .ok → p = .content c) := by
        rintro rfl hr
        exact ⟨.headers c, by simp [runs, hn], ⟨rfl, rfl⟩, fun h => absurd h hr⟩
      have go : ∀ {cur hs1}, HeadersE rel cur l hs1 r hs' → ∃ p, runs (.headers c) ((Read.data bs more :: l).map (.header c)) = some p ∧ Open c p ∧ (r = .ok → p = .content c) := by
        intro cur hs1 h
        obtain ⟨p, h1, h2⟩ := HeadersE.order (c := c) h
        exact ⟨p, by simp [runs, hn, h1], h2⟩
      rcases h with ⟨h1, h2, _⟩ | h
      · exact stop h1 (by rw [h2]; simp)
      · split at h
        · exact go h
        · obtain ⟨line, _, h⟩ := h
          split at h
          · obtain ⟨r1, hs1, _, h⟩ := h
            split at h
            · exact go h
            · exact stop h.1 (by rw [h.2.1]; simp)
          · exact stop h.1 (by rw [h.2.1]; simp)

theorem BodyE.order {c : Nat} {b : Content} : ∀ {ys : List Read} {got : Text} {b' : Content}, BodyE rel b got ys b' →
    ∃ p, runs (.content c) (ys.map (.content c)) = some p ∧ Open c p
  | [], _, _, h => h.elim
  | .err e :: l, _, _, h => by
    obtain ⟨_, rfl, _⟩ := h
    exact ⟨.ready c, by simp [runs, next], ⟨rfl, rfl⟩⟩
  | .data bs more :: l, got, b', h => by
    unfold BodyE at h
    rcases h with ⟨_, rfl, _⟩ | h
    · cases more
      · exact ⟨.ready c, by simp [runs, next], ⟨rfl, rfl⟩⟩
      · exact ⟨.content c, by simp [runs, next], ⟨rfl, rfl⟩⟩
    · cases more with
      | true =>
        obtain ⟨p, h1, h2⟩ := BodyE.order (c := c) (if_pos rfl ▸ h)
        exact ⟨p, by simp [runs, next, h1], h2⟩
      | false =>
        rw [if_neg (by simp)] at h
        obtain ⟨rfl, _⟩ := h
        exact ⟨.ready c, by simp [runs, next], ⟨rfl, rfl⟩⟩

theorem ReceiveE.order {c : Nat} {p : Phase} (hp : p = .sent c ∨ p = .whole c) {x x' : Args} {hs : Hdrs} {r : Res} {evs : List Ev} {k : Nat} (h : ReceiveE rel c x hs r x' evs k) :
    ∃ q, runs p evs = some q ∧ Open c q := by
  have hn : ∀ e, next p (.status c e) = some (if e < 0 then .ready c else .headers c) := by
    intro e; rcases hp with rfl | rfl <;> simp [next]
  rcases h with ⟨e, he, _, _, rfl, _⟩ | ⟨e, xs, r1, hs', he, hH, _, h⟩
  · exact ⟨.ready c, by simp [runs, hn, he], ⟨rfl, rfl⟩⟩
  · obtain ⟨q, h1, h2, h3⟩ := hH.order (c := c)
    rcases h with ⟨_, _, _, rfl⟩ | ⟨rfl, _, h⟩
    · exact ⟨q, by simp [runs, hn, Int.not_lt.2 he, h1], h2⟩
    · split at h
      · rw [h.2]
        exact ⟨q, by simp [runs, hn, Int.not_lt.2 he, h1], h2⟩
      · obtain ⟨ys, b', hB, _, rfl⟩ := h
        obtain ⟨q2, h4, h5⟩ := hB.order (c := c)
        rw [h3 rfl] at h1
        exact ⟨q2, by simp [runs, hn, Int.not_lt.2 he, runs_append, h1, h4], h5⟩

/-- where a connection is -/
def Where (a : Option Nat) (p : Phase) : Prop :=
  match a with
  | none => p = .closed
  | some c => Open c p

theorem ExecE.order {a : Option Nat} {p : Phase} (hp : Where a p) {x x' : Args} {r : Res} {evs : List Ev} {k : Nat} (h : ExecE rel a x r x' evs k) :
    ∃ q, runs p evs = some q ∧ Where a q := by
  unfold ExecE at h
  split at h
  · split at h
    · rw [h.2.2.1]; exact ⟨p, rfl, hp⟩
    · split at h
      · rw [h.2.2.1]; exact ⟨p, rfl, hp⟩
      · obtain ⟨r1, evs1, hS, h⟩ := h
        obtain ⟨q, h1, h2, h3⟩ := hS.order (p := p) hp
        rcases h with ⟨_, _, _, rfl, _⟩ | ⟨rfl, evs2, hR, rfl⟩
        · exact ⟨q, h1, h2⟩
        · obtain ⟨q2, h4, h5⟩ := hR.order (h3 rfl)
          exact ⟨q2, by simp [runs_append, h1, h4], h5⟩
  · rw [h.2.2.1]; exact ⟨p, rfl, hp⟩

theorem Eff.order {a a' : Option Nat} {p : Phase} (hp : Where a p) {c : Called} {evs : List Ev} (h : Eff rel a c a' evs) :
    ∃ q, runs p evs = some q ∧ Where a' q := by
  unfold Eff at h
  split at h
  · obtain ⟨rfl, h⟩ := h
    cases a with
    | none => subst h; exact ⟨p, rfl, hp⟩
    | some c => subst h; exact ⟨.closed, by
      have e : next (.fresh c) (.delete c) = some .closed := by simp [next]
      simp [runs, next_disconnect hp, e], rfl⟩
  · obtain ⟨rfl, rfl⟩ := h; exact ⟨p, rfl, hp⟩
  · obtain ⟨h, rfl⟩ := h; exact h.order hp
  · exact h.elim

theorem CreateE.order {host : Text} {a : Option Nat} {evs : List Ev} (h : CreateE host a evs) : ∃ q, runs .closed evs = some q ∧ Where a q := by
  rcases h with ⟨r, y, _, rfl, rfl⟩ | ⟨r, y, _, ⟨rfl, rfl⟩ | ⟨d, hd, ⟨e, he, rfl, rfl⟩ | ⟨e, he, rfl, rfl⟩⟩⟩
  · exact ⟨.closed, rfl, rfl⟩
  · exact ⟨.closed, rfl, rfl⟩
  · exact ⟨.closed, by simp [runs, next, hd, he], rfl⟩
  · exact ⟨.ready d, by simp [runs, next, hd, Int.not_lt.2 he], ⟨rfl, rfl⟩⟩

theorem ofPos_snoc {i : Nat} {e : Entry} {log : Log} : ofPos i (log ++ [e]) = if e.pos = some i then ofPos i log ++ [e] else ofPos i log := by
  unfold ofPos
  rw [List.filter_append]
  by_cases h : e.pos = some i <;> simp [h]

/-- C85: whatever the history, the library is called on each connection only as is allowed, and what the connection has obtained is
what the calls have left it. -/
theorem calls_allowed (h : Runs (step rel) ([], []) ops outs (as, log)) (i : Nat) :
    ∃ p, runs .closed (trace (ofPos i log)) = some p ∧ ∀ a, as[i]? = some a → Where a p := by
  have main := always (rel := rel) (Inv := fun w => ∀ i, (w.1.length ≤ i → ofPos i w.2 = []) ∧
    ∃ p, runs .closed (trace (ofPos i w.2)) = some p ∧ ∀ a, w.1[i]? = some a → Where a p) ?_ ?_ ?_ ?_ h
  · exact (main i).2
  · intro i; exact ⟨fun _ => rfl, .closed, rfl, by simp⟩
  · intro x c hx _ i
    dsimp only
    rw [ofPos_snoc, if_neg (by simp)]; exact hx i
  · intro x host a' evs hx hE i
    dsimp only
    rw [ofPos_snoc]
    by_cases hi : x.1.length = i
    · subst hi
      obtain ⟨q, h1, h2⟩ := hE.order
      refine ⟨fun h => by simp at h; omega, q, ?_, ?_⟩
      · rw [if_pos rfl, (hx _).1 (Nat.le_refl _)]; simpa [trace] using h1
      · intro a ha; simp at ha; subst ha; exact h2
    · rw [if_neg (by simp; exact hi)]
      refine ⟨fun h => (hx i).1 (by simp at h; omega), ?_⟩
      obtain ⟨p, h1, h2⟩ := (hx i).2
      refine ⟨p, h1, fun a ha => h2 a ?_⟩
      rw [List.getElem?_append] at ha
      split at ha
      · exact ha
      · rw [List.getElem?_eq_none (by simp; omega)] at ha; simp at ha
  · intro x j a c a' evs hx hj hE i
    dsimp only
    have hlt : j < x.1.length := (List.getElem?_eq_some_iff.1 hj).1
    rw [ofPos_snoc]
    by_cases hi : j = i
    · subst hi
      obtain ⟨p, h1, h2⟩ := (hx j).2
      obtain ⟨q, h3, h4⟩ := hE.order (h2 a hj)
      refine ⟨fun h => by simp at h; omega, q, ?_, ?_⟩
      · rw [if_pos rfl, trace_snoc, runs_append, h1]; exact h3
      · intro b hb; simp [hlt] at hb; subst hb; exact h4
    · rw [if_neg (by simp; exact hi)]
      refine ⟨fun h => (hx i).1 (by simpa using h), ?_⟩
      obtain ⟨p, h1, h2⟩ := (hx i).2
      refine ⟨p, h1, fun b hb => h2 b ?_⟩
      rwa [List.getElem?_set_ne hi] at hb

/-! ## Memory -/

theorem HeadersE.mem (hr : rel) : ∀ {xs : List Read} {cur : Text} {hs hs' : Hdrs} {r : Res}, HeadersE rel cur xs hs r hs' → r ≠ .allocFailed
  | [], _, _, _, _, h => h.elim
  | .err e :: l, cur, hs, hs', r, h => by rw [h.2.2.1]; simp
  | .data bs more :: l, cur, hs, hs', r, h => by
    unfold HeadersE at h
    split at h
    · rw [h.2.1]; simp
    · rcases h with ⟨_, _, _, h⟩ | h
      · exact absurd hr h
      · split at h
        · exact HeadersE.mem hr h
        · obtain ⟨line, _, h⟩ := h
          split at h
          · obtain ⟨r1, hs1, _, h⟩ := h
            split at h
            · exact HeadersE.mem hr h
            · rw [h.2.1]; simp
          · rw [h.2.1]; simp

theorem ExecE.lost {a : Option Nat} {x x' : Args} {r : Res} {evs : List Ev} {k : Nat} (h : ExecE rel a x r x' evs k) : k = 0 ∨ k = 1 ∧ r = .allocFailed ∧ ¬ rel := by
  unfold ExecE at h
  split at h
  · split at h
    · exact .inl h.2.2.2
    · split at h
      · exact .inl h.2.2.2
      · obtain ⟨r1, evs1, hS, h⟩ := h
        rcases h with ⟨_, _, _, _, h⟩ | ⟨rfl, evs2, hR, _⟩
        · exact .inl h
        · rcases hR with ⟨e, he, _, _, _, h⟩ | ⟨e, xs, r1, hs', he, hH, hk, h⟩
          · exact .inl h
          · unfold leaks at hk
            split at hk
            · rename_i h2
              refine .inr ⟨hk, ?_, fun hr => hH.mem hr h2.1⟩
              rcases h with ⟨_, h, _⟩ | ⟨h, _⟩
              · rw [h]; exact h2.1
              · rw [h] at h2; cases h2.1
            · exact .inl hk
  · exact .inl h.2.2.2

/-- C88: blocks of memory are lost only by requests that report `HTTPAPI_ALLOC_FAILED`, one each, and none if memory is not refused. -/
theorem lost_only_if_refused (h : Runs (step rel) ([], []) ops outs (as, log)) {i : Option Nat} {x x' : Args} {r : Res} {k : Nat} {evs : List Ev}
    (he : (⟨i, .request x r x' k, evs⟩ : Entry) ∈ log) : k = 0 ∨ k = 1 ∧ r = .allocFailed ∧ ¬ rel := by
  obtain ⟨a, h⟩ := requests h he
  exact h.lost

/-- C88 -/
theorem nothing_lost (h : Runs (step rel) ([], []) ops outs (as, log)) (hr : rel) : lost log = 0 := by
  have : ∀ e ∈ log, e.lost = 0 := by
    intro e he
    obtain ⟨pos, call, evs⟩ := e
    unfold Entry.lost
    split
    · rename_i hc
      dsimp only at hc; subst hc
      rcases lost_only_if_refused h he with h | h
      · exact h
      · exact absurd hr h.2.2
    · rfl
  unfold lost
  rw [List.map_eq_replicate_iff.2 this]
  simp

/-! ## Requests -/

/-- the fields of a request as the library is to receive them -/
def fieldsOf (hs : Hdrs) : List (Text × Text) := hs.reverse.map fun p => split (p.1 ++ [58, 32] ++ p.2)

theorem linesOf_split (hs : Hdrs) : (linesOf hs).map split = fieldsOf hs := by simp [linesOf, fieldsOf]

/-- names without a colon, values that do not begin with a space -/
def Clean (hs : Hdrs) : Prop := ∀ p ∈ hs, 58 ∉ p.1 ∧ p.2.head? ≠ some 32

theorem takeWhile_stop {α : Type} {p : α → Bool} {l : List α} {a : α} {r : List α} (h : ∀ x ∈ l, p x = true) (ha : p a = false) :
    (l ++ a :: r).takeWhile p = l ∧ (l ++ a :: r).dropWhile p = a :: r := by
  induction l with
  | nil => simp [List.takeWhile_cons, List.dropWhile_cons, ha]
  | cons b bs ih =>
    have := ih fun x hx => h x (by simp [hx])
    simp [List.takeWhile_cons, List.dropWhile_cons, h b (by simp), this]

theorem dropWhile_head {l : Text} (h : l.head? ≠ some 32) : l.dropWhile (· = 32) = l := by
  cases l with
  | nil => rfl
  | cons b bs =>
    have : b ≠ 32 := by simpa using h
    simp [List.dropWhile_cons, this]

theorem split_line {n v : Text} (hn : 58 ∉ n) (hv : v.head? ≠ some 32) : split (n ++ [58, 32] ++ v) = (n, v) := by
  unfold split
  have := takeWhile_stop (p := fun x : UInt8 => decide (x ≠ 58)) (l := n) (a := 58) (r := 32 :: v) (fun x hx => by
    simp; rintro rfl; exact hn hx) (by simp)
  rw [show n ++ [58, 32] ++ v = n ++ 58 :: 32 :: v by simp, this.1, this.2]
  simp [List.dropWhile_cons, dropWhile_head hv]

/-- the headers, last first -/
theorem fieldsOf_clean {hs : Hdrs} (h : Clean hs) : fieldsOf hs = hs.reverse := by
  unfold fieldsOf
  conv => rhs; rw [← List.map_id hs.reverse]
  refine List.map_congr_left fun p hp => ?_
  have := h p (by simpa using hp)
  exact split_line this.1 this.2

theorem clean_stored {hs : Hdrs} {n v : Text} {b : Bool} (h : Clean hs) (hn : okName n) : Clean (stored b hs n (v.dropWhile isLWS)) := by
  have hn' : 58 ∉ n := fun hm => (hn 58 hm).2.2 rfl
  have hv : (v.dropWhile isLWS).head? ≠ some 32 := by
    intro hh
    have := List.head?_dropWhile_not isLWS v
    rw [hh] at this
    simp [isLWS] at this
  have hset : ∀ w : Text, w.head? ≠ some 32 → Clean (Headers.set hs n w) := by
    intro w hw p hp
    unfold Headers.set at hp
    obtain ⟨q, hq, rfl⟩ := List.mem_map.1 hp
    split
    · exact ⟨hn', hw⟩
    · exact h q hq
  unfold stored
  cases hf : find hs n with
  | none =>
    intro p hp
    rcases List.mem_append.1 hp with hp | hp
    · exact h p hp
    · simp at hp; subst hp; exact ⟨hn', hv⟩
  | some old =>
    dsimp only
    split
    · exact hset _ hv
    · refine hset _ ?_
      cases ho : old with
      | nil => simp
      | cons a l =>
        subst ho
        unfold find at hf
        cases hq : hs.find? fun p => p.1 = n with
        | none => simp [hq] at hf
        | some q =>
          simp [hq] at hf
          have := (h q (List.mem_of_find?_eq_some hq)).2
          rw [hf] at this
          simpa using this

/-- headers built by adding pairs one after the other have names without colons and values without white space at the beginning -/
theorem built_clean : ∀ {l : List (Text × Text)} {hs hs' : Hdrs}, Built rel hs l hs' → Clean hs → Clean hs'
  | [], hs, hs', h, hc => by cases h; exact hc
  | p :: l, hs, hs', h, hc => by
    obtain ⟨r, hs1, hS, h⟩ := h
    refine built_clean h ?_
    unfold StoreE at hS
    dsimp only at hS
    split at hS
    · rename_i hn
      rcases hS with ⟨_, h⟩ | ⟨_, h, _⟩
      · have h := Option.some.inj h; subst h; exact clean_stored hc hn
      · have h := Option.some.inj h; subst h; exact hc
    · have h := Option.some.inj hS.2; subst h; exact hc

/-- the headers after adding pairs one after the other: invalid names are skipped, white space before a value is dropped, values of equal names are joined -/
theorem built_all (hr : rel) : ∀ {l : List (Text × Text)} {hs hs' : Hdrs}, Built rel hs l hs' → Curl.Fits hs l → hs' = Curl.merged hs l
  | [], hs, hs', h, _ => h
  | p :: l, hs, hs', h, hf => by
    obtain ⟨r, hs1, hS, h⟩ := h
    have e : hs1 = Curl.merged hs [p] := by
      unfold StoreE at hS
      dsimp only at hS
      have h0 := hf [] p l rfl
      split at hS
      · rename_i hn
        rcases hS with ⟨_, h⟩ | ⟨_, _, h⟩
        · simpa [Curl.merged, hn] using h
        · exfalso
          rcases h with h | h | ⟨old, h1, h2⟩
          · exact h hr
          · have := h0.1; simp [Curl.merged] at this; omega
          · have := h0.2 old (by simpa [Curl.merged] using h1); omega
      · rename_i hn
        simpa [Curl.merged, hn] using hS.2
    subst e
    have := built_all hr h (fun l1 q l2 hl => by
      have := hf (p :: l1) q l2 (by rw [hl]; rfl)
      simpa [Curl.merged] using this)
    rw [this]
    simp [Curl.merged]

/-- all fields were accepted -/
theorem FieldsE.ok {c : Nat} : ∀ {ls : List Text} {evs : List Ev}, FieldsE rel c ls .ok evs →
    ∃ es : List Int, es.length = ls.length ∧ (∀ e ∈ es, 0 ≤ e) ∧ evs = List.zipWith (fun p e => .field c p.1 p.2 e) (ls.map split) es
  | [], evs, h => ⟨[], rfl, by simp, h.2⟩
  | l :: ls, evs, h => by
    rcases h with ⟨h, _⟩ | ⟨e, _, h, _⟩ | ⟨e, rest, he, rfl, h⟩
    · cases h
    · cases h
    · obtain ⟨es, h1, h2, h3⟩ := FieldsE.ok h
      refine ⟨e :: es, by simp [h1], ?_, by simp [h3]⟩
      intro e' he'
      rcases List.mem_cons.1 he' with rfl | he'
      · exact he
      · exact h2 e' he'

/-- everything the library has accepted of a request: method and path, the fields, the end of the fields, the body if there is one -/
def Accepted (c : Nat) (verb path : Text) (fields : List (Text × Text)) (body : Text) (evs : List Ev) : Prop :=
  ∃ e es e2, 0 ≤ e ∧ es.length = fields.length ∧ (∀ e ∈ es, 0 ≤ e) ∧ 0 ≤ e2 ∧
    ((body = [] ∧ evs = .request c verb path e :: (List.zipWith (fun p e => Ev.field c p.1 p.2 e) fields es ++ [.endFields c e2])) ∨
     ∃ e3, body ≠ [] ∧ 0 ≤ e3 ∧ evs = .request c verb path e :: (List.zipWith (fun p e => Ev.field c p.1 p.2 e) fields es ++ [.endFields c e2, .body c body e3]))

theorem SendE.ok {c : Nat} {verb path : Text} {hs : Hdrs} {body : Text} {evs : List Ev} (h : SendE rel c verb path (linesOf hs) body .ok evs) :
    Accepted c verb path (fieldsOf hs) body evs := by
  rcases h with ⟨e, _, h, _⟩ | ⟨e, r1, evs1, he, hF, ⟨hr, h, _⟩ | ⟨rfl, evs2, hT, rfl⟩⟩
  · cases h
  · exact absurd h.symm hr
  · obtain ⟨es, h1, h2, rfl⟩ := hF.ok
    rw [linesOf_split]
    have hlen : es.length = (fieldsOf hs).length := by rw [h1, ← linesOf_split, List.length_map]
    rcases hT with ⟨e2, _, h, _⟩ | ⟨e2, h4, ⟨hb, _, rfl⟩ | ⟨hb, e3, rfl, h5⟩⟩
    · cases h
    · exact ⟨e, es, e2, he, hlen, h2, h4, .inl ⟨hb, rfl⟩⟩
    · have h6 : 0 ≤ e3 := by
        refine Int.not_lt.1 fun h7 => ?_
        rw [if_pos h7] at h5; cases h5
      exact ⟨e, es, e2, he, hlen, h2, h4, .inr ⟨e3, hb, h6, rfl⟩⟩

/-- what the client is told of the headers: the lines the library delivered, added to the headers one by one -/
def HeadersOk (rh : Hdrs) (xs : List Read) (hs' : Hdrs) : Prop :=
  (∃ l m, xs = l ++ [.data [] m] ∧ ∀ y ∈ l, ∃ bs m, y = .data bs m ∧ bs ≠ []) ∧
  (∀ l ∈ linesIn [] xs, 58 ∈ l ∧ okName (split l).1) ∧ hs' = addLines rh (linesIn [] xs)

theorem StoreE.good {hs hs1 : Hdrs} {n v : Text} (h : StoreE rel false (some hs) (some n) (some v) .ok (some hs1)) :
    okName n ∧ hs1 = stored false hs n (v.dropWhile isLWS) := by
  unfold StoreE at h
  dsimp only at h
  split at h
  · rename_i hn
    rcases h with ⟨_, h⟩ | ⟨h | h, _⟩
    · exact ⟨hn, by simpa using h⟩
    · cases h
    · cases h.1
  · cases h.1

theorem HeadersE.ok : ∀ {xs : List Read} {cur : Text} {hs hs' : Hdrs}, HeadersE rel cur xs hs .ok hs' →
    (∃ l m, xs = l ++ [.data [] m] ∧ ∀ y ∈ l, ∃ bs m, y = .data bs m ∧ bs ≠ []) ∧
    (∀ l ∈ linesIn cur xs, 58 ∈ l ∧ okName (split l).1) ∧ hs' = addLines hs (linesIn cur xs)
  | [], _, _, _, h => h.elim
  | .err e :: l, cur, hs, hs', h => by cases h.2.2.1
  | .data bs more :: l, cur, hs, hs', h => by
    unfold HeadersE at h
    split at h
    · rename_i hb
      obtain ⟨rfl, _, rfl⟩ := h
      subst hb
      exact ⟨⟨[], more, rfl, by simp⟩, by simp [linesIn], by simp [linesIn, addLines]⟩
    · rename_i hb
      have grow : (∃ l1 m, l = l1 ++ [Read.data [] m] ∧ ∀ y ∈ l1, ∃ bs m, y = Read.data bs m ∧ bs ≠ []) →
          ∃ l1 m, Read.data bs more :: l = l1 ++ [Read.data [] m] ∧ ∀ y ∈ l1, ∃ bs m, y = Read.data bs m ∧ bs ≠ [] := by
        rintro ⟨l1, m, rfl, hl⟩
        refine ⟨.data bs more :: l1, m, rfl, fun y hy => ?_⟩
        rcases List.mem_cons.1 hy with rfl | hy
        · exact ⟨bs, more, rfl, hb⟩
        · exact hl y hy
      rcases h with ⟨_, h, _⟩ | h
      · cases h
      · cases more with
        | true =>
          rw [if_pos rfl] at h
          obtain ⟨h1, h2, h3⟩ := HeadersE.ok h
          refine ⟨grow h1, ?_, ?_⟩ <;> simp only [linesIn, if_neg hb, if_true] <;> assumption
        | false =>
          rw [if_neg (by simp)] at h
          obtain ⟨line, hline, h⟩ := h
          have hd : (cur ++ bs).dropLast = line := by rw [hline]; simp
          split at h
          · rename_i hcolon
            obtain ⟨r1, hs1, hS, h⟩ := h
            split at h
            · rename_i hr1
              subst hr1
              obtain ⟨h1, h2, h3⟩ := HeadersE.ok h
              obtain ⟨h4, h5⟩ := StoreE.good hS
              refine ⟨grow h1, ?_, ?_⟩ <;> simp only [linesIn, if_neg hb, Bool.false_eq_true, if_false, hd]
              · intro l hl
                rcases List.mem_cons.1 hl with rfl | hl
                · exact ⟨hcolon, h4⟩
                · exact h2 l hl
              · rw [h3, h5]; rfl
            · cases h.2.1
          · cases h.2.1

/-- the body stored: the library has delivered all of it, or a failure was not reported -/
theorem BodyE.cases {b : Content} : ∀ {ys : List Read} {got : Text} {b' : Content}, BodyE rel b got ys b' →
    (ended ys ∧ b' = over b (got ++ delivered ys)) ∨
    (∃ l e, ys = l ++ [.err e] ∧ b' = over b (got ++ delivered l)) ∨
    (∃ l bs m, ys = l ++ [.data bs m] ∧ b' = over b (got ++ delivered l) ∧ (¬ rel ∨ maxObj < (b.getD []).length + (got ++ delivered ys).length))
  | [], _, _, h => h.elim
  | .err e :: l, got, b', h => by
    obtain ⟨_, rfl, rfl⟩ := h
    exact .inr (.inl ⟨[], e, rfl, by simp [delivered]⟩)
  | .data bs more :: l, got, b', h => by
    unfold BodyE at h
    rcases h with ⟨hb, rfl, rfl, hr⟩ | h
    · exact .inr (.inr ⟨[], bs, more, rfl, by simp [delivered], by simpa [delivered, Read.bytes] using hr⟩)
    · cases more with
      | true =>
        have hd : ∀ l, delivered (Read.data bs true :: l) = bs ++ delivered l := fun l => by simp [delivered, Read.bytes]
        rcases BodyE.cases (if_pos rfl ▸ h) with ⟨⟨l1, b1, rfl⟩, h2⟩ | ⟨l1, e, rfl, h2⟩ | ⟨l1, b1, m, rfl, h2, h3⟩
        · exact .inl ⟨⟨.data bs true :: l1, b1, rfl⟩, by rw [h2, hd, List.append_assoc]⟩
        · exact .inr (.inl ⟨.data bs true :: l1, e, rfl, by rw [h2, hd, List.append_assoc]⟩)
        · exact .inr (.inr ⟨.data bs true :: l1, b1, m, rfl, by rw [h2, hd, List.append_assoc], by rw [hd, ← List.append_assoc]; exact h3⟩)
      | false =>
        rw [if_neg (by simp)] at h
        obtain ⟨rfl, rfl⟩ := h
        exact .inl ⟨⟨[], bs, rfl⟩, by simp [delivered, Read.bytes]⟩

/-- The effect of a request that reports success: everything was sent, the status and all headers were received, and if the client wants
the body, it gets the whole of it -- or a part, if the library failed or memory was refused. -/
structure Answered (rel : Prop) (c : Nat) (x x' : Args) (evs : List Ev) (xs ys : List Read) (e : Int) : Prop where
  path : ∃ path hs evs1, x.path = some path ∧ x.hdrs = some hs ∧ x.type < 5 ∧ Accepted c (verbOf x.type) path (fieldsOf hs) x.body evs1 ∧
    evs = evs1 ++ .status c e :: (xs.map (.header c) ++ ys.map (.content c))
  status : 0 ≤ e ∧ x'.status = some (.int e.toNat)
  headers : ∃ rh hs', x.rhdrs = some rh ∧ x'.rhdrs = some hs' ∧ HeadersOk rh xs hs'
  noBody : x.rcontent = none → x'.rcontent = none ∧ ys = []
  body : ∀ b, x.rcontent = some b → ∃ b', x'.rcontent = some b' ∧
    ((ended ys ∧ b' = over b (delivered ys)) ∨ (∃ l e, ys = l ++ [.err e] ∧ b' = over b (delivered l)) ∨
      ∃ l bs m, ys = l ++ [.data bs m] ∧ b' = over b (delivered l) ∧ (¬ rel ∨ maxObj < (b.getD []).length + (delivered ys).length))

theorem ExecE.ok {a : Option Nat} {x x' : Args} {evs : List Ev} {k : Nat} (h : ExecE rel a x .ok x' evs k) :
    ∃ c xs ys e, a = some c ∧ Answered rel c x x' evs xs ys e := by
  unfold ExecE at h
  split at h
  · rename_i c path st rh hpath hst hrh
    split at h
    · cases h.1
    · rename_i ht
      split at h
      · cases h.1
      · rename_i hs hhd
        obtain ⟨r1, evs1, hS, ⟨hr, h, _⟩ | ⟨rfl, evs2, hR, rfl⟩⟩ := h
        · exact absurd h.symm hr
        · rcases hR with ⟨e, he, h, _⟩ | ⟨e, xs, r1, hs', he, hH, hk, ⟨hr, h, _⟩ | ⟨rfl, _, h⟩⟩
          · cases h
          · exact absurd h.symm hr
          · have hA := SendE.ok hS
            have hOk := hH.ok
            split at h
            · rename_i hrc
              obtain ⟨rfl, rfl⟩ := h
              refine ⟨c, xs, [], e, rfl, ⟨path, hs, evs1, hpath, hhd, by omega, hA, by simp⟩, ⟨he, rfl⟩, ⟨rh, hs', hrh, rfl, hOk⟩, fun _ => ⟨hrc, rfl⟩, fun b hb => ?_⟩
              rw [hrc] at hb; cases hb
            · rename_i b hrc
              obtain ⟨ys, b', hB, rfl, rfl⟩ := h
              refine ⟨c, xs, ys, e, rfl, ⟨path, hs, evs1, hpath, hhd, by omega, hA, rfl⟩, ⟨he, rfl⟩, ⟨rh, hs', hrh, rfl, hOk⟩, fun hn => ?_, fun b1 hb1 => ?_⟩
              · rw [hrc] at hn; cases hn
              · rw [hrc] at hb1; cases hb1
                exact ⟨b', rfl, by simpa using hB.cases⟩
  · cases h.1

/-- C86, C87: a request that reports success -/
theorem request_ok (h : Runs (step rel) ([], []) ops outs (as, log)) {i : Option Nat} {x x' : Args} {k : Nat} {evs : List Ev}
    (he : (⟨i, .request x .ok x' k, evs⟩ : Entry) ∈ log) : ∃ c xs ys e, Answered rel c x x' evs xs ys e := by
  obtain ⟨a, h⟩ := requests h he
  obtain ⟨c, xs, ys, e, _, h⟩ := h.ok
  exact ⟨c, xs, ys, e, h⟩

/-- C86: a request that reports success was sent as the client wanted it, with all the headers in the object it passed, the last one first;
the library accepted every part. -/
theorem request_sent (h : Runs (step rel) ([], []) ops outs (as, log)) {i : Option Nat} {x x' : Args} {k : Nat} {evs : List Ev}
    (he : (⟨i, .request x .ok x' k, evs⟩ : Entry) ∈ log) :
    ∃ c path hs evs1 rest, x.path = some path ∧ x.hdrs = some hs ∧ evs = evs1 ++ rest ∧ Accepted c (verbOf x.type) path hs.reverse x.body evs1 ∧
      ∀ e ∈ rest, match e with | .status .. | .header .. | .content .. => True | _ => False := by
  obtain ⟨c, xs, ys, e, hA⟩ := request_ok h he
  obtain ⟨path, hs, evs1, h1, h2, _, h3, h4⟩ := hA.path
  obtain ⟨_, _, _, _, _, _, _, _, _, _, _, hM⟩ := requests_made h he
  have hcl : Clean hs := by
    obtain ⟨ps, _, hB⟩ := hM.2.2.1.1 hs h2
    exact built_clean hB (by intro p hp; simp at hp)
  rw [fieldsOf_clean hcl] at h3
  refine ⟨c, path, hs, evs1, _, h1, h2, h4, h3, ?_⟩
  intro e' he'
  simp at he'
  rcases he' with rfl | ⟨a, _, rfl⟩ | ⟨a, _, rfl⟩ <;> trivial

/-- C86: and if memory is not refused while the client makes the headers, they are the ones of its list -/
theorem headers_passed (h : Runs (step rel) ([], []) ops outs (as, log)) (hr : rel) {p : Option Nat} {x x' : Args} {r : Res} {k : Nat} {evs : List Ev} {hs : Hdrs}
    (he : (⟨p, .request x r x' k, evs⟩ : Entry) ∈ log) (hhd : x.hdrs = some hs) :
    ∃ i type path l content len status rhdrs rcontent, p = some i ∧ Op.request i type path (some l) content len status rhdrs rcontent ∈ ops ∧
      (Curl.Fits [] l → hs = Curl.merged [] l) := by
  obtain ⟨i, t, q, hd, ct, len, st, rh, rc, h2, h3, hM⟩ := requests_made h he
  obtain ⟨l, rfl, hB⟩ := hM.2.2.1.1 hs hhd
  exact ⟨i, t, q, l, ct, len, st, rh, rc, h2, h3, fun hf => built_all hr hB hf⟩

/-- C87: the body of the response, if memory is not refused, the library does not fail, and the buffer was empty -/
theorem response_body_partial (h : Runs (step rel) ([], []) ops outs (as, log)) {i : Option Nat} {x x' : Args} {k : Nat} {evs : List Ev}
    (he : (⟨i, .request x .ok x' k, evs⟩ : Entry) ∈ log) (hr : rel) (hrc : x.rcontent = some none)
    (hlib : ∀ c e, Ev.content c (.err e) ∉ evs) :
    ∃ (c : Nat) (e : Int) (xs ys : List Read) (evs1 : List Ev), evs = evs1 ++ .status c e :: (xs.map (.header c) ++ ys.map (.content c)) ∧
      (ended ys ∨ maxObj < (delivered ys).length) ∧
      ((delivered ys).length ≤ maxObj → x'.rcontent = some (if delivered ys = [] then none else some (bytesV (delivered ys)))) := by
  obtain ⟨c, xs, ys, e, hA⟩ := request_ok h he
  obtain ⟨path, hs', evs1, h1, h2, _, h3, h4⟩ := hA.path
  obtain ⟨b', h5, h6⟩ := hA.body none hrc
  have ho : ∀ t, over none t = if t = [] then none else some (bytesV t) := by
    intro t
    unfold over
    split
    · rfl
    · simp [List.drop_of_length_le]
  refine ⟨c, e, xs, ys, evs1, h4, ?_⟩
  rcases h6 with ⟨h6, rfl⟩ | ⟨l, e', rfl, _⟩ | ⟨l, bs, m, rfl, _, h7⟩
  · exact ⟨.inl h6, fun _ => by rw [h5, ho]⟩
  · exfalso
    refine hlib c e' ?_
    rw [h4]; simp
  · rcases h7 with h7 | h7
    · exact absurd hr h7
    · rw [Option.getD_none, List.length_nil, Nat.zero_add] at h7
      exact ⟨.inr h7, fun hle => by omega⟩

end Verif.Ti
