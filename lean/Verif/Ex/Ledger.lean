import Verif.Ex.History
import Verif.Headers.History
/-! # C40–C44: what every history of calls does -/
set_option linter.unusedSimpArgs false
namespace Verif.Ex
open Verif.Headers (Hdrs isLWS stored find)
open Verif.Buffer (Content clen)
open Verif.Sas (text)
variable {oom : Prop} {ops : List Op} {outs : List (Option Out)} {as : List (Option Obj)} {log : Log}

/-- effect of a call on an existing handle -/
def Eff (oom : Prop) (a : Option Obj) (c : Call) (a' : Option Obj) (evs : List Ev) : Prop :=
  match c with
  | .create _ _ => False
  | .destroy => a' = none ∧ DestroyE a evs
  | .setOption n b r => SetE oom n b a r a' evs
  | .request y r y' => ∃ d d', ExecE oom a y d r a' y' d' evs

/-- effect of a constructor -/
def New (oom : Prop) (c : Call) (a' : Option Obj) (evs : List Ev) : Prop :=
  match c with
  | .create host ok => CreateE oom host ok a' ∧ evs = []
  | _ => False

theorem step_cases {x x' : World} {op : Op} {o : Option Out} (h : step oom x op o x') :
    x' = x ∨ (∃ c a' evs, New oom c a' evs ∧ x' = (x.1 ++ [a'], x.2 ++ [⟨x.1.length, c, evs⟩])) ∨
    ∃ i a c a' evs, x.1[i]? = some a ∧ Eff oom a c a' evs ∧ x' = (x.1.set i a', x.2 ++ [⟨i, c, evs⟩]) := by
  cases op with
  | create host =>
    obtain ⟨r, a', w', ho, ⟨ok, h1, h2, rfl⟩, rfl⟩ := h
    exact Or.inr (Or.inl ⟨.create host ok, a', [], ⟨h1, rfl⟩, rfl⟩)
  | destroy i =>
    rcases h with ⟨_, hn, h⟩ | ⟨a, r, a', w', h1, ho, ⟨h2, h3, evs, h4, rfl⟩, rfl⟩
    · exact Or.inl h
    · exact Or.inr (Or.inr ⟨i, a, .destroy, a', evs, h1, ⟨h3, h4⟩, rfl⟩)
  | setOption i n v =>
    rcases h with ⟨_, hn, h⟩ | ⟨a, r, a', w', h1, ho, ⟨b, r', evs, _, h4, h5, rfl⟩, rfl⟩
    · exact Or.inl h
    · exact Or.inr (Or.inr ⟨i, a, .setOption n b r', a', evs, h1, h4, rfl⟩)
  | request i type path hdrs content status rhdrs rcontent =>
    rcases h with ⟨_, hn, h⟩ | ⟨a, r, a', w', h1, ho, ⟨y, d, r', y', d', evs, _, h4, h5, rfl⟩, rfl⟩
    · exact Or.inl h
    · exact Or.inr (Or.inr ⟨i, a, .request y r' y', a', evs, h1, ⟨d, d', h4⟩, rfl⟩)

theorem ofPos_snoc {i : Nat} {e : Entry} : ofPos i (log ++ [e]) = if e.pos = i then ofPos i log ++ [e] else ofPos i log := by
  unfold ofPos
  rw [List.filter_append]
  by_cases h : e.pos = i <;> simp [h]

theorem trace_append {l l' : Log} : trace (l ++ l') = trace l ++ trace l' := by simp [trace]

/-- Induction over the life of each handle; what is known of each entry when it is made. -/
theorem at_pos {Inv : Option Obj → Log → Prop} (hnew : ∀ j c a' evs, New oom c a' evs → Inv a' [⟨j, c, evs⟩])
    (hstep : ∀ j a L c a' evs, Inv a L → Eff oom a c a' evs → Inv a' (L ++ [⟨j, c, evs⟩]))
    (h : Runs (step oom) ([], []) ops outs (as, log)) :
    (∀ i, (as.length ≤ i → ofPos i log = []) ∧ ∀ a, as[i]? = some a → Inv a (ofPos i log)) ∧
    ∀ l1 e l2, log = l1 ++ e :: l2 → ((∃ a', New oom e.call a' e.evs) ∧ ofPos e.pos l1 = []) ∨
      ∃ a a', Inv a (ofPos e.pos l1) ∧ Inv a' (ofPos e.pos l1 ++ [e]) ∧ Eff oom a e.call a' e.evs := by
  have snoc : ∀ {l l1 l2 : Log} {e e' : Entry}, l ++ [e'] = l1 ++ e :: l2 → (l = l1 ∧ e' = e) ∨ ∃ l3, l = l1 ++ e :: l3 := by
    intro l l1 l2 e e' h
    rcases List.eq_nil_or_concat l2 with rfl | ⟨l3, x, rfl⟩
    · have := List.append_inj' h rfl
      exact Or.inl ⟨this.1, by simpa using this.2⟩
    · refine Or.inr ⟨l3, ?_⟩
      have : l ++ [e'] = (l1 ++ e :: l3) ++ [x] := by simpa using h
      exact (List.append_inj' this rfl).1
  have gen : ∀ (x : World) ops outs x', Runs (step oom) x ops outs x' →
      ((∀ i, (x.1.length ≤ i → ofPos i x.2 = []) ∧ ∀ a, x.1[i]? = some a → Inv a (ofPos i x.2)) ∧
        ∀ l1 e l2, x.2 = l1 ++ e :: l2 → ((∃ a', New oom e.call a' e.evs) ∧ ofPos e.pos l1 = []) ∨
          ∃ a a', Inv a (ofPos e.pos l1) ∧ Inv a' (ofPos e.pos l1 ++ [e]) ∧ Eff oom a e.call a' e.evs) →
      ((∀ i, (x'.1.length ≤ i → ofPos i x'.2 = []) ∧ ∀ a, x'.1[i]? = some a → Inv a (ofPos i x'.2)) ∧
        ∀ l1 e l2, x'.2 = l1 ++ e :: l2 → ((∃ a', New oom e.call a' e.evs) ∧ ofPos e.pos l1 = []) ∨
          ∃ a a', Inv a (ofPos e.pos l1) ∧ Inv a' (ofPos e.pos l1 ++ [e]) ∧ Eff oom a e.call a' e.evs) := by
    intro x ops outs x' hr
    induction hr with
    | nil => exact id
    | cons h1 _ ih =>
      rintro ⟨hx, hx2⟩
      apply ih
      rcases step_cases h1 with rfl | ⟨c, a', evs, hN, rfl⟩ | ⟨j, a, c, a', evs, hj, hE, rfl⟩
      · exact ⟨hx, hx2⟩
      · rename_i x op _ _ _ _ _
        refine ⟨fun i => ⟨fun hi => ?_, fun b hb => ?_⟩, fun l1 e l2 hl => ?_⟩
        · simp at hi
          rw [ofPos_snoc, if_neg (by dsimp only; omega)]
          exact (hx i).1 (by omega)
        · rw [List.getElem?_append] at hb
          split at hb
          · rename_i hlt
            rw [ofPos_snoc, if_neg (by dsimp only; omega)]
            exact (hx i).2 b hb
          · rename_i hge
            have : i = x.1.length := by
              rcases Nat.lt_or_ge (i - x.1.length) 1 with h | h
              · omega
              · rw [List.getElem?_eq_none (by simpa using h)] at hb; simp at hb
            subst this
            simp at hb
            subst hb
            rw [ofPos_snoc, if_pos rfl, (hx _).1 (Nat.le_refl _)]
            exact hnew _ _ _ _ hN
        · rcases snoc hl with ⟨rfl, rfl⟩ | ⟨l3, h⟩
          · exact Or.inl ⟨⟨a', hN⟩, (hx _).1 (Nat.le_refl _)⟩
          · exact hx2 _ _ _ h
      · rename_i x op _ _ _ _ _
        have hlt : j < x.1.length := (List.getElem?_eq_some_iff.1 hj).1
        refine ⟨fun i => ⟨fun hi => ?_, fun b hb => ?_⟩, fun l1 e l2 hl => ?_⟩
        · simp at hi
          rw [ofPos_snoc, if_neg (by dsimp only; omega)]
          exact (hx i).1 hi
        · rw [List.getElem?_set] at hb
          by_cases hij : j = i
          · subst hij
            simp [hlt] at hb
            subst hb
            rw [ofPos_snoc, if_pos rfl]
            exact hstep _ _ _ _ _ _ ((hx j).2 a hj) hE
          · rw [if_neg hij] at hb
            rw [ofPos_snoc, if_neg hij]
            exact (hx i).2 b hb
        · rcases snoc hl with ⟨rfl, rfl⟩ | ⟨l3, h⟩
          · exact Or.inr ⟨a, a', (hx j).2 a hj, hstep _ _ _ _ _ _ ((hx j).2 a hj) hE, hE⟩
          · exact hx2 _ _ _ h
  exact gen _ _ _ _ h ⟨fun i => by simp [ofPos], by simp⟩

/-! ## The protocol -/

def phase : Option Nat → Phase
  | none => .idle
  | some c => .connected c

theorem runs_append {p : Phase} {a b : List Ev} : runs p (a ++ b) = (runs p a).bind fun p' => runs p' b := by
  induction a generalizing p with
  | nil => rfl
  | cons e a ih =>
    simp only [List.cons_append, runs]
    cases next p e with
    | none => rfl
    | some q => simp [ih]

theorem runs_applied {c : Nat} {opts : List (Text × Block)} {evs : List Ev} (h : Applied c opts evs) : runs (.connected c) evs = some (.connected c) := by
  obtain ⟨rs, _, rfl⟩ := h
  induction opts generalizing rs with
  | nil => rfl
  | cons p opts ih =>
    cases rs with
    | nil => rfl
    | cons r rs =>
      simp only [List.zipWith_cons_cons, runs, next, if_true, Option.bind_some]
      exact ih rs (by simp_all)

theorem Fresh_runs {o : Obj} {q : Req} {g : Resp} {evs : List Ev} {ok : Bool} {c' : Option Nat} {g' : Resp} (h : Fresh o q g evs ok c' g') :
    runs .idle evs = some (phase c') ∧ c' ≠ some 0 ∧ ok = c'.isSome := by
  cases h with
  | noInit hr => simp [runs, next, hr, phase]
  | noConnection => simp [runs, next, phase]
  | failed hc ha hr => simp [runs_append, runs, next, hc, runs_applied ha, phase]
  | done hc ha => simp [runs_append, runs, next, hc, runs_applied ha, phase]

theorem Retry_runs {o : Obj} {q : Req} {c : Nat} {g : Resp} {evs : List Ev} {ok : Bool} {c' : Option Nat} {g' : Resp} (hc : c ≠ 0) (h : Retry o q c g evs ok c' g') :
    runs (.connected c) evs = some (phase c') ∧ c' ≠ some 0 ∧ ok = c'.isSome := by
  cases h with
  | done => simp [runs, next, phase, hc]
  | noConnection hr hf =>
    have := Fresh_runs hf
    simp [runs_append, runs, next, this]
  | again hr hd ha => simp [runs_append, runs, next, hd, runs_applied ha, phase]
  | failed hr hd ha hr2 hf =>
    have := Fresh_runs hf
    simp [runs_append, runs, next, this, hd, runs_applied ha]

theorem Attempts_runs {o : Obj} {q : Req} {g : Resp} {evs : List Ev} {ok : Bool} {c' : Option Nat} {g' : Resp} (hc : o.conn ≠ some 0)
    (h : Attempts o q g evs ok c' g') : runs (phase o.conn) evs = some (phase c') ∧ c' ≠ some 0 ∧ ok = c'.isSome := by
  unfold Attempts at h
  split at h
  · rename_i e; rw [e]; exact Fresh_runs h
  · rename_i c e; rw [e]; exact Retry_runs (by rw [e] at hc; simpa using hc) h

/-- what is known of each handle: it has followed the protocol, its options are those saved, its host name is that given -/
def Inv (a : Option Obj) (L : Log) : Prop :=
  runs .idle (trace L) = some (phase (a.bind Obj.conn)) ∧
  ∀ o, a = some o → o.conn ≠ some 0 ∧ savedOpts L = o.opts ∧ ∃ j l, L = ⟨j, .create (some o.host) true, []⟩ :: l

theorem savedOpts_snoc {L : Log} {e : Entry} : savedOpts (L ++ [e]) = match e.saves with
    | none => savedOpts L
    | some p => putOpt (savedOpts L) p.1 p.2 := by
  unfold savedOpts
  rw [List.filterMap_append, List.foldl_append]
  cases h : e.saves <;> simp [h]

theorem saves_request {j : Nat} {y y' : Args} {r : Result} {evs : List Ev} : Entry.saves ⟨j, .request y r y', evs⟩ = none := by
  unfold Entry.saves; rfl

theorem Inv_new (j : Nat) (c : Call) (a' : Option Obj) (evs : List Ev) (h : New oom c a' evs) : Inv a' [⟨j, c, evs⟩] := by
  cases c with
  | create host ok =>
    obtain ⟨h, rfl⟩ := h
    cases host with
    | none => obtain ⟨_, rfl⟩ := h; exact ⟨by simp [trace, runs, phase], by simp⟩
    | some t =>
      rcases h with ⟨_, rfl, _⟩ | ⟨rfl, rfl⟩
      · exact ⟨by simp [trace, runs, phase], by simp⟩
      · refine ⟨by simp [trace, runs, phase], ?_⟩
        rintro o ⟨⟩
        exact ⟨by simp, rfl, j, [], rfl⟩
  | destroy => exact h.elim
  | setOption _ _ _ => exact h.elim
  | request _ _ _ => exact h.elim

/-- a call that keeps the handle -/
theorem Inv_keep {j : Nat} {o o' : Obj} {L : Log} {c : Call} {evs : List Ev} (h : Inv (some o) L) (h1 : runs (phase o.conn) evs = some (phase o'.conn))
    (h2 : o'.conn ≠ some 0) (h3 : savedOpts (L ++ [⟨j, c, evs⟩]) = o'.opts) (h4 : o'.host = o.host) : Inv (some o') (L ++ [⟨j, c, evs⟩]) := by
  obtain ⟨k, l, hl⟩ := (h.2 o rfl).2.2
  refine ⟨?_, ?_⟩
  · rw [trace_append, runs_append, h.1]
    simpa [trace] using h1
  · rintro _ ⟨⟩
    exact ⟨h2, h3, k, l ++ [⟨j, c, evs⟩], by rw [hl, h4]; rfl⟩

theorem Inv_step (j : Nat) (a : Option Obj) (L : Log) (c : Call) (a' : Option Obj) (evs : List Ev) (h : Inv a L) (hE : Eff oom a c a' evs) :
    Inv a' (L ++ [⟨j, c, evs⟩]) := by
  have gone : ∀ c, a = none → evs = [] → Inv none (L ++ [⟨j, c, evs⟩]) := by
    rintro c rfl rfl
    refine ⟨?_, by simp⟩
    rw [trace_append, runs_append, h.1]
    simp [trace, runs]
  have same : ∀ o c, a = some o → evs = [] → Entry.saves ⟨j, c, evs⟩ = none → Inv a (L ++ [⟨j, c, evs⟩]) := by
    rintro o c rfl rfl hs
    refine Inv_keep h rfl (h.2 o rfl).1 ?_ rfl
    rw [savedOpts_snoc, hs]; exact (h.2 o rfl).2.1
  cases c with
  | create _ _ => exact hE.elim
  | destroy =>
    obtain ⟨rfl, hE⟩ := hE
    unfold DestroyE at hE
    refine ⟨?_, by simp⟩
    rw [trace_append, runs_append, h.1]
    cases a with
    | none => simp at hE; subst hE; simp [trace, runs]
    | some o =>
      cases ho : o.conn with
      | none => simp [ho] at hE; subst hE; simp [trace, runs, ho]
      | some c => simp [ho] at hE; subst hE; simp [trace, runs, ho, phase, next]
  | setOption n b r =>
    cases a with
    | none => obtain ⟨rfl, rfl, rfl⟩ := hE; exact gone _ rfl rfl
    | some o =>
      have hL := (h.2 o rfl).2.1
      cases n with
      | none => obtain ⟨rfl, rfl, rfl⟩ := hE; exact same o _ rfl rfl rfl
      | some n =>
        cases b with
        | none => obtain ⟨rfl, rfl, rfl⟩ := hE; exact same o _ rfl rfl rfl
        | some b =>
          have hclone : ∀ {r copy}, runs (phase o.conn) [.clone n b r copy] = some (phase o.conn) := by
            intro r copy; cases o.conn <;> rfl
          rcases hE with ⟨copy, rfl, rfl, rfl⟩ | ⟨copy, rfl, rfl, rfl⟩ | ⟨copy, rfl, _, _, rfl, rfl⟩ | ⟨copy, rfl, hE⟩
          · exact Inv_keep h hclone (h.2 o rfl).1 (by rw [savedOpts_snoc]; exact hL) rfl
          · exact Inv_keep h hclone (h.2 o rfl).1 (by rw [savedOpts_snoc]; exact hL) rfl
          · exact Inv_keep h hclone (h.2 o rfl).1 (by rw [savedOpts_snoc]; exact hL) rfl
          · cases ho : o.conn with
            | none =>
              simp only [ho] at hE
              obtain ⟨rfl, rfl⟩ := hE
              refine Inv_keep h ?_ (by simp [ho]) (by rw [savedOpts_snoc, ← hL]; rfl) rfl
              exact hclone.trans (by rw [ho])
            | some c =>
              simp only [ho] at hE
              obtain ⟨s, rfl, rfl⟩ := hE
              refine Inv_keep h ?_ (by have := (h.2 o rfl).1; simpa [ho] using this) ?_ rfl
              · simp [ho, phase, runs, next]
              · rw [savedOpts_snoc, ← hL]; unfold Entry.saves; cases s <;> rfl
  | request y r y' =>
    obtain ⟨d, d', hE⟩ := hE
    cases a with
    | none => obtain ⟨rfl, rfl, rfl, rfl, rfl⟩ := hE; exact gone _ rfl rfl
    | some o =>
      have hL := (h.2 o rfl).2.1
      unfold ExecE at hE
      dsimp only at hE
      split at hE
      · obtain ⟨rfl, rfl, rfl, rfl, rfl⟩ := hE; exact same o _ rfl rfl saves_request
      · rcases hE with ⟨rfl, rfl, rfl, rfl, _⟩ | ⟨ok, c', g', hA, rfl, rfl, rfl, rfl⟩
        · exact same o _ rfl rfl saves_request
        · have := Attempts_runs (h.2 o rfl).1 hA
          exact Inv_keep h this.1 this.2.1 (by rw [savedOpts_snoc, saves_request]; exact hL) rfl

theorem invariant (h : Runs (step oom) ([], []) ops outs (as, log)) :
    (∀ i, (as.length ≤ i → ofPos i log = []) ∧ ∀ a, as[i]? = some a → Inv a (ofPos i log)) ∧
    ∀ l1 e l2, log = l1 ++ e :: l2 → ((∃ a', New oom e.call a' e.evs) ∧ ofPos e.pos l1 = []) ∨
      ∃ a a', Inv a (ofPos e.pos l1) ∧ Inv a' (ofPos e.pos l1 ++ [e]) ∧ Eff oom a e.call a' e.evs :=
  at_pos Inv_new Inv_step h

/-- the entry of a request on a handle that exists: the state of the handle, and what was tried -/
theorem request_entry (h : Runs (step oom) ([], []) ops outs (as, log)) {l1 l2 : Log} {i : Nat} {y y' : Args} {r : Result} {evs : List Ev}
    (hl : log = l1 ++ ⟨i, .request y r y', evs⟩ :: l2) :
    ((r = .invalidArg ∨ r = .error) ∧ evs = []) ∨
    ∃ o d ok c' g', Inv (some o) (ofPos i l1) ∧ Inv (some { o with conn := c' }) (ofPos i l1 ++ [⟨i, .request y r y', evs⟩]) ∧
      Attempts o (y.req o) (y.resp d) evs ok c' g' ∧ r = (if ok then .ok else .recoveryFailed) ∧ y' = y.after o g' ∧ y.type < 5 := by
  rcases (invariant h).2 _ _ _ hl with ⟨⟨a', hN⟩, _⟩ | ⟨a, a', h1, h2, d, d', hE⟩
  · exact hN.elim
  · cases a with
    | none => exact Or.inl ⟨Or.inl hE.1, hE.2.2.2.2⟩
    | some o =>
      unfold ExecE at hE
      dsimp only at hE
      split at hE
      · exact Or.inl ⟨Or.inl hE.1, hE.2.2.2.2⟩
      · rename_i ht
        rcases hE with ⟨rfl, rfl, rfl, rfl, _⟩ | ⟨ok, c', g', hA, rfl, rfl, rfl, _⟩
        · exact Or.inl ⟨Or.inr rfl, rfl⟩
        · exact Or.inr ⟨o, d, ok, c', g', h1, h2, hA, rfl, rfl, by omega⟩

/-! ## C40: attempts -/

theorem applied_count {c : Nat} {opts : List (Text × Block)} {evs : List Ev} (h : Applied c opts evs) :
    evs.countP Ev.isInit = 0 ∧ evs.countP Ev.isCreate = 0 ∧ evs.countP Ev.isExecute = 0 := by
  obtain ⟨rs, _, rfl⟩ := h
  have : ∀ e ∈ List.zipWith (fun (p : Text × Block) r => Ev.setOption c p.1 p.2 r) opts rs, ∃ n b r, e = .setOption c n b r := by
    intro e he
    rw [List.mem_iff_getElem] at he
    obtain ⟨k, hk, rfl⟩ := he
    exact ⟨_, _, _, List.getElem_zipWith⟩
  refine ⟨?_, ?_, ?_⟩ <;>
  · rw [List.countP_eq_zero]
    intro e he
    obtain ⟨n, b, r, rfl⟩ := this e he
    simp [List.countP_cons, List.countP_append, Ev.isInit, Ev.isCreate, Ev.isExecute]

theorem Fresh_count {o : Obj} {q : Req} {g : Resp} {evs : List Ev} {ok : Bool} {c' : Option Nat} {g' : Resp} (h : Fresh o q g evs ok c' g') :
    evs.countP Ev.isInit = 1 ∧ evs.countP Ev.isCreate ≤ 1 ∧ evs.countP Ev.isExecute ≤ 1 := by
  cases h with
  | noInit hr => simp [List.countP_cons, List.countP_append, Ev.isInit, Ev.isCreate, Ev.isExecute]
  | noConnection => simp [List.countP_cons, List.countP_append, Ev.isInit, Ev.isCreate, Ev.isExecute]
  | failed hc ha hr => simp [List.countP_cons, List.countP_append, Ev.isInit, Ev.isCreate, Ev.isExecute, applied_count ha]
  | done hc ha => simp [List.countP_cons, List.countP_append, Ev.isInit, Ev.isCreate, Ev.isExecute, applied_count ha]

/-- C40: the number of attempts made by one call.  (That the call returns at all, whatever the transport answers, is `histories_run`:
every history runs to its end.) -/
theorem attempts_bounded (h : Runs (step oom) ([], []) ops outs (as, log)) {l1 l2 : Log} {i : Nat} {y y' : Args} {r : Result} {evs : List Ev}
    (hl : log = l1 ++ ⟨i, .request y r y', evs⟩ :: l2) :
    evs.countP Ev.isInit ≤ 1 ∧ evs.countP Ev.isCreate ≤ 2 ∧ evs.countP Ev.isExecute ≤ 3 := by
  rcases request_entry h hl with ⟨_, rfl⟩ | ⟨o, d, ok, c', g', _, _, hA, _⟩
  · simp
  · unfold Attempts at hA
    split at hA
    · have := Fresh_count hA; omega
    · cases hA with
      | done => simp [List.countP_cons, List.countP_append, Ev.isInit, Ev.isCreate, Ev.isExecute]
      | noConnection hr hf =>
        have := Fresh_count hf
        simp [List.countP_cons, List.countP_append, Ev.isInit, Ev.isCreate, Ev.isExecute]; omega
      | again hr hd ha => simp [List.countP_cons, List.countP_append, Ev.isInit, Ev.isCreate, Ev.isExecute, applied_count ha]
      | failed hr hd ha hr2 hf =>
        have := Fresh_count hf
        simp [List.countP_cons, List.countP_append, Ev.isInit, Ev.isCreate, Ev.isExecute, applied_count ha]; omega

/-- C40: on a handle that has no connection nothing is tried twice. -/
theorem fresh_once (h : Runs (step oom) ([], []) ops outs (as, log)) {l1 l2 : Log} {i : Nat} {y y' : Args} {r : Result} {evs : List Ev}
    (hl : log = l1 ++ ⟨i, .request y r y', evs⟩ :: l2) (hidle : runs .idle (trace (ofPos i l1)) = some .idle) :
    evs.countP Ev.isInit ≤ 1 ∧ evs.countP Ev.isCreate ≤ 1 ∧ evs.countP Ev.isExecute ≤ 1 := by
  rcases request_entry h hl with ⟨_, rfl⟩ | ⟨o, d, ok, c', g', hI, _, hA, _⟩
  · simp
  · unfold Attempts at hA
    split at hA
    · have := Fresh_count hA; omega
    · rename_i c e
      have := hI.1
      rw [hidle] at this
      simp [e, phase] at this

/-! ## C41: balance -/

/-- C41: the calls made for one handle follow the protocol of the transport at any time; between calls the handle is either idle, or
initialised with an open connection. -/
theorem protocol (h : Runs (step oom) ([], []) ops outs (as, log)) {i : Nat} {a : Option Obj} (ha : as[i]? = some a) :
    runs .idle (trace (ofPos i log)) = some (match a.bind Obj.conn with | none => .idle | some c => .connected c) := by
  rw [(((invariant h).1 i).2 a ha).1]
  cases a.bind Obj.conn <;> rfl

/-- C41: every prefix of the calls made for one handle is allowed by the protocol. -/
theorem protocol_always (h : Runs (step oom) ([], []) ops outs (as, log)) {i : Nat} {tr tr' : List Ev} (ht : trace (ofPos i log) = tr ++ tr') :
    runs .idle tr ≠ none := by
  have : runs .idle (tr ++ tr') ≠ none := by
    by_cases hi : i < as.length
    · rw [← ht, protocol h (List.getElem?_eq_getElem hi)]; simp
    · rw [← ht, ((invariant h).1 i).1 (by omega)]; simp [trace, runs]
  rw [runs_append] at this
  intro hn
  rw [hn] at this
  exact this rfl

def inSession : Phase → Nat
  | .idle => 0
  | _ => 1

def hasConn (c : Nat) : Phase → Nat
  | .connected d => if d = c then 1 else 0
  | _ => 0

theorem runs_inits {p p' : Phase} {evs : List Ev} (h : runs p evs = some p') : inits evs + inSession p = deinits evs + inSession p' := by
  induction evs generalizing p with
  | nil => cases h; rfl
  | cons e evs ih =>
    simp only [runs] at h
    cases hn : next p e with
    | none => simp [hn] at h
    | some q =>
      simp only [hn, Option.bind_some] at h
      have := ih h
      unfold inits deinits at *
      rw [List.count_cons, List.count_cons]
      unfold next at hn
      split at hn
      · cases hn; rename_i r; cases r <;> simp_all [inSession] <;> omega
      · cases hn; split at this <;> simp_all [inSession]
      · cases hn; simp_all [inSession]; omega
      · split at hn <;> cases hn; simp_all [inSession]
      · split at hn <;> cases hn; simp_all [inSession]
      · split at hn <;> cases hn; simp_all [inSession]
      · cases hn; simp_all
      · cases hn

theorem runs_conn {c : Nat} (hc : c ≠ 0) {p p' : Phase} {evs : List Ev} (h : runs p evs = some p') : created c evs + hasConn c p = closed c evs + hasConn c p' := by
  induction evs generalizing p with
  | nil => cases h; rfl
  | cons e evs ih =>
    simp only [runs] at h
    cases hn : next p e with
    | none => simp [hn] at h
    | some q =>
      simp only [hn, Option.bind_some] at h
      have := ih h
      unfold created closed at *
      rw [List.count_cons, List.countP_cons]
      unfold next at hn
      split at hn
      · cases hn; split at this <;> simp_all [hasConn]
      · cases hn
        rename_i d
        by_cases hd : d = 0
        · subst hd
          simp [hasConn, Ne.symm hc] at this ⊢; omega
        · by_cases hdc : d = c
          · subst hdc; simp [hasConn, hd] at this ⊢; omega
          · simp [hasConn, hd, hdc] at this ⊢; omega
      · cases hn; simp_all [hasConn]
      · split at hn <;> cases hn; simp_all [hasConn]
      · split at hn <;> cases hn; simp_all [hasConn]
      · split at hn <;> cases hn
        rename_i d hcd
        subst hcd
        by_cases hdc : d = c
        · subst hdc; simp [hasConn] at this ⊢; omega
        · simp [hasConn, hdc] at this ⊢; omega
      · cases hn; simp_all
      · cases hn

theorem Eff_runs {a a' : Option Obj} {c : Call} {evs : List Ev} {L : Log} (h : Inv a L) (hE : Eff oom a c a' evs) :
    runs (phase (a.bind Obj.conn)) evs = some (phase (a'.bind Obj.conn)) := by
  have := (Inv_step 0 a L c a' evs h hE).1
  rw [trace_append, runs_append, h.1] at this
  simpa [trace] using this

theorem holders_set {f : Option Obj → Bool} {as : List (Option Obj)} {i : Nat} {a a' : Option Obj} (h : as[i]? = some a) :
    (as.set i a').countP f + (if f a then 1 else 0) = as.countP f + (if f a' then 1 else 0) := by
  obtain ⟨hi, ha⟩ := List.getElem?_eq_some_iff.1 h
  have hp : f a = true → 0 < as.countP f := by
    intro hf
    rw [List.countP_pos_iff]
    exact ⟨a, List.mem_of_getElem? h, hf⟩
  rw [List.countP_set hi, ha]
  by_cases h1 : f a = true
  · have := hp h1; simp only [h1, if_true]; omega
  · simp only [h1]; simp

/-- C41: over all handles: initialisations are deinitialisations plus the handles that have a connection; for every connection, how
often it was created is how often it was closed plus the number of handles that have it. -/
theorem balance (h : Runs (step oom) ([], []) ops outs (as, log)) :
    inits (trace log) = deinits (trace log) + connected as ∧
    ∀ c, c ≠ 0 → created c (trace log) = closed c (trace log) + holders c as := by
  have sess : ∀ c : Option Nat, inSession (phase c) = if c.isSome then 1 else 0 := by intro c; cases c <;> rfl
  have conn : ∀ (d : Nat) (c : Option Nat), hasConn d (phase c) = if decide (c = some d) = true then 1 else 0 := by
    intro d c; cases c <;> simp [phase, hasConn]
  have gen : ∀ (x : World) ops outs x', Runs (step oom) x ops outs x' →
      ((∀ (i : Nat) a, x.1[i]? = some a → ∃ L, Inv a L) ∧ inits (trace x.2) = deinits (trace x.2) + connected x.1 ∧
        ∀ c, c ≠ 0 → created c (trace x.2) = closed c (trace x.2) + holders c x.1) →
      inits (trace x'.2) = deinits (trace x'.2) + connected x'.1 ∧
        ∀ c, c ≠ 0 → created c (trace x'.2) = closed c (trace x'.2) + holders c x'.1 := by
    intro x ops outs x' hr
    induction hr with
    | nil => exact fun h => h.2
    | cons h1 _ ih =>
      rintro ⟨hx, hb⟩
      apply ih
      rcases step_cases h1 with rfl | ⟨c, a', evs, hN, rfl⟩ | ⟨j, a, c, a', evs, hj, hE, rfl⟩
      · exact ⟨hx, hb⟩
      · have hI := Inv_new 0 c a' evs hN
        cases c with
        | create host ok =>
          obtain ⟨hN, rfl⟩ := hN
          have hc : a'.bind Obj.conn = none := by
            have := hI.1
            simp only [trace, runs, List.flatMap_cons, List.flatMap_nil, List.append_nil] at this
            cases hb : a'.bind Obj.conn with
            | none => rfl
            | some c => rw [hb] at this; cases this
          refine ⟨?_, ?_, ?_⟩
          · intro i a ha
            rw [List.getElem?_append] at ha
            split at ha
            · exact hx i a ha
            · have := List.mem_of_getElem? ha
              simp at this
              subst this
              exact ⟨_, hI⟩
          · dsimp only
            rw [trace_snoc, List.append_nil, hb.1]
            simp [connected, hc]
          · intro d hd
            dsimp only
            rw [trace_snoc, List.append_nil, hb.2 d hd]
            simp [holders, hc]
        | destroy => exact hN.elim
        | setOption _ _ _ => exact hN.elim
        | request _ _ _ => exact hN.elim
      · obtain ⟨L, hI⟩ := hx j a hj
        have hR := Eff_runs hI hE
        refine ⟨?_, ?_, ?_⟩
        · intro i b hb'
          rw [List.getElem?_set] at hb'
          split at hb'
          · split at hb'
            · cases hb'; exact ⟨_, Inv_step 0 _ _ _ _ _ hI hE⟩
            · cases hb'
          · exact hx i b hb'
        · dsimp only
          have e1 := runs_inits hR
          have e2 := holders_set (f := fun a => (a.bind Obj.conn).isSome) (a' := a') hj
          rw [sess, sess] at e1
          have e3 := hb.1
          rw [trace_snoc]
          unfold inits deinits connected at *
          rw [List.count_append, List.count_append]
          dsimp only
          omega
        · intro d hd
          dsimp only
          have e1 := runs_conn hd hR
          have e2 := holders_set (f := fun a => a.bind Obj.conn = some d) (a' := a') hj
          rw [conn, conn] at e1
          have e3 := hb.2 d hd
          rw [trace_snoc]
          unfold created closed holders at *
          rw [List.countP_append, List.count_append]
          dsimp only
          omega
  exact gen _ _ _ _ h ⟨by simp, by simp [trace, inits, deinits, connected], by simp [trace, created, closed, holders]⟩

/-- C41: when all handles are destroyed, every successful initialisation has been undone once, and every connection closed as often as
it was created. -/
theorem all_released (h : Runs (step oom) ([], []) ops outs (as, log)) (hd : ∀ a ∈ as, a = none) :
    inits (trace log) = deinits (trace log) ∧ ∀ c, c ≠ 0 → created c (trace log) = closed c (trace log) := by
  have z : ∀ f : Option Obj → Bool, f none = false → as.countP f = 0 := by
    intro f hf
    rw [List.countP_eq_zero]
    intro a ha
    rw [hd a ha, hf]; simp
  obtain ⟨h1, h2⟩ := balance h
  refine ⟨by rw [h1, connected, z _ rfl]; rfl, fun c hc => ?_⟩
  rw [h2 c hc, holders, z _ (by simp)]; rfl

/-! ## C42: results -/

/-- the last thing tried: from the beginning, and it failed at the initialisation, the connection or the request -/
inductive Exhausted (host : Text) : List Ev → Prop
  | noInit {r} : r ≠ .ok → Exhausted host [.init r]
  | noConnection : Exhausted host [.init .ok, .create host 0, .deinit]
  | failed {c opts r q g g'} : c ≠ 0 → r ≠ .ok → (∀ e ∈ opts, ∃ n b s, e = .setOption c n b s) →
      Exhausted host ([.init .ok, .create host c] ++ opts ++ [.execute c q g r g', .close c, .deinit])

theorem applied_mem {c : Nat} {opts : List (Text × Block)} {evs : List Ev} (h : Applied c opts evs) : ∀ e ∈ evs, ∃ n b r, e = .setOption c n b r := by
  obtain ⟨rs, _, rfl⟩ := h
  intro e he
  rw [List.mem_iff_getElem] at he
  obtain ⟨k, hk, rfl⟩ := he
  exact ⟨_, _, _, List.getElem_zipWith⟩

/-- no request succeeded -/
def NoneOk (evs : List Ev) : Prop := ∀ c q g g', .execute c q g .ok g' ∉ evs

theorem NoneOk_applied {c : Nat} {opts : List (Text × Block)} {evs : List Ev} (h : Applied c opts evs) : NoneOk evs := by
  intro c q g g' he
  obtain ⟨n, b, r, h⟩ := applied_mem h _ he
  cases h

theorem NoneOk_append {a b : List Ev} (h1 : NoneOk a) (h2 : NoneOk b) : NoneOk (a ++ b) := by
  intro c q g g' he
  rcases List.mem_append.1 he with h | h
  · exact h1 _ _ _ _ h
  · exact h2 _ _ _ _ h

/-- only the last call is a successful request, or none is -/
def Truth (host : Text) (evs : List Ev) (ok : Bool) (g' : Resp) : Prop :=
  if ok then ∃ evs1 c q g, evs = evs1 ++ [.execute c q g .ok g'] ∧ NoneOk evs1
  else NoneOk evs ∧ ∃ evs1 evs2, evs = evs1 ++ evs2 ∧ Exhausted host evs2

theorem Fresh_truth {o : Obj} {q : Req} {g : Resp} {evs : List Ev} {ok : Bool} {c' : Option Nat} {g' : Resp} (h : Fresh o q g evs ok c' g') :
    Truth o.host evs ok g' := by
  cases h with
  | noInit hr => exact ⟨by simp [NoneOk], [], _, rfl, .noInit hr⟩
  | noConnection => exact ⟨by simp [NoneOk], [], _, rfl, .noConnection⟩
  | failed hc ha hr =>
    refine ⟨?_, [], _, rfl, .failed hc hr (applied_mem ha)⟩
    exact NoneOk_append (NoneOk_append (by simp [NoneOk]) (NoneOk_applied ha)) (by simp [NoneOk]; rintro _ _ _ _ _ _ _ rfl; exact absurd rfl hr)
  | done hc ha => exact ⟨_, _, _, _, rfl, NoneOk_append (by simp [NoneOk]) (NoneOk_applied ha)⟩

theorem Truth_append {host : Text} {evs evs0 : List Ev} {ok : Bool} {g' : Resp} (h0 : NoneOk evs0) (h : Truth host evs ok g') : Truth host (evs0 ++ evs) ok g' := by
  unfold Truth at *
  cases ok with
  | true =>
    obtain ⟨e1, c, q, g, rfl, hn⟩ := h
    exact ⟨evs0 ++ e1, c, q, g, by simp, NoneOk_append h0 hn⟩
  | false =>
    obtain ⟨hn, e1, e2, rfl, hx⟩ := h
    exact ⟨NoneOk_append h0 hn, evs0 ++ e1, e2, by simp, hx⟩

theorem Retry_truth {o : Obj} {q : Req} {c : Nat} {g : Resp} {evs : List Ev} {ok : Bool} {c' : Option Nat} {g' : Resp} (h : Retry o q c g evs ok c' g') :
    Truth o.host evs ok g' := by
  cases h with
  | done => exact ⟨[], c, q, g, rfl, by simp [NoneOk]⟩
  | noConnection hr hf =>
    refine Truth_append ?_ (Fresh_truth hf)
    simp [NoneOk]; rintro _ _ _ _ _ _ _ rfl; exact absurd rfl hr
  | again hr hd ha =>
    refine ⟨_, _, _, _, rfl, NoneOk_append ?_ (NoneOk_applied ha)⟩
    simp [NoneOk]; rintro _ _ _ _ _ _ _ rfl; exact absurd rfl hr
  | failed hr hd ha hr2 hf =>
    refine Truth_append (NoneOk_append (NoneOk_append ?_ (NoneOk_applied ha)) ?_) (Fresh_truth hf)
    · simp [NoneOk]; rintro _ _ _ _ _ _ _ rfl; exact absurd rfl hr
    · simp [NoneOk]; rintro _ _ _ _ _ _ _ rfl; exact absurd rfl hr2

theorem Attempts_truth {o : Obj} {q : Req} {g : Resp} {evs : List Ev} {ok : Bool} {c' : Option Nat} {g' : Resp} (h : Attempts o q g evs ok c' g') :
    Truth o.host evs ok g' := by
  unfold Attempts at h
  split at h
  · exact Fresh_truth h
  · exact Retry_truth h

/-- C42: the call succeeds exactly if the last call of the transport is a request that succeeded; there is at most one such request, and
the caller's response objects are those it left. -/
theorem ok_iff (h : Runs (step oom) ([], []) ops outs (as, log)) {l1 l2 : Log} {i : Nat} {y y' : Args} {r : Result} {evs : List Ev}
    (hl : log = l1 ++ ⟨i, .request y r y', evs⟩ :: l2) :
    (r = .ok ↔ ∃ evs1 c q g g', evs = evs1 ++ [.execute c q g .ok g']) ∧
    ∀ evs1 evs2 c q g g', evs = evs1 ++ .execute c q g .ok g' :: evs2 → evs2 = [] ∧ NoneOk evs1 ∧
      y'.status = y.status.map (fun _ => g'.status) ∧ y'.rhdrs = y.rhdrs.map (fun _ => g'.hdrs) ∧ y'.rcontent = y.rcontent.map (fun _ => g'.content) := by
  rcases request_entry h hl with ⟨hr, rfl⟩ | ⟨o, d, ok, c', g', _, _, hA, rfl, rfl, _⟩
  · refine ⟨⟨fun he => ?_, ?_⟩, ?_⟩
    · rcases hr with rfl | rfl <;> cases he
    · rintro ⟨evs1, c, q, g, g', he⟩; simp at he
    · intro evs1 evs2 c q g g' he; simp at he
  · have hT := Attempts_truth hA
    cases ok with
    | true =>
      obtain ⟨e1, c, q, g, rfl, hn⟩ := hT
      refine ⟨⟨fun _ => ⟨e1, c, q, g, g', rfl⟩, fun _ => rfl⟩, ?_⟩
      intro evs1 evs2 c2 q2 g2 g2' he
      rcases List.eq_nil_or_concat evs2 with rfl | ⟨l3, x, rfl⟩
      · have := List.append_inj' he rfl
        obtain ⟨rfl, h2⟩ := this
        cases h2
        exact ⟨rfl, hn, rfl, rfl, rfl⟩
      · exfalso
        have : e1 ++ [.execute c q g .ok g'] = (evs1 ++ .execute c2 q2 g2 .ok g2' :: l3) ++ [x] := by simpa using he
        have := (List.append_inj' this rfl).1
        exact hn c2 q2 g2 g2' (by rw [this]; simp)
    | false =>
      obtain ⟨hn, _⟩ := hT
      refine ⟨⟨fun he => (by cases he), ?_⟩, ?_⟩
      · rintro ⟨e1, c, q, g, g'', rfl⟩
        exact absurd (List.mem_append_right _ (List.mem_singleton_self _)) (hn c q g g'')
      · rintro e1 e2 c q g g'' rfl
        exact absurd (List.mem_append_right _ List.mem_cons_self) (hn c q g g'')

/-- C42: `HTTPAPIEX_RECOVERYFAILED` is returned only after an attempt from the beginning has failed, no request having succeeded; the
handle is then idle, so the next request starts from the beginning. -/
theorem recovery_failed (h : Runs (step oom) ([], []) ops outs (as, log)) {l1 l2 : Log} {i : Nat} {y y' : Args} {evs : List Ev}
    (hl : log = l1 ++ ⟨i, .request y .recoveryFailed y', evs⟩ :: l2) :
    NoneOk evs ∧ (∃ j l host, ofPos i l1 = ⟨j, .create (some host) true, []⟩ :: l ∧ ∃ evs1 evs2, evs = evs1 ++ evs2 ∧ Exhausted host evs2) ∧
    runs .idle (trace (ofPos i l1 ++ [⟨i, .request y .recoveryFailed y', evs⟩])) = some .idle := by
  rcases request_entry h hl with ⟨hr, _⟩ | ⟨o, d, ok, c', g', h1, h2, hA, hr, _⟩
  · rcases hr with hr | hr <;> cases hr
  · cases ok with
    | true => cases hr
    | false =>
      have hc := (Attempts_runs (h1.2 o rfl).1 hA).2.2
      have : c' = none := by
        cases c' with
        | none => rfl
        | some c => cases hc
      subst this
      obtain ⟨hn, hx⟩ := Attempts_truth hA
      obtain ⟨j, l, hj⟩ := (h1.2 o rfl).2.2
      exact ⟨hn, ⟨j, l, o.host, hj, hx⟩, h2.1⟩

/-- C42: after success the handle keeps the connection the request was sent on. -/
theorem ok_connected (h : Runs (step oom) ([], []) ops outs (as, log)) {l1 l2 : Log} {i : Nat} {y y' : Args} {evs : List Ev}
    (hl : log = l1 ++ ⟨i, .request y .ok y', evs⟩ :: l2) :
    ∃ evs1 c q g g', evs = evs1 ++ [.execute c q g .ok g'] ∧
      runs .idle (trace (ofPos i l1 ++ [⟨i, .request y .ok y', evs⟩])) = some (.connected c) := by
  obtain ⟨e1, c, q, g, g', rfl⟩ := (ok_iff h hl).1.1 rfl
  refine ⟨e1, c, q, g, g', rfl, ?_⟩
  rcases request_entry h hl with ⟨hr, _⟩ | ⟨o, d, ok, c', g', h1, h2, hA, hr, _⟩
  · rcases hr with hr | hr <;> cases hr
  · have h3 := h2.1
    rw [trace_snoc, ← List.append_assoc, runs_append] at h3
    rw [trace_snoc, ← List.append_assoc, runs_append]
    cases hm : runs .idle (trace (ofPos i l1) ++ e1) with
    | none => rw [hm] at h3; cases h3
    | some p =>
      rw [hm] at h3
      simp only [Option.bind_some, runs] at h3 ⊢
      cases p with
      | idle => cases h3
      | session => cases h3
      | connected c2 =>
        simp only [next] at h3 ⊢
        by_cases hcc : c = c2
        · subst hcc; simp
        · simp [hcc] at h3

/-- C42: the other results mean that the transport was not called. -/
theorem refused (h : Runs (step oom) ([], []) ops outs (as, log)) {l1 l2 : Log} {i : Nat} {y y' : Args} {r : Result} {evs : List Ev}
    (hl : log = l1 ++ ⟨i, .request y r y', evs⟩ :: l2) (hr : r = .error ∨ r = .invalidArg) : evs = [] := by
  rcases request_entry h hl with ⟨_, h⟩ | ⟨o, d, ok, c', g', _, _, hA, rfl, _⟩
  · exact h
  · cases ok <;> rcases hr with hr | hr <;> cases hr

/-! ## C43: options -/

/-- every new connection gets the options first, then a request -/
def OptsFirst (opts : List (Text × Block)) (evs : List Ev) : Prop :=
  ∀ evs1 evs2 host c, evs = evs1 ++ .create host c :: evs2 → c ≠ 0 →
    ∃ set q g r g' rest, evs2 = set ++ .execute c q g r g' :: rest ∧ Applied c opts set

theorem OptsFirst_none {opts : List (Text × Block)} {evs : List Ev} (h : ∀ host c, c ≠ 0 → .create host c ∉ evs) : OptsFirst opts evs := by
  rintro e1 e2 host c rfl hc
  exact absurd (List.mem_append_right _ List.mem_cons_self) (h host c hc)

theorem OptsFirst_append {opts : List (Text × Block)} {a b : List Ev} (h1 : OptsFirst opts a) (h2 : OptsFirst opts b) : OptsFirst opts (a ++ b) := by
  intro e1 e2 host c he hc
  rcases List.append_eq_append_iff.1 he with ⟨t, rfl, hb⟩ | ⟨t, rfl, hb⟩
  · exact h2 _ _ _ _ hb hc
  · cases t with
    | nil =>
      simp only [List.nil_append] at hb
      exact h2 [] e2 host c (by rw [← hb]; rfl) hc
    | cons x t =>
      simp only [List.cons_append, List.cons.injEq] at hb
      obtain ⟨rfl, rfl⟩ := hb
      obtain ⟨set, q, g, r, g', rest, rfl, ha⟩ := h1 e1 t host c (by simp) hc
      exact ⟨set, q, g, r, g', rest ++ b, by simp, ha⟩

/-- a new connection, its options, and a request -/
theorem OptsFirst_new {opts : List (Text × Block)} {host : Text} {c : Nat} {set : List Ev} {q : Req} {g g' : Resp} {r : Res} (ha : Applied c opts set) :
    OptsFirst opts (.create host c :: (set ++ [.execute c q g r g'])) := by
  intro e1 e2 host' c' he hc
  cases e1 with
  | nil =>
    cases he
    exact ⟨set, q, g, r, g', [], rfl, ha⟩
  | cons x e1 =>
    simp only [List.cons_append, List.cons.injEq] at he
    have : Ev.create host' c' ∈ set ++ [.execute c q g r g'] := by rw [he.2]; simp
    rcases List.mem_append.1 this with h | h
    · obtain ⟨n, b, s, h⟩ := applied_mem ha _ h
      cases h
    · simp at h

theorem Fresh_opts {o : Obj} {q : Req} {g : Resp} {evs : List Ev} {ok : Bool} {c' : Option Nat} {g' : Resp} (h : Fresh o q g evs ok c' g') :
    OptsFirst o.opts evs := by
  cases h with
  | noInit hr => exact OptsFirst_none (by simp)
  | noConnection => exact OptsFirst_none (by simp; intro _ c h _ e; exact h e)
  | failed hc ha hr =>
    rename_i c opt r
    have : ([Ev.init .ok, .create o.host c] ++ opt ++ [.execute c q g r g', .close c, .deinit]) =
      [.init .ok] ++ ((.create o.host c :: (opt ++ [.execute c q g r g'])) ++ [.close c, .deinit]) := by simp
    rw [this]
    exact OptsFirst_append (OptsFirst_none (by simp)) (OptsFirst_append (OptsFirst_new ha) (OptsFirst_none (by simp)))
  | done hc ha =>
    rename_i c opt
    have : ([Ev.init .ok, .create o.host c] ++ opt ++ [.execute c q g .ok g']) = [.init .ok] ++ (.create o.host c :: (opt ++ [.execute c q g .ok g'])) := by simp
    rw [this]
    exact OptsFirst_append (OptsFirst_none (by simp)) (OptsFirst_new ha)

theorem Attempts_opts {o : Obj} {q : Req} {g : Resp} {evs : List Ev} {ok : Bool} {c' : Option Nat} {g' : Resp} (h : Attempts o q g evs ok c' g') :
    OptsFirst o.opts evs := by
  unfold Attempts at h
  split at h
  · exact Fresh_opts h
  · rename_i c _
    cases h with
    | done => exact OptsFirst_none (by simp)
    | noConnection hr hf => exact OptsFirst_append (OptsFirst_none (by simp; intro _ c h _ e; exact h e)) (Fresh_opts hf)
    | again hr hd ha =>
      rename_i r g1 d opt
      have : ([Ev.execute c q g r g1, .close c, .create o.host d] ++ opt ++ [.execute d q g1 .ok g']) =
        [.execute c q g r g1, .close c] ++ (.create o.host d :: (opt ++ [.execute d q g1 .ok g'])) := by simp
      rw [this]
      exact OptsFirst_append (OptsFirst_none (by simp)) (OptsFirst_new ha)
    | failed hr hd ha hr2 hf =>
      rename_i r g1 d opt r2 g2 evs
      have : ([Ev.execute c q g r g1, .close c, .create o.host d] ++ opt ++ [.execute d q g1 r2 g2, .close d, .deinit] ++ evs) =
        [.execute c q g r g1, .close c] ++ ((.create o.host d :: (opt ++ [.execute d q g1 r2 g2])) ++ ([.close d, .deinit] ++ evs)) := by simp
      rw [this]
      exact OptsFirst_append (OptsFirst_none (by simp)) (OptsFirst_append (OptsFirst_new ha) (OptsFirst_append (OptsFirst_none (by simp)) (Fresh_opts hf)))

/-- C43: whenever a connection is created, the next calls of the transport set on it exactly the options saved so far, each once and in
order, and then a request is sent on it. -/
theorem options_applied (h : Runs (step oom) ([], []) ops outs (as, log)) {l1 l2 : Log} {i : Nat} {call : Call} {evs1 evs2 : List Ev} {host : Text} {c : Nat}
    (hl : log = l1 ++ ⟨i, call, evs1 ++ .create host c :: evs2⟩ :: l2) (hc : c ≠ 0) :
    ∃ set q g r g' rest, evs2 = set ++ .execute c q g r g' :: rest ∧ Applied c (savedOpts (ofPos i l1)) set := by
  have no : ∀ evs : List Ev, evs = evs1 ++ .create host c :: evs2 → (∀ e ∈ evs, e.isCreate = false) → False := by
    rintro _ rfl h
    have := h (.create host c) (by simp)
    cases this
  cases call with
  | request y r y' =>
    rcases request_entry h hl with ⟨_, h⟩ | ⟨o, d, ok, c', g', hI, _, hA, _⟩
    · exact (no _ rfl (by rw [h]; simp)).elim
    · rw [(hI.2 o rfl).2.1]
      exact Attempts_opts hA _ _ _ _ rfl hc
  | create _ _ =>
    rcases (invariant h).2 _ _ _ hl with ⟨⟨a', hN⟩, _⟩ | ⟨a, a', h1, h2, hE⟩
    · exact (no [] hN.2.symm (by simp)).elim
    · exact hE.elim
  | destroy =>
    rcases (invariant h).2 _ _ _ hl with ⟨⟨a', hN⟩, _⟩ | ⟨a, a', h1, h2, hE⟩
    · exact hN.elim
    · have := hE.2
      unfold DestroyE at this
      refine (no _ this.symm ?_).elim
      split <;> simp [Ev.isCreate]
  | setOption n b r =>
    rcases (invariant h).2 _ _ _ hl with ⟨⟨a', hN⟩, _⟩ | ⟨a, a', h1, h2, hE⟩
    · exact hN.elim
    · simp only [Eff, SetE] at hE
      split at hE
      · rcases hE with ⟨copy, _, _, he⟩ | ⟨copy, _, _, he⟩ | ⟨copy, _, _, _, _, he⟩ | ⟨copy, _, hE⟩
        · exact (no _ he.symm (by simp [Ev.isCreate])).elim
        · exact (no _ he.symm (by simp [Ev.isCreate])).elim
        · exact (no _ he.symm (by simp [Ev.isCreate])).elim
        · split at hE
          · exact (no _ hE.2.symm (by simp [Ev.isCreate])).elim
          · obtain ⟨s, _, he⟩ := hE
            exact (no _ he.symm (by simp [Ev.isCreate])).elim
      · exact (no _ hE.2.2.symm (by simp)).elim

/-- C43: a call that returns success has saved the copy the transport made of the value given. -/
theorem ok_saves (h : Runs (step oom) ([], []) ops outs (as, log)) {l1 l2 : Log} {i : Nat} {n : Option Text} {b : Option Block} {evs : List Ev}
    (hl : log = l1 ++ ⟨i, .setOption n b .ok, evs⟩ :: l2) :
    ∃ n' b' copy, n = some n' ∧ b = some b' ∧ evs.head? = some (.clone n' b' .ok copy) ∧ Entry.saves ⟨i, .setOption n b .ok, evs⟩ = some (n', copy) := by
  rcases (invariant h).2 _ _ _ hl with ⟨⟨a', hN⟩, _⟩ | ⟨a, a', h1, h2, hE⟩
  · exact hN.elim
  · simp only [Eff, SetE] at hE
    split at hE
    · rcases hE with ⟨copy, h, _⟩ | ⟨copy, h, _⟩ | ⟨copy, h, _⟩ | ⟨copy, _, hE⟩
      · cases h
      · cases h
      · cases h
      · split at hE
        · obtain ⟨_, rfl⟩ := hE
          exact ⟨_, _, copy, rfl, rfl, rfl, rfl⟩
        · obtain ⟨s, _, rfl⟩ := hE
          exact ⟨_, _, copy, rfl, rfl, rfl, rfl⟩
    · cases hE.1

theorem snoc_ind {α : Type} {P : List α → Prop} (h0 : P []) (h1 : ∀ l a, P l → P (l ++ [a])) (l : List α) : P l := by
  have : ∀ l : List α, P l.reverse := by
    intro l
    induction l with
    | nil => exact h0
    | cons a l ih => rw [List.reverse_cons]; exact h1 _ _ ih
  rw [← List.reverse_reverse l]; exact this _

theorem putOpt_map {l : List (Text × Block)} {n : Text} {b : Block} :
    (putOpt l n b).map Prod.fst = if n ∈ l.map Prod.fst then l.map Prod.fst else l.map Prod.fst ++ [n] := by
  unfold putOpt
  split
  · rename_i h
    rw [List.map_map]
    refine List.map_congr_left fun p _ => ?_
    simp only [Function.comp]
    split
    · rename_i e; exact e.symm
    · rfl
  · simp

theorem putOpt_mem {l : List (Text × Block)} {n m : Text} {b v : Block} : (m, v) ∈ putOpt l n b ↔ (m = n ∧ v = b) ∨ (m ≠ n ∧ (m, v) ∈ l) := by
  unfold putOpt
  split
  · rename_i hn
    rw [List.mem_map]
    constructor
    · rintro ⟨p, hp, he⟩
      split at he
      · cases he; exact Or.inl ⟨rfl, rfl⟩
      · rename_i hne; subst he; exact Or.inr ⟨hne, hp⟩
    · rintro (⟨rfl, rfl⟩ | ⟨hne, hm⟩)
      · obtain ⟨p, hp, he⟩ := List.mem_map.1 hn
        exact ⟨p, hp, by rw [if_pos he]⟩
      · exact ⟨(m, v), hm, if_neg hne⟩
  · rename_i hn
    simp only [List.mem_append, List.mem_singleton, Prod.mk.injEq]
    constructor
    · rintro (hm | ⟨rfl, rfl⟩)
      · refine Or.inr ⟨?_, hm⟩
        rintro rfl
        exact hn (List.mem_map.2 ⟨_, hm, rfl⟩)
      · exact Or.inl ⟨rfl, rfl⟩
    · rintro (⟨rfl, rfl⟩ | ⟨_, hm⟩)
      · exact Or.inr ⟨rfl, rfl⟩
      · exact Or.inl hm

/-- C43: what `savedOpts` says: the names are those saved, each once, in the order in which they were first saved. -/
theorem saved_names (L : Log) : (savedOpts L).map Prod.fst = ((L.filterMap Entry.saves).map Prod.fst).eraseDups := by
  unfold savedOpts
  generalize L.filterMap Entry.saves = l
  induction l using snoc_ind with
  | h0 => rfl
  | h1 l p ih =>
    rw [List.foldl_append, List.map_append, List.eraseDups_append]
    simp only [List.foldl_cons, List.foldl_nil, List.map_cons, List.map_nil]
    rw [putOpt_map, ih]
    have hm : ∀ n, n ∈ (l.map Prod.fst).eraseDups ↔ n ∈ l.map Prod.fst := by intro n; simp
    by_cases h : p.1 ∈ l.map Prod.fst
    · rw [if_pos ((hm _).2 h)]
      simp only [List.removeAll, List.filter_cons, List.filter_nil]
      rw [if_neg (by simpa using h)]
      simp
    · rw [if_neg (fun h' => h ((hm _).1 h'))]
      simp only [List.removeAll, List.filter_cons, List.filter_nil]
      rw [if_pos (by simpa using h)]
      simp [List.eraseDups_cons]

/-- C43: … and the value of each is the one saved last. -/
theorem saved_value (L : Log) (n : Text) (b : Block) :
    (n, b) ∈ savedOpts L ↔ ∃ l1 l2, L.filterMap Entry.saves = l1 ++ (n, b) :: l2 ∧ ∀ p ∈ l2, p.1 ≠ n := by
  unfold savedOpts
  generalize L.filterMap Entry.saves = l
  induction l using snoc_ind with
  | h0 => simp
  | h1 l p ih =>
    rw [List.foldl_append]
    simp only [List.foldl_cons, List.foldl_nil]
    rw [putOpt_mem, ih]
    constructor
    · rintro (⟨rfl, rfl⟩ | ⟨hne, l1, l2, rfl, h2⟩)
      · exact ⟨l, [], rfl, by simp⟩
      · refine ⟨l1, l2 ++ [p], by simp, ?_⟩
        intro q hq
        rcases List.mem_append.1 hq with h | h
        · exact h2 q h
        · simp at h; subst h; exact fun h => hne h.symm
    · rintro ⟨l1, l2, he, h2⟩
      rcases List.eq_nil_or_concat l2 with rfl | ⟨l3, x, rfl⟩
      · have := List.append_inj' he rfl
        simp at this
        obtain ⟨rfl, rfl⟩ := this
        exact Or.inl ⟨rfl, rfl⟩
      · have : l ++ [p] = (l1 ++ (n, b) :: l3) ++ [x] := by simpa using he
        obtain ⟨rfl, hx⟩ := List.append_inj' this rfl
        simp at hx
        subst hx
        exact Or.inr ⟨fun h => h2 p (by simp) h.symm, l1, l3, rfl, fun q hq => h2 q (by simp [hq])⟩

/-! ## C44: what is sent -/

/-- every request sent is `q` -/
def Sends (q : Req) (evs : List Ev) : Prop := ∀ c q' g r g', .execute c q' g r g' ∈ evs → q' = q

theorem Sends_append {q : Req} {a b : List Ev} (h1 : Sends q a) (h2 : Sends q b) : Sends q (a ++ b) := by
  intro c q' g r g' he
  rcases List.mem_append.1 he with h | h
  · exact h1 _ _ _ _ _ h
  · exact h2 _ _ _ _ _ h

theorem Sends_applied {q : Req} {c : Nat} {opts : List (Text × Block)} {evs : List Ev} (h : Applied c opts evs) : Sends q evs := by
  intro c q' g r g' he
  obtain ⟨n, b, r, h⟩ := applied_mem h _ he
  cases h

theorem Fresh_sends {o : Obj} {q : Req} {g : Resp} {evs : List Ev} {ok : Bool} {c' : Option Nat} {g' : Resp} (h : Fresh o q g evs ok c' g') : Sends q evs := by
  cases h with
  | noInit hr => intro _ _ _ _ _ h; simp at h; try exact h.2.1
  | noConnection => intro _ _ _ _ _ h; simp at h; try exact h.2.1
  | failed hc ha hr => exact Sends_append (Sends_append (by intro _ _ _ _ _ h; simp at h; try exact h.2.1) (Sends_applied ha)) (by intro _ _ _ _ _ h; simp at h; try exact h.2.1)
  | done hc ha => exact Sends_append (Sends_append (by intro _ _ _ _ _ h; simp at h; try exact h.2.1) (Sends_applied ha)) (by intro _ _ _ _ _ h; simp at h; try exact h.2.1)

theorem Attempts_sends {o : Obj} {q : Req} {g : Resp} {evs : List Ev} {ok : Bool} {c' : Option Nat} {g' : Resp} (h : Attempts o q g evs ok c' g') : Sends q evs := by
  unfold Attempts at h
  split at h
  · exact Fresh_sends h
  · cases h with
    | done => intro _ _ _ _ _ h; simp at h; try exact h.2.1
    | noConnection hr hf => exact Sends_append (by intro _ _ _ _ _ h; simp at h; try exact h.2.1) (Fresh_sends hf)
    | again hr hd ha => exact Sends_append (Sends_append (by intro _ _ _ _ _ h; simp at h; try exact h.2.1) (Sends_applied ha)) (by intro _ _ _ _ _ h; simp at h; try exact h.2.1)
    | failed hr hd ha hr2 hf =>
      exact Sends_append (Sends_append (Sends_append (by intro _ _ _ _ _ h; simp at h; try exact h.2.1) (Sends_applied ha)) (by intro _ _ _ _ _ h; simp at h; try exact h.2.1)) (Fresh_sends hf)

/-- C44: every request sent for a call is the one described by its arguments: type, path and content are those given (empty if `NULL`),
the `Host` header is the host name the handle was created with, without leading white space, `Content-Length` is the size of the content,
and every other header is as given. -/
theorem what_is_sent (h : Runs (step oom) ([], []) ops outs (as, log)) {l1 l2 : Log} {i : Nat} {y y' : Args} {r : Result} {evs : List Ev}
    (hl : log = l1 ++ ⟨i, .request y r y', evs⟩ :: l2) {c : Nat} {q : Req} {g g' : Resp} {s : Res} (he : .execute c q g s g' ∈ evs) :
    q.type = y.type ∧ q.type < 5 ∧ q.path = y.path.getD [] ∧ q.content = y.content.getD none ∧
    (∃ j l host, ofPos i l1 = ⟨j, .create (some host) true, []⟩ :: l ∧ find q.hdrs (text "Host") = some (host.dropWhile isLWS)) ∧
    (∃ t, Crt.IsDecimal (clen (y.content.getD none)) t ∧ find q.hdrs (text "Content-Length") = some t) ∧
    (∀ n, n ≠ text "Host" → n ≠ text "Content-Length" → find q.hdrs n = find (y.hdrs.getD []) n) := by
  rcases request_entry h hl with ⟨_, rfl⟩ | ⟨o, d, ok, c', g'', h1, _, hA, _, _, ht⟩
  · simp at he
  · have hq := Attempts_sends hA _ _ _ _ _ he
    subst hq
    obtain ⟨j, l, hj⟩ := (h1.2 o rfl).2.2
    have hne : text "Host" ≠ text "Content-Length" := by decide
    refine ⟨rfl, ht, rfl, rfl, ⟨j, l, o.host, hj, ?_⟩, ⟨_, Crt.decimal_is _, ?_⟩, ?_⟩
    · simp only [Args.req, Args.reqHdrs, withLength, withHost]
      rw [Headers.find_stored_other _ _ _ _ _ hne, Headers.find_stored_self]
      cases find (y.hdrs.getD []) (text "Host") <;> rfl
    · simp only [Args.req, Args.reqHdrs, withLength]
      rw [Headers.find_stored_self]
      cases find (withHost o (y.hdrs.getD [])) (text "Content-Length") <;> rfl
    · intro n h1 h2
      simp only [Args.req, Args.reqHdrs, withLength, withHost]
      rw [Headers.find_stored_other _ _ _ _ _ h2, Headers.find_stored_other _ _ _ _ _ h1]

/-- C44: the caller's path and content are never changed, and its headers only in `Host` and `Content-Length`. -/
theorem caller_objects (h : Runs (step oom) ([], []) ops outs (as, log)) {l1 l2 : Log} {i : Nat} {y y' : Args} {r : Result} {evs : List Ev}
    (hl : log = l1 ++ ⟨i, .request y r y', evs⟩ :: l2) :
    y'.path = y.path ∧ y'.content = y.content ∧ (y'.hdrs = none ↔ y.hdrs = none) ∧
    (∀ n, n ≠ text "Host" → n ≠ text "Content-Length" → find (y'.hdrs.getD []) n = find (y.hdrs.getD []) n) ∧
    ((r = .invalidArg ∨ r = .error) → y'.status = y.status ∧ y'.rhdrs = y.rhdrs ∧ y'.rcontent = y.rcontent) := by
  have hh : ∀ (o : Obj) (hs : Hdrs) n, n ≠ text "Host" → find (withHost o hs) n = find hs n := by
    intro o hs n hn; exact Headers.find_stored_other _ _ _ _ _ hn
  have hlen : ∀ k (hs : Hdrs) n, n ≠ text "Content-Length" → find (withLength k hs) n = find hs n := by
    intro k hs n hn; exact Headers.find_stored_other _ _ _ _ _ hn
  have both : ∀ o n, n ≠ text "Host" → n ≠ text "Content-Length" → find ((y.hdrs.map fun _ => y.reqHdrs o).getD []) n = find (y.hdrs.getD []) n := by
    intro o n h1 h2
    cases hy : y.hdrs with
    | none => rfl
    | some hs =>
      simp only [Option.map_some, Option.getD_some, Args.reqHdrs, hy]
      rw [hlen _ _ _ h2, hh _ _ _ h1]
  have noop : ∀ r, y' = y → y'.path = y.path ∧ y'.content = y.content ∧ (y'.hdrs = none ↔ y.hdrs = none) ∧
    (∀ n, n ≠ text "Host" → n ≠ text "Content-Length" → find (y'.hdrs.getD []) n = find (y.hdrs.getD []) n) ∧
    ((r = Result.invalidArg ∨ r = .error) → y'.status = y.status ∧ y'.rhdrs = y.rhdrs ∧ y'.rcontent = y.rcontent) := by
    rintro r rfl
    exact ⟨rfl, rfl, Iff.rfl, fun _ _ _ => rfl, fun _ => ⟨rfl, rfl, rfl⟩⟩
  rcases (invariant h).2 _ _ _ hl with ⟨⟨a', hN⟩, _⟩ | ⟨a, a', _, _, d, d', hE⟩
  · exact hN.elim
  · cases a with
    | none => exact noop r hE.2.2.1
    | some o =>
      unfold ExecE at hE
      dsimp only at hE
      split at hE
      · exact noop r hE.2.2.1
      · rcases hE with ⟨rfl, rfl, rfl, rfl, h | h | h⟩ | ⟨ok, c', g', hA, rfl, rfl, rfl, _⟩
        · exact noop _ h.1
        · rw [h.1]
          refine ⟨rfl, rfl, by simp, ?_, fun _ => ⟨rfl, rfl, rfl⟩⟩
          intro n h1 h2
          cases hy : y.hdrs with
          | none => rfl
          | some hs => exact hh o hs n h1
        · rw [h.1]
          exact ⟨rfl, rfl, by simp, both o, fun _ => ⟨rfl, rfl, rfl⟩⟩
        · exact ⟨rfl, rfl, by simp [Args.after], both o, by rintro (h | h) <;> cases ok <;> cases h⟩

end Verif.Ex
