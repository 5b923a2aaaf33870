import Verif.Curl.HSpec
import Verif.Curl.Request
import Verif.Ex.History
/-! # Every history of calls of `httpapi.h` runs without undefined behaviour and does what the specification says -/
set_option linter.unusedSimpArgs false
namespace Verif.Curl
open Verif.Headers (Hdrs HdrR OHdr HTTPHeaders_Free HTTPHeaders_Free_spec know_OHdr)
open Verif.Buffer (Content Buf OBuf BUFFER_delete BUFFER_delete_spec)
open Verif.Map (lit okText Arg_lit' CS)
open Verif.Ex (mkHeaders mkBuffer mkStatus mkHeaders_built mkBuffer_spec mkStatus_spec Passed okPairs okBytes OStat free_OStat)
variable {rel : Prop} {lib : Lib} {Net : List Ev → HProp} {Global : HProp} {Easy : Nat → HProp} {Slist : Nat → List Text → HProp}
  {Busy : Nat → Transfer → Nat → HProp}

/-! ## The client -/

def mkWord : Option Nat → M Ptr
  | none => pure 0
  | some v => do
    let p ← mallocS 1
    if p = 0 then pure 0 else do
    store p 0 (.int v)
    pure p

def mkOut : Bool → M Ptr
  | false => pure 0
  | true => mallocS 1

/-- The client makes a connection.  If the result is no connection, although it is not `NULL` (`null_handle` in `Demo.lean`), it is not
used by this client: a real one could not know. -/
def createOne (lib : Lib) (host : Option Text) : M (Out × Ptr) := do
  let h ← HTTPAPI_CreateConnection lib (lit host)
  if h = 0 then pure (.null, 0) else do
  let u ← loadPtr h fHost
  if u = 0 then pure (.lost, 0) else pure (.handle, h)

def setOne (h : Ptr) (name : Option Text) (value : Option Nat) : M Res := do
  let v ← mkWord value
  let r ← HTTPAPI_SetOption h (lit name) v
  free v
  pure r

/-- the copy is released by the client -/
def cloneOne (name : Option Text) (value : Option Nat) (out : Bool) : M Res := do
  let v ← mkWord value
  let o ← mkOut out
  let r ← HTTPAPI_CloneOption (lit name) v o
  if r = .ok then do
    let q ← loadPtr o 0
    free q
    free v
    free o
    pure r
  else do
    free v
    free o
    pure r

/-- constant data -/
def dat : Option Text → CharPtr
  | none => .null
  | some bs => .lit bs

/-- a request: the objects are made, passed, and released -/
def requestOne (lib : Lib) (rcb h : Ptr) (type : Nat) (path : Option Text) (hdrs : Option (List (Text × Text))) (content : Option Text) (len : Nat)
    (status : Option Val) (rhdrs : Option (List (Text × Text))) (rcontent : Option Text) : M Res := do
  let hq ← mkHeaders hdrs
  let st ← mkStatus status
  let hr ← mkHeaders rhdrs
  let cr ← mkBuffer rcontent
  let r ← HTTPAPI_ExecuteRequest lib rcb h type (lit path) hq (dat content) (match content with | some bs => bs.length | none => len) st hr cr
  HTTPHeaders_Free hq
  free st
  HTTPHeaders_Free hr
  BUFFER_delete cr
  pure r

/-- the client: a table of connections.  `g`: `nUsersOfHTTPAPI`, `rcb`: `responseContentBuffer` -/
def exec (lib : Lib) (g rcb : Ptr) (op : Op) (env : List Nat) : M (Option Out × List Nat) :=
  match op with
  | .init => do let r ← HTTPAPI_Init lib g; pure (some (.result r), env)
  | .deinit => do HTTPAPI_Deinit lib g; pure (some .done, env)
  | .create host => do let r ← createOne lib host; pure (some r.1, env ++ [r.2])
  | .close i => on1 env i fun h => do HTTPAPI_CloseConnection lib h; pure (some .done, env.set i 0)
  | .setOption i n v => on1 env i fun h => do let r ← setOne h n v; pure (some (.result r), env)
  | .clone n v out => do let r ← cloneOne n v out; pure (some (.result r), env)
  | .request i type path hdrs content len status rhdrs rcontent => on1 env i fun h => do
    let r ← requestOne lib rcb h type path hdrs content len status rhdrs rcontent
    pure (some (.result r), env)

/-- arguments are C strings and objects -/
def good : Op → Prop
  | .create host => okText host
  | .setOption _ n _ => okText n
  | .clone n _ _ => okText n
  | .request _ _ path hdrs content _ _ rhdrs rcontent => okText path ∧ okPairs hdrs ∧ okBytes content ∧ okPairs rhdrs ∧ okBytes rcontent
  | _ => True

/-! ## Making and releasing objects -/

theorem mkWord_spec {l : Option Nat} : Triple rel emp (mkWord l) (fun h => ∃∃ a : Option Nat, (Passed (¬ rel) l a) ⋏ WordR h a) := by
  have none' : (l = none ∨ ¬ rel) → (emp ⊢ₕ ∃∃ a : Option Nat, (Passed (¬ rel) l a) ⋏ WordR 0 a) := by
    intro hl
    refine entails_ex_r none (entails_pand_r ?_ (hl.elim (fun h => Or.inl h.symm) fun h => Or.inr ⟨h, rfl⟩))
    rw [WordR, eq_self, true_pand]; exact entails_refl _
  cases l with
  | none => exact Triple.pure (none' (Or.inl rfl))
  | some v =>
    unfold mkWord
    refine Triple.mallocS (by decide) (fun hr => ?_) fun p hp => ?_
    · rw [if_pos rfl]; exact Triple.pure (none' (Or.inr hr))
    · rw [if_neg hp]
      step (store_spec (b := List.replicate 1 .undef) (by decide))
      exact Triple.pure (entails_ex_r (some v) (entails_pand_r (entails_refl _) (Or.inl rfl)))

theorem free_WordR {p : Ptr} {v : Option Nat} : Triple rel (WordR p v) (free p) (fun _ => emp) := by
  cases v with
  | none => unfold WordR; hoist; rintro rfl; exact free_null_spec
  | some v => exact free_spec

theorem mkOut_spec {l : Bool} : Triple rel emp (mkOut l) (fun h => ∃∃ a : Bool, (a = l ∨ (¬ rel ∧ a = false)) ⋏ OutR h a none) := by
  have none' : (l = false ∨ ¬ rel) → (emp ⊢ₕ ∃∃ a : Bool, (a = l ∨ (¬ rel ∧ a = false)) ⋏ OutR 0 a none) := by
    intro hl
    refine entails_ex_r false (entails_pand_r ?_ (hl.elim (fun h => Or.inl h.symm) fun h => Or.inr ⟨h, rfl⟩))
    rw [OutR, if_neg (by simp), eq_self, true_pand]; exact entails_refl _
  cases l with
  | false => exact Triple.pure (none' (Or.inl rfl))
  | true =>
    unfold mkOut
    refine Triple.conseq mallocS_spec (entails_refl _) fun p => ?_
    unfold Malloced
    split
    · rename_i h; subst h
      exact entails_pand_l fun hr => none' (Or.inr (hr.resolve_right (by decide)))
    · refine entails_pand_l fun _ => entails_ex_r true (entails_pand_r ?_ (Or.inl rfl))
      rw [OutR, if_pos rfl]
      exact entails_ex_r .undef (entails_refl _)

/-! ## Histories -/

/-- `n` handles that are no connections -/
def Lost : Nat → HProp
  | 0 => emp
  | n + 1 => (∃∃ p : Ptr, Broken p) ∗ Lost n

/-- libcurl's memory after the calls of the record, the static counter, the automatic variable, and handles lost by the client -/
def NetL (Net : List Ev → HProp) (Global : HProp) (g rcb : Ptr) (log : Log) : HProp :=
  Net (trace log) ∗ Users Global g (users log) ∗ Cell3 rcb ∗ Lost (lost log)

theorem NetL_eq {g rcb : Ptr} {log : Log} : NetL Net Global g rcb log = (Net (trace log) ∗ Users Global g (users log) ∗ Cell3 rcb ∗ Lost (lost log)) := rfl

theorem trace_snoc {log : Log} {e : Entry} : trace (log ++ [e]) = trace log ++ e.evs := by simp [trace]
theorem users_snoc {log : Log} {e : Entry} : users (log ++ [e]) = usersStep (users log) e := by simp [users]
theorem lost_snoc {log : Log} {e : Entry} : lost (log ++ [e]) = lost log + if e.isLost then 1 else 0 := by
  simp [lost, List.countP_append, List.countP_cons]

theorem users_le (log : Log) : users log ≤ log.length := by
  suffices h : ∀ (l : Log) n, l.foldl usersStep n ≤ n + l.length by simpa [users] using h log 0
  intro l
  induction l with
  | nil => intro n; simp
  | cons e l ih =>
    intro n
    have := ih (usersStep n e)
    have h2 : usersStep n e ≤ n + 1 := by unfold usersStep; split <;> omega
    simp only [List.foldl_cons, List.length_cons]
    omega

/-- a call that leaves the counter alone and loses nothing -/
theorem NetL_intro {g rcb : Ptr} {log : Log} {e : Entry} (h1 : ∀ n, usersStep n e = n) (h2 : e.isLost = false) :
    Net (trace log ++ e.evs) ∗ Users Global g (users log) ∗ Cell3 rcb ∗ Lost (lost log) ⊢ₕ NetL Net Global g rcb (log ++ [e]) := by
  rw [NetL_eq, trace_snoc, users_snoc, lost_snoc, h1, h2]
  exact entails_refl _

theorem liftW_plain {α : Type} {R : Ptr → Option Obj → HProp} {N : Log → HProp} {env : List Nat} {x : World} {c : M α} {E : Log → Out → Log → Prop} {f : α → Out}
    (hc : ∀ w, Triple rel (N w) c (fun r => ∃∃ w', (E w (f r) w') ⋏ N w')) :
    Triple rel (OwnW R N env x) (do let r ← c; pure (some (f r), env)) (fun r => ∃∃ x', (Plain x E r.1 x') ⋏ OwnW R N r.2 x') := by
  unfold OwnW
  step (hc x.2) into r
  intro w' hE
  exact Triple.pure (entails_ex_r (x.1, w') (entails_pand_r (by sep_cancel) ⟨_, w', rfl, hE, rfl⟩))

theorem createOne_spec (H : Honours rel lib Net Global Easy Slist Busy) {host : Option Text} {tr : List Ev} (hh : okText host) :
    Triple rel (Net tr) (createOne lib host)
      (fun r => ∃∃ (c : Conn) (evs : List Ev), (CreateE (¬ rel) host c evs ∧ r.1 = c.out) ⋏ OConn Easy r.2 c.obj ∗ Net (tr ++ evs) ∗
        if c = .broken then (∃∃ p : Ptr, Broken p) else emp) := by
  unfold createOne
  have t := HTTPAPI_CreateConnection_spec H (s := lit host) (o := host) (tr := tr)
  simp only [Arg_lit' hh, sep_emp] at t
  step t into h
  intro c evs hE
  cases c with
  | none =>
    rw [Given1]; hoist; rintro rfl
    rw [if_pos rfl]
    refine Triple.pure (entails_ex_r .none (entails_ex_r evs (entails_pand_r ?_ ⟨hE, rfl⟩)))
    rw [if_neg (by simp)]; simp only [Conn.obj, OConn, ORep_null]
    sep_cancel
  | broken =>
    rw [Given1, Broken]
    refine Triple.know (know_pts (p := h) (φ := h ≠ 0) (by pick) fun h1 _ => h1) fun h0 => ?_
    rw [if_neg h0]
    stepd (loadPtr_spec (p := h) (q := 0) ?_)
    rw [if_pos rfl]
    refine Triple.pure (entails_ex_r .broken (entails_ex_r evs (entails_pand_r ?_ ⟨hE, rfl⟩)))
    rw [if_pos rfl]; simp only [Conn.obj, OConn, ORep_null, emp_sep]; rw [sep_comm]
    exact sep_mono (entails_refl _) (entails_ex_r h (entails_refl _))
  | good o =>
    rw [Given1, ConnR_eq]
    hoist; intro u hu
    refine Triple.know (know_pts (p := h) (φ := h ≠ 0) (by pick) fun h1 _ => h1) fun h0 => ?_
    rw [if_neg h0]
    stepd (loadPtr_spec (p := h) (q := u) ?_)
    simp only [CS, CStr_heap0]
    hoist; intro bu hbu
    refine Triple.know (know_pts (p := u) (φ := u ≠ 0) (by pick) fun h1 _ => h1) fun hu0 => ?_
    rw [if_neg hu0]
    refine Triple.pure (entails_ex_r (.good o) (entails_ex_r evs (entails_pand_r ?_ ⟨hE, rfl⟩)))
    rw [if_neg (by simp), Conn.obj, OConn, ORep_some]
    refine entails_trans ?_ (sep_mono (ConnR_intro (u := u) hu) (entails_refl _))
    refine entails_trans ?_ (sep_mono (sep_mono (entails_refl _) (sep_mono (CS_of hbu) (entails_refl _))) (entails_refl _))
    sep_cancel

theorem setOne_spec {h : Ptr} {a : Option Obj} {n : Option Text} {v : Option Nat} (hn : okText n) :
    Triple rel (OConn Easy h a) (setOne h n v)
      (fun r => ∃∃ (b : Option Nat) (a' : Option Obj), (Passed (¬ rel) v b ∧ SetE n b a r a') ⋏ OConn Easy h a') := by
  unfold setOne
  step mkWord_spec into p
  intro b hb
  have t := HTTPAPI_SetOption_spec (rel := rel) (Easy := Easy) (h := h) (value := p) (a := a) (s := lit n) (name := n) (v := b)
  simp only [Arg_lit' hn, emp_sep] at t
  step t into r
  intro a' hE
  step free_WordR
  exact Triple.pure (entails_ex_r b (entails_ex_r a' (entails_pand_r (by sep_cancel) ⟨hb, hE⟩)))

theorem cloneOne_spec {n : Option Text} {v : Option Nat} {out : Bool} (hn : okText n) :
    Triple rel emp (cloneOne n v out)
      (fun r => ∃∃ (b : Option Nat) (d : Bool) (copy : Option Nat), (Passed (¬ rel) v b ∧ (d = out ∨ (¬ rel ∧ d = false)) ∧ CloneE (¬ rel) n b d r copy) ⋏ emp) := by
  unfold cloneOne
  step mkWord_spec into p
  intro b hb
  step mkOut_spec into q
  intro d hd
  have t := HTTPAPI_CloneOption_spec (rel := rel) (value := p) (out := q) (s := lit n) (name := n) (v := b) (b := d)
  simp only [Arg_lit' hn, emp_sep] at t
  step t into r
  intro copy hE
  have fin : ∀ r, CloneE (¬ rel) n b d r copy → emp ⊢ₕ ∃∃ (b : Option Nat) (d : Bool) (copy : Option Nat),
      (Passed (¬ rel) v b ∧ (d = out ∨ (¬ rel ∧ d = false)) ∧ CloneE (¬ rel) n b d r copy) ⋏ emp := fun r hE =>
    entails_ex_r b (entails_ex_r d (entails_ex_r copy (entails_pand_r (entails_refl _) ⟨hb, hd, hE⟩)))
  by_cases hr : r = .ok
  · subst hr
    rw [if_pos rfl]
    have : d = true ∧ ∃ w, copy = some w := by
      unfold CloneE at hE
      split at hE
      · split at hE
        · rcases hE with ⟨_, h⟩ | ⟨h, _⟩
          · exact ⟨rfl, _, h⟩
          · cases h
        · cases hE.1
      · cases hE.1
    obtain ⟨hd1, w, hw⟩ := this
    subst hd1; subst hw
    rw [OutR, if_pos rfl]
    hoist; intro z
    stepd (loadPtr_spec (p := q) (q := z) ?_)
    step (free_spec (p := z))
    step free_WordR
    step (free_spec (p := q))
    exact Triple.pure (fin _ hE)
  · rw [if_neg hr]
    have : copy = none := by
      unfold CloneE at hE
      split at hE
      · split at hE
        · rcases hE with ⟨h, _⟩ | ⟨_, h, _⟩
          · exact absurd h hr
          · exact h
        · exact hE.2
      · exact hE.2
    subst this
    step free_WordR
    have f : Triple rel (OutR q d none) (free q) (fun _ => emp) := by
      cases d with
      | false => rw [OutR, if_neg (by simp)]; hoist; rintro rfl; exact free_null_spec
      | true => rw [OutR, if_pos rfl]; hoist; intro z; exact free_spec
    step f
    exact Triple.pure (fin _ hE)

theorem ContentR_dat {c : Option Text} (h : okBytes c) : ContentR (dat c) c = emp := by
  cases c with
  | none => simp only [dat, ContentR, eq_self, true_pand]
  | some bs =>
    simp only [dat, ContentR]
    rw [Data_lit (List.prefix_refl bs) h]
    simp only [ne_eq, reduceCtorEq, not_false_eq_true, true_pand]

theorem requestOne_spec (H : Honours rel lib Net Global Easy Slist Busy) {h rcb : Ptr} {a : Option Obj} {tr : List Ev} {type : Nat} {path : Option Text}
    {hdrs : Option (List (Text × Text))} {content : Option Text} {len : Nat} {status : Option Val} {rhdrs : Option (List (Text × Text))} {rcontent : Option Text}
    (hp : okText path) (hh : okPairs hdrs) (hc : okBytes content) (hrh : okPairs rhdrs) (hrc : okBytes rcontent) :
    Triple rel (OConn Easy h a ∗ Net tr ∗ Cell3 rcb) (requestOne lib rcb h type path hdrs content len status rhdrs rcontent)
      (fun r => ∃∃ (y : Args) (rh : Ptr) (y' : Args) (evs : List Ev),
        (Made rel type path hdrs content len status rhdrs rcontent y ∧ (rh = 0 ↔ y.rhdrs = none) ∧ ExecE rel (dat content) rh rcb a y r y' evs) ⋏
          OConn Easy h a ∗ Net (tr ++ evs) ∗ Cell3 rcb) := by
  unfold requestOne
  step (mkHeaders_built hh) into hq
  intro xh h1
  step mkStatus_spec into st
  intro xs h3
  step (mkHeaders_built hrh) into hr
  intro xrh h4
  step (mkBuffer_spec hrc) into cr
  intro xrc h5
  refine Triple.know (know_OHdr (h := hr) (a := xrh) (by pick)) fun k4 => ?_
  have te := HTTPAPI_ExecuteRequest_spec (rcb := rcb) (handle := h) (hd := hq) (st := st) (rh := hr) (rc := cr) (rp := lit path) (p := dat content) H
    (a := a) (x := ⟨type, path, xh, content, len, xs, xrh, xrc⟩) (tr := tr) rfl
  simp only [ArgsR_eq, Arg_lit' hp, ContentR_dat hc, emp_sep, OutX_eq] at te
  have es : ∀ (p : Ptr) (v : Option Val), StatR p v = OStat p v := by intro p v; cases v <;> rfl
  simp only [es] at te
  step te into r
  intro y' evs hE
  obtain ⟨e1, e2, e3, e4, e5⟩ := hE.same
  dsimp only at e1 e2 e3
  rw [e1, e3, Arg_lit' hp, ContentR_dat hc, emp_sep, emp_sep]
  step HTTPHeaders_Free_spec
  step free_OStat
  step HTTPHeaders_Free_spec
  step BUFFER_delete_spec
  refine Triple.pure (entails_ex_r _ (entails_ex_r hr (entails_ex_r y' (entails_ex_r evs
    (entails_pand_r (by sep_cancel) ⟨⟨rfl, rfl, h1, rfl, rfl, h3, h4, h5⟩, k4, hE⟩)))))

theorem exec_spec (H : Honours rel lib Net Global Easy Slist Busy) {g rcb : Ptr} (op : Op) (hop : good op) (env : List Nat) (x : World) (hn : x.2.length + 1 < szMod) :
    Triple rel (OwnW (OConn Easy) (NetL Net Global g rcb) env x) (exec lib g rcb op env)
      (fun r => ∃∃ x', (step rel x op r.1 x') ⋏ OwnW (OConn Easy) (NetL Net Global g rcb) r.2 x') := by
  cases op with
  | init =>
    unfold exec step Plain
    dsimp only
    unfold OwnW
    rw [NetL_eq]
    step (HTTPAPI_Init_spec H (g := g) (n := users x.2) (tr := trace x.2) (by have := users_le x.2; omega)) into r
    intro n' evs hE
    refine Triple.pure (entails_ex_r (x.1, x.2 ++ [⟨none, .init r, evs⟩]) (entails_pand_r ?_ ⟨_, _, rfl, ⟨r, n', evs, hE, rfl, rfl⟩, rfl⟩))
    rw [NetL_eq, trace_snoc, users_snoc, lost_snoc]
    have e : usersStep (users x.2) ⟨none, .init r, evs⟩ = n' := by
      unfold InitE at hE
      split at hE
      · rename_i h0
        rcases hE with ⟨e, _, rfl, rfl, _⟩ | ⟨rfl, rfl, _⟩
        · exact h0
        · simp [usersStep, h0]
      · rw [hE.1, hE.2.1]; rfl
    have e2 : Entry.isLost ⟨none, .init r, evs⟩ = false := rfl
    rw [e, e2]
    simp only [Bool.false_eq_true, if_false, Nat.add_zero]
    sep_cancel
  | deinit =>
    unfold exec step Plain
    dsimp only
    unfold OwnW
    rw [NetL_eq]
    step (HTTPAPI_Deinit_spec H (g := g) (n := users x.2) (tr := trace x.2))
    intro n' evs hE
    refine Triple.pure (entails_ex_r (x.1, x.2 ++ [⟨none, .deinit, evs⟩]) (entails_pand_r ?_ ⟨_, _, rfl, ⟨n', evs, hE, rfl, rfl⟩, rfl⟩))
    rw [NetL_eq, trace_snoc, users_snoc, lost_snoc]
    have e : usersStep (users x.2) ⟨none, .deinit, evs⟩ = n' := hE.1.symm
    have e2 : Entry.isLost ⟨none, .deinit, evs⟩ = false := rfl
    rw [e, e2]
    simp only [Bool.false_eq_true, if_false, Nat.add_zero]
    sep_cancel
  | create host =>
    unfold exec step
    dsimp only
    unfold OwnW
    rw [NetL_eq]
    step (createOne_spec H (host := host) (tr := trace x.2) hop) into r
    intro c evs hE ho
    refine Triple.pure (entails_ex_r (x.1 ++ [c.obj], x.2 ++ [⟨some x.1.length, .create host c, evs⟩]) (entails_pand_r ?_
      ⟨_, _, _, rfl, ⟨c, evs, hE, ho, rfl, rfl⟩, rfl⟩))
    refine entails_trans ?_ (sep_mono Own_snoc (entails_refl _))
    rw [NetL_eq, trace_snoc, users_snoc, lost_snoc]
    have e : usersStep (users x.2) ⟨some x.1.length, .create host c, evs⟩ = users x.2 := rfl
    rw [e]
    cases c with
    | broken =>
      have e2 : Entry.isLost ⟨some x.1.length, .create host .broken, evs⟩ = true := rfl
      rw [e2, if_pos rfl, if_pos rfl, Lost]
      sep_cancel
    | none =>
      have e2 : Entry.isLost ⟨some x.1.length, .create host .none, evs⟩ = false := rfl
      rw [e2, if_neg (by simp), if_neg (by simp), Nat.add_zero]
      sep_cancel
    | good o =>
      have e2 : Entry.isLost ⟨some x.1.length, .create host (.good o), evs⟩ = false := rfl
      rw [e2, if_neg (by simp), if_neg (by simp), Nat.add_zero]
      sep_cancel
  | close i =>
    unfold exec step
    dsimp only
    refine liftW_del (o := Out.done) (W := Log) (E := fun a log (out : Out) a' log' => out = .done ∧ a' = none ∧
      ∃ evs, CloseE a evs ∧ log' = log ++ [(⟨some i, .close, evs⟩ : Entry)]) fun h a log => ?_
    rw [NetL_eq]
    refine Triple.conseq ((HTTPAPI_CloseConnection_spec H (h := h) (a := a) (tr := trace log)).frame
      (Users Global g (users log) ∗ Cell3 rcb ∗ Lost (lost log))) (by sep_cancel) fun _ => ?_
    simp only [hex_sep, pand_sep]
    exact entails_ex_l fun evs => entails_pand_l fun hE => entails_ex_r _ (entails_pand_r (NetL_intro (e := ⟨some i, .close, evs⟩) (fun _ => rfl) rfl)
      ⟨trivial, trivial, evs, hE, rfl⟩)
  | setOption i n v =>
    unfold exec step
    dsimp only
    refine liftW_op1 (f := Out.result) fun h a log => ?_
    refine Triple.conseq ((setOne_spec (Easy := Easy) (h := h) (a := a) (n := n) (v := v) hop).frame (NetL Net Global g rcb log)) (entails_refl _) fun r => ?_
    simp only [hex_sep, pand_sep]
    refine entails_ex_l fun b => entails_ex_l fun a' => entails_pand_l fun hE =>
      entails_ex_r a' (entails_ex_r _ (entails_pand_r ?_ ⟨b, r, hE.1, hE.2, rfl, rfl⟩))
    refine sep_mono (entails_refl _) (entails_trans ?_ (NetL_intro (e := ⟨some i, .setOption n b r, []⟩) (fun _ => rfl) rfl))
    rw [List.append_nil]; exact entails_refl _
  | clone n v out =>
    unfold exec step
    dsimp only
    refine liftW_plain (f := Out.result) fun log => ?_
    refine Triple.conseq ((cloneOne_spec (rel := rel) (n := n) (v := v) (out := out) hop).frame (NetL Net Global g rcb log)) (by rw [emp_sep]; exact entails_refl _) fun r => ?_
    simp only [hex_sep, pand_sep, emp_sep]
    refine entails_ex_l fun b => entails_ex_l fun d => entails_ex_l fun copy => entails_pand_l fun hE =>
      entails_ex_r _ (entails_pand_r ?_ ⟨b, d, r, copy, hE.1, hE.2.1, hE.2.2, rfl, rfl⟩)
    refine entails_trans ?_ (NetL_intro (e := ⟨none, .clone n b d r copy, []⟩) (fun _ => rfl) rfl)
    rw [List.append_nil]; exact entails_refl _
  | request i type path hdrs content len status rhdrs rcontent =>
    unfold exec step
    dsimp only
    refine liftW_op1 (f := Out.result) fun h a log => ?_
    rw [NetL_eq]
    refine Triple.conseq ((requestOne_spec H (h := h) (rcb := rcb) (a := a) (tr := trace log) (type := type) (len := len) (status := status)
      hop.1 hop.2.1 hop.2.2.1 hop.2.2.2.1 hop.2.2.2.2).frame
      (Users Global g (users log) ∗ Lost (lost log))) (by sep_cancel) fun r => ?_
    simp only [hex_sep, pand_sep]
    refine entails_ex_l fun y => entails_ex_l fun rh => entails_ex_l fun y' => entails_ex_l fun evs => entails_pand_l fun hE =>
      entails_ex_r a (entails_ex_r _ (entails_pand_r ?_ ⟨y, _, rh, rcb, r, y', evs, hE.1, hE.2.1, hE.2.2, rfl, rfl, rfl⟩))
    refine entails_trans ?_ (sep_mono (entails_refl _) (NetL_intro (e := ⟨some i, .request y r y', evs⟩) (fun _ => rfl) rfl))
    simp only [sep_assoc]
    sep_cancel

theorem step_length {x x' : World} {op : Op} {o : Option Out} (h : step rel x op o x') : x'.2.length ≤ x.2.length + 1 := by
  cases op <;> simp only [step, Plain, NewW, On1W] at h
  case init => obtain ⟨_, _, _, ⟨_, _, _, _, _, rfl⟩, rfl⟩ := h; simp
  case deinit => obtain ⟨_, _, _, ⟨_, _, _, _, rfl⟩, rfl⟩ := h; simp
  case create => obtain ⟨_, _, _, _, ⟨_, _, _, _, _, rfl⟩, rfl⟩ := h; simp
  case close =>
    rcases h with ⟨_, _, rfl⟩ | ⟨_, _, _, _, _, _, ⟨_, _, _, _, rfl⟩, rfl⟩ <;> simp
  case setOption =>
    rcases h with ⟨_, _, rfl⟩ | ⟨_, _, _, _, _, _, ⟨_, _, _, _, _, rfl⟩, rfl⟩ <;> simp
  case clone => obtain ⟨_, _, _, ⟨_, _, _, _, _, _, _, _, rfl⟩, rfl⟩ := h; simp
  case request =>
    rcases h with ⟨_, _, rfl⟩ | ⟨_, _, _, _, _, _, ⟨_, _, _, _, _, _, _, _, _, _, _, _, rfl⟩, rfl⟩ <;> simp

/-- Every history of fewer than 2⁶⁴ calls on any number of connections: no undefined behaviour; results, effects on the client's objects
and calls of libcurl are those of the specification. -/
theorem histories (H : Honours rel lib Net Global Easy Slist Busy) {g rcb : Ptr} (ops : List Op) (hops : ∀ op ∈ ops, good op) (env : List Nat) (x : World)
    (hl : x.2.length + ops.length < szMod) :
    Triple rel (OwnW (OConn Easy) (NetL Net Global g rcb) env x) (runOps (exec lib g rcb) ops env)
      (fun r => ∃∃ x', (Runs (step rel) x ops r.1 x') ⋏ OwnW (OConn Easy) (NetL Net Global g rcb) r.2 x') := by
  induction ops generalizing env x with
  | nil => exact Triple.pure (entails_ex_r x (entails_pand_r (entails_refl _) (Runs.nil x)))
  | cons op ops ih =>
    unfold runOps
    simp only [List.length_cons] at hl
    refine Triple.bind' (exec_spec H op (hops op (by simp)) env x (by omega)) fun r => ?_
    hoist; intro x1 h1
    refine Triple.bind' (ih (fun o ho => hops o (by simp [ho])) r.2 x1 (by have := step_length h1; omega)) fun rs => ?_
    hoist; intro x2 h2
    exact Triple.pure (entails_ex_r x2 (entails_pand_r (entails_refl _) (Runs.cons h1 h2)))

/-- From a state in which only libcurl and the two variables own memory; `rel`: memory is not refused. -/
theorem histories_run (H : Honours rel lib Net Global Easy Slist Busy) {g rcb : Ptr} (ops : List Op) (hops : ∀ op ∈ ops, good op)
    (hl : ops.length < szMod) (s : St) (hf : s.heap.fin) (hr : rel → Reliable s.alloc) (h0 : NetL Net Global g rcb [] s.heap) :
    ∃ outs env as log s', runOps (exec lib g rcb) ops [] s = some (.ok ((outs, env), s')) ∧
      Runs (step rel) ([], []) ops outs (as, log) ∧ (Own (OConn Easy) env as ∗ NetL Net Global g rcb log) s'.heap := by
  have t := histories H (g := g) (rcb := rcb) ops hops [] ([], []) (by simpa using hl)
  have t : Triple rel (NetL Net Global g rcb []) _ _ := t.pre (entails_of_eq (by rw [OwnW, Own_nil, emp_sep]))
  obtain ⟨r, s', h1, ⟨x', hx, hh⟩⟩ := t.run s hf hr h0
  refine ⟨r.1, r.2, x'.1, x'.2, s', h1, ?_, hh⟩
  simpa using hx

end Verif.Curl
