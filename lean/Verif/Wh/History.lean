import Verif.Wh.HSpec
import Verif.Wh.Request
import Verif.Ti.History
/-! # Every history of calls of `httpapi.h` on WinHTTP runs without undefined behaviour and does what the specification says -/
set_option linter.unusedSimpArgs false
set_option linter.unusedVariables false
namespace Verif.Wh
open Verif.Headers (Hdrs HdrR OHdr HTTPHeaders_Free HTTPHeaders_Free_spec know_OHdr)
open Verif.Buffer (Content Buf OBuf BUFFER_delete BUFFER_delete_spec)
open Verif.Map (lit okText Arg_lit')
open Verif.Curl (Args dat ContentR_dat ArgsR_eq OutX_eq StatR mkWord mkOut mkWord_spec mkOut_spec free_WordR OutR WordR)
open Verif.Ex (mkHeaders mkBuffer mkStatus mkBuffer_spec mkStatus_spec okPairs okBytes OStat free_OStat)
open Verif.Ti (Lost Lost_zero Lost_add)
open Verif.Ex (Passed mkHeaders_built)
variable {rel : Prop} {lib : Lib} {W : Codec} {Net : List Ev → HProp} {Sess Con : Nat → HProp} {Req : Nat → Nat → HProp}

/-! ## The client -/

/-- The client makes a connection.  If the result is no connection, although it is not `NULL` (`null_host` in `Demo.lean`), it is not
used by this client: a real one could not know. -/
def createOne (lib : Lib) (g : Ptr) (host : Option Text) : M (Out × Ptr) := do
  let h ← HTTPAPI_CreateConnection lib g (lit host)
  if h = 0 then pure (.null, 0) else do
  let v ← load h fConn
  if v = .undef then pure (.lost, 0) else pure (.handle, h)

def setOne (h : Ptr) (name : Option Text) (value : Option Nat) : M Res := do
  let v ← mkWord value
  let r ← HTTPAPI_SetOption h (lit name) v
  free v
  pure r

/-- the copy is released by the client -/
def cloneOne (name : Option Text) (value : Option Nat) (out : Bool) : M Res := do
  let v ← mkWord value
  let o ← mkOut out
  let r ← HTTPAPI_CloneOption (lit name) v o
  if r = .ok then do
    let q ← loadPtr o 0
    free q
    free v
    free o
    pure r
  else do
    free v
    free o
    pure r

/-- a request: the objects are made, passed, and released -/
def requestOne (lib : Lib) (g h : Ptr) (type : Nat) (path : Option Text) (hdrs : Option (List (Text × Text))) (content : Option Text)
    (status : Option Val) (rhdrs : Option (List (Text × Text))) (rcontent : Option Text) : M Res := do
  let hq ← mkHeaders hdrs
  let st ← mkStatus status
  let hr ← mkHeaders rhdrs
  let cr ← mkBuffer rcontent
  let r ← HTTPAPI_ExecuteRequest lib g h type (lit path) hq (dat content) (content.getD []).length st hr cr
  HTTPHeaders_Free hq
  free st
  HTTPHeaders_Free hr
  BUFFER_delete cr
  pure r

/-- the client: a table of connections.  `g`: the static variables -/
def exec (lib : Lib) (g : Ptr) (op : Op) (env : List Nat) : M (Option Out × List Nat) :=
  match op with
  | .init => do let r ← HTTPAPI_Init lib g; pure (some (.result r), env)
  | .deinit => do HTTPAPI_Deinit lib g; pure (some .done, env)
  | .create host => do let r ← createOne lib g host; pure (some r.1, env ++ [r.2])
  | .close i => on1 env i fun h => do HTTPAPI_CloseConnection lib g h; pure (some .done, env.set i 0)
  | .setOption i n v => on1 env i fun h => do let r ← setOne h n v; pure (some (.result r), env)
  | .clone n v out => do let r ← cloneOne n v out; pure (some (.result r), env)
  | .request i type path hdrs content status rhdrs rcontent => on1 env i fun h => do
    let r ← requestOne lib g h type path hdrs content status rhdrs rcontent
    pure (some (.result r), env)

/-- arguments are C strings and objects -/
def good : Op → Prop
  | .create host => okText host
  | .setOption _ n _ => okText n
  | .clone n _ _ => okText n
  | .request _ _ path hdrs content _ rhdrs rcontent => okText path ∧ okPairs hdrs ∧ okBytes content ∧ okPairs rhdrs ∧ okBytes rcontent
  | _ => True

/-! ## Histories -/

/-- connections the client has no handle of any more -/
def Left (Con : Nat → HProp) : List Obj → HProp
  | [] => emp
  | o :: l => (∃∃ p : Ptr, ConnR Con p o) ∗ Left Con l

/-- WinHTTP's memory after the calls of the record, the static variables, connections left open and lost blocks -/
def NetL (Net : List Ev → HProp) (Sess Con : Nat → HProp) (g : Ptr) (log : Log) : HProp :=
  Net (trace log) ∗ Glob Sess g (users log) (held log) ∗ Left Con (left log) ∗ Lost (lost log)
theorem NetL_eq {g : Ptr} {log : Log} : NetL Net Sess Con g log = (Net (trace log) ∗ Glob Sess g (users log) (held log) ∗ Left Con (left log) ∗ Lost (lost log)) := rfl

theorem trace_snoc {log : Log} {e : Entry} : trace (log ++ [e]) = trace log ++ e.evs := by simp [trace]
theorem lost_snoc {log : Log} {e : Entry} : lost (log ++ [e]) = lost log + e.lost := by simp [lost]
theorem users_snoc {log : Log} {e : Entry} : users (log ++ [e]) = usersStep (users log) e := by simp [users]
theorem left_users (log : Log) : (log.foldl leftStep (0, [])).1 = users log := by
  suffices h : ∀ (l : Log) (n : Nat) (y : List Obj), (l.foldl leftStep (n, y)).1 = l.foldl usersStep n from h log 0 []
  intro l
  induction l with
  | nil => intros; rfl
  | cons e l ih => intro n y; exact ih _ _
theorem left_snoc {log : Log} {e : Entry} : left (log ++ [e]) = (leftStep (users log, left log) e).2 := by
  unfold left
  rw [List.foldl_append, ← left_users]; rfl
theorem held_users (log : Log) : (log.foldl heldStep (0, 0)).1 = users log := by
  suffices h : ∀ (l : Log) (n : Nat) (y : Nat), (l.foldl heldStep (n, y)).1 = l.foldl usersStep n from h log 0 0
  intro l
  induction l with
  | nil => intros; rfl
  | cons e l ih => intro n y; exact ih _ _
theorem held_snoc {log : Log} {e : Entry} : held (log ++ [e]) = (heldStep (users log, held log) e).2 := by
  unfold held
  rw [List.foldl_append, ← held_users]; rfl

theorem users_le (log : Log) : users log ≤ log.length := by
  suffices h : ∀ (l : Log) n, l.foldl usersStep n ≤ n + l.length by simpa [users] using h log 0
  intro l
  induction l with
  | nil => simp
  | cons e l ih =>
    intro n
    have := ih (usersStep n e)
    have h2 : usersStep n e ≤ n + 1 := by unfold usersStep; split <;> (try split) <;> omega
    simp only [List.foldl_cons, List.length_cons]; omega

/-- a call that has nothing to do with users, sessions and losses -/
def Entry.quiet (e : Entry) : Prop := (∀ n, usersStep n e = n) ∧ (∀ x, (heldStep x e).2 = x.2) ∧ (∀ x, (leftStep x e).2 = x.2)

theorem NetL_intro {g : Ptr} {log : Log} {e : Entry} (h1 : e.quiet) (h2 : e.lost = 0) :
    Net (trace log ++ e.evs) ∗ Glob Sess g (users log) (held log) ∗ Left Con (left log) ∗ Lost (lost log) ⊢ₕ NetL Net Sess Con g (log ++ [e]) := by
  rw [NetL_eq, trace_snoc, lost_snoc, h2, users_snoc, h1.1, held_snoc, h1.2.1, left_snoc, h1.2.2]; exact entails_refl _

theorem liftW_plain {α : Type} {R : Ptr → Option Obj → HProp} {N : Log → HProp} {env : List Nat} {x : World} {c : M α} {E : Log → Out → Log → Prop} {f : α → Out}
    (hc : ∀ w, Triple rel (N w) c (fun r => ∃∃ w', (E w (f r) w') ⋏ N w')) :
    Triple rel (OwnW R N env x) (do let r ← c; pure (some (f r), env)) (fun r => ∃∃ x', (Plain x E r.1 x') ⋏ OwnW R N r.2 x') := by
  unfold OwnW
  step (hc x.2) into r
  intro w' hE
  exact Triple.pure (entails_ex_r (x.1, w') (entails_pand_r (by sep_cancel) ⟨_, w', rfl, hE, rfl⟩))

theorem createOne_spec (H : Honours rel lib W Net Sess Con Req) {g n s : Nat} {host : Option Text} {tr : List Ev} (hh : okText host) :
    Triple rel (Net tr ∗ Glob Sess g n s) (createOne lib g host)
      (fun r => ∃∃ (c : Conn) (evs : List Ev), (CreateE rel W n s host c evs ∧ r.1 = c.out) ⋏ OConn Con r.2 c.obj ∗ Net (tr ++ evs) ∗ Glob Sess g n s ∗
        Lost (if c = .broken then 1 else 0)) := by
  unfold createOne
  have t := HTTPAPI_CreateConnection_spec H (g := g) (n := n) (s := s) (hn := lit host) (o := host) (tr := tr)
  simp only [Arg_lit' hh, sep_emp] at t
  step t into h
  intro c evs hE
  cases c with
  | none =>
    rw [Given1]; hoist; rintro rfl
    rw [if_pos rfl]
    refine Triple.pure (entails_ex_r .none (entails_ex_r evs (entails_pand_r ?_ ⟨hE, rfl⟩)))
    rw [if_neg (by simp), Lost_zero]; simp only [Conn.obj, OConn, ORep_null]
    sep_cancel
  | broken =>
    rw [Given1, Broken]
    refine Triple.know (know_pts (p := h) (φ := h ≠ 0) (by pick) fun h1 _ => h1) fun h0 => ?_
    rw [if_neg h0]
    step (load_spec (p := h) (b := [.undef, .undef]) (off := fConn) (v := .undef) rfl)
    rw [if_pos rfl]
    refine Triple.pure (entails_ex_r .broken (entails_ex_r evs (entails_pand_r ?_ ⟨hE, rfl⟩)))
    rw [if_pos rfl]; simp only [Conn.obj, OConn, ORep_null, emp_sep]
    refine entails_trans (Q := (h ↦ [.undef, .undef]) ∗ (Net (tr ++ evs) ∗ Glob Sess g n s)) (by sep_cancel) (entails_trans (sep_mono Lost_one (entails_refl _)) (by sep_cancel))
  | good o =>
    rw [Given1, ConnR_eq]
    hoist; intro hu
    refine Triple.know (know_pts (p := h) (φ := h ≠ 0) (by pick) fun h1 _ => h1) fun h0 => ?_
    rw [if_neg h0]
    step (load_spec (p := h) (b := [.ptr o.con, .int o.timeout]) (off := fConn) (v := .ptr o.con) rfl)
    rw [if_neg (by simp)]
    refine Triple.pure (entails_ex_r (.good o) (entails_ex_r evs (entails_pand_r ?_ ⟨hE, rfl⟩)))
    rw [if_neg (by simp), Lost_zero, Conn.obj, OConn, ORep_some, ConnR_eq, eq_true hu, true_pand]
    simp only [sep_assoc, sep_emp]
    sep_cancel

theorem setOne_spec {h : Ptr} {a : Option Obj} {n : Option Text} {v : Option Nat} (hn : okText n) :
    Triple rel (OConn Con h a) (setOne h n v)
      (fun r => ∃∃ (b : Option Nat) (a' : Option Obj), (Passed (¬ rel) v b ∧ SetE n b a r a') ⋏ OConn Con h a') := by
  unfold setOne
  step mkWord_spec into p
  intro b hb
  have t := HTTPAPI_SetOption_spec (rel := rel) (Con := Con) (h := h) (value := p) (a := a) (s := lit n) (name := n) (v := b)
  simp only [Arg_lit' hn, emp_sep] at t
  step t into r
  intro a' hE
  step free_WordR
  exact Triple.pure (entails_ex_r b (entails_ex_r a' (entails_pand_r (by sep_cancel) ⟨hb, hE⟩)))

theorem cloneOne_spec {n : Option Text} {v : Option Nat} {out : Bool} (hn : okText n) :
    Triple rel emp (cloneOne n v out)
      (fun r => ∃∃ (b : Option Nat) (d : Bool) (copy : Option Nat), (Passed (¬ rel) v b ∧ (d = out ∨ (¬ rel ∧ d = false)) ∧ CloneE (¬ rel) n b d r copy) ⋏ emp) := by
  unfold cloneOne
  step mkWord_spec into p
  intro b hb
  step mkOut_spec into q
  intro d hd
  have t := HTTPAPI_CloneOption_spec (rel := rel) (value := p) (out := q) (s := lit n) (name := n) (v := b) (b := d)
  simp only [Arg_lit' hn, emp_sep] at t
  step t into r
  intro copy hE
  have fin : ∀ r, CloneE (¬ rel) n b d r copy → emp ⊢ₕ ∃∃ (b : Option Nat) (d : Bool) (copy : Option Nat),
      (Passed (¬ rel) v b ∧ (d = out ∨ (¬ rel ∧ d = false)) ∧ CloneE (¬ rel) n b d r copy) ⋏ emp := fun r hE =>
    entails_ex_r b (entails_ex_r d (entails_ex_r copy (entails_pand_r (entails_refl _) ⟨hb, hd, hE⟩)))
  by_cases hr : r = .ok
  · subst hr
    rw [if_pos rfl]
    have : d = true ∧ ∃ w, copy = some w := by
      unfold CloneE at hE
      split at hE
      · split at hE
        · rcases hE with ⟨_, h⟩ | ⟨h, _⟩
          · exact ⟨rfl, _, h⟩
          · cases h
        · cases hE.1
      · cases hE.1
    obtain ⟨hd1, w, hw⟩ := this
    subst hd1; subst hw
    rw [OutR, if_pos rfl]
    hoist; intro z
    stepd (loadPtr_spec (p := q) (q := z) ?_)
    step (free_spec (p := z))
    step free_WordR
    step (free_spec (p := q))
    exact Triple.pure (fin _ hE)
  · rw [if_neg hr]
    have : copy = none := by
      unfold CloneE at hE
      split at hE
      · split at hE
        · rcases hE with ⟨h, _⟩ | ⟨_, h, _⟩
          · exact absurd h hr
          · exact h
        · exact hE.2
      · exact hE.2
    subst this
    step free_WordR
    have f : Triple rel (OutR q d none) (free q) (fun _ => emp) := by
      cases d with
      | false => rw [OutR, if_neg (by simp)]; hoist; rintro rfl; exact free_null_spec
      | true => rw [OutR, if_pos rfl]; hoist; intro z; exact free_spec
    step f
    exact Triple.pure (fin _ hE)

/-- a request does not change its input -/
theorem ExecE.same {n : Nat} {a : Option Obj} {x x' : Args} {r : Res} {evs : List Ev} {k : Nat} (h : ExecE rel W n a x r x' evs k) : Same x x' := by
  have triv : x' = x → Same x x' := by rintro rfl; exact ⟨rfl, rfl, rfl⟩
  unfold ExecE at h
  split at h
  · exact triv h.2.1
  · split at h
    · split at h
      · exact triv h.2.1
      · exact RequestE.same h
    · exact triv h.2.1

theorem requestOne_spec (H : Honours rel lib W Net Sess Con Req) {h g n s : Nat} {a : Option Obj} {tr : List Ev} {type : Nat} {path : Option Text}
    {hdrs : Option (List (Text × Text))} {content : Option Text} {status : Option Val} {rhdrs : Option (List (Text × Text))} {rcontent : Option Text}
    (hp : okText path) (hh : okPairs hdrs) (hc : okBytes content) (hrh : okPairs rhdrs) (hrc : okBytes rcontent) :
    Triple rel (OConn Con h a ∗ Net tr ∗ Glob Sess g n s) (requestOne lib g h type path hdrs content status rhdrs rcontent)
      (fun r => ∃∃ (y : Args) (y' : Args) (evs : List Ev) (k : Nat),
        (Made rel type path hdrs content status rhdrs rcontent y ∧ ExecE rel W n a y r y' evs k) ⋏
          OConn Con h a ∗ Net (tr ++ evs) ∗ Glob Sess g n s ∗ Lost k) := by
  unfold requestOne
  step (mkHeaders_built hh) into hq
  intro xh h1
  step mkStatus_spec into st
  intro xs h3
  step (mkHeaders_built hrh) into hr
  intro xrh h4
  step (mkBuffer_spec hrc) into cr
  intro xrc h5
  have te := HTTPAPI_ExecuteRequest_spec H (g := g) (n := n) (s := s) (handle := h) (hd := hq) (st := st) (rh := hr) (rc := cr) (rp := lit path) (p := dat content)
    (a := a) (x := ⟨type, path, xh, content, 0, xs, xrh, xrc⟩) (len := (content.getD []).length) (tr := tr) rfl
  simp only [ArgsR_eq, Arg_lit' hp, ContentR_dat hc, emp_sep, OutX_eq] at te
  have es : ∀ (p : Ptr) (v : Option Val), StatR p v = OStat p v := by intro p v; cases v <;> rfl
  simp only [es] at te
  step te into r
  intro y' evs k hE
  obtain ⟨e1, e2, e3⟩ := hE.same
  dsimp only at e1 e2 e3
  rw [e1, e3, Arg_lit' hp, ContentR_dat hc, emp_sep, emp_sep]
  step HTTPHeaders_Free_spec
  step free_OStat
  step HTTPHeaders_Free_spec
  step BUFFER_delete_spec
  refine Triple.pure (entails_ex_r _ (entails_ex_r y' (entails_ex_r evs (entails_ex_r k
    (entails_pand_r (by sep_cancel) ⟨⟨rfl, rfl, h1, rfl, rfl, h3, h4, h5⟩, hE⟩)))))

theorem exec_spec (H : Honours rel lib W Net Sess Con Req) {g : Ptr} (op : Op) (hop : good op) (env : List Nat) (x : World) (hn : x.2.length + 1 < szMod) :
    Triple rel (OwnW (OConn Con) (NetL Net Sess Con g) env x) (exec lib g op env)
      (fun r => ∃∃ x', (step rel W x op r.1 x') ⋏ OwnW (OConn Con) (NetL Net Sess Con g) r.2 x') := by
  cases op with
  | init =>
    unfold exec step Plain
    dsimp only
    unfold OwnW
    rw [NetL_eq]
    step (HTTPAPI_Init_spec H (g := g) (n := users x.2) (s := held x.2) (tr := trace x.2) (by have := users_le x.2; omega)) into r
    intro n' s' evs hE
    refine Triple.pure (entails_ex_r (x.1, x.2 ++ [⟨none, .init r, evs⟩]) (entails_pand_r ?_ ⟨_, _, rfl, ⟨r, n', s', evs, hE, rfl, rfl⟩, rfl⟩))
    rw [NetL_eq, trace_snoc, users_snoc, lost_snoc, held_snoc, left_snoc]
    have e : usersStep (users x.2) ⟨none, .init r, evs⟩ = n' ∧ (heldStep (users x.2, held x.2) ⟨none, .init r, evs⟩).2 = s' := by
      unfold InitE at hE
      split at hE
      · rename_i h0
        rcases hE with ⟨rfl, rfl, rfl, rfl⟩ | ⟨_, rfl, rfl, rfl⟩
        · exact ⟨h0, rfl⟩
        · exact ⟨by simp [usersStep, h0], rfl⟩
      · obtain ⟨rfl, rfl, rfl, rfl⟩ := hE
        exact ⟨rfl, rfl⟩
    rw [e.1, e.2]
    have e3 : Entry.lost ⟨none, .init r, evs⟩ = 0 := rfl
    rw [e3, Nat.add_zero]
    dsimp only [leftStep]
    sep_cancel
  | deinit =>
    unfold exec step Plain
    dsimp only
    unfold OwnW
    rw [NetL_eq]
    step (HTTPAPI_Deinit_spec H (g := g) (n := users x.2) (s := held x.2) (tr := trace x.2))
    intro n' s' evs hE
    refine Triple.pure (entails_ex_r (x.1, x.2 ++ [⟨none, .deinit, evs⟩]) (entails_pand_r ?_ ⟨_, _, rfl, ⟨n', s', evs, hE, rfl, rfl⟩, rfl⟩))
    rw [NetL_eq, trace_snoc, users_snoc, lost_snoc, held_snoc, left_snoc]
    have e : usersStep (users x.2) ⟨none, .deinit, evs⟩ = n' ∧ (heldStep (users x.2, held x.2) ⟨none, .deinit, evs⟩).2 = s' := by
      refine ⟨hE.1.symm, ?_⟩
      have := hE.2
      dsimp only [heldStep]
      split at this
      · rename_i h; rw [if_pos h, this.1]
      · rename_i h; rw [if_neg h, this.1]
    rw [e.1, e.2]
    have e3 : Entry.lost ⟨none, .deinit, evs⟩ = 0 := rfl
    rw [e3, Nat.add_zero]
    dsimp only [leftStep]
    sep_cancel
  | create host =>
    unfold exec step
    dsimp only
    unfold OwnW
    rw [NetL_eq]
    step (createOne_spec H (g := g) (n := users x.2) (s := held x.2) (host := host) (tr := trace x.2) hop) into r
    intro c evs hE ho
    refine Triple.pure (entails_ex_r (x.1 ++ [c.obj], x.2 ++ [⟨some x.1.length, .create host c, evs⟩]) (entails_pand_r ?_
      ⟨_, _, _, rfl, ⟨c, evs, hE, ho, rfl, rfl⟩, rfl⟩))
    refine entails_trans ?_ (sep_mono Own_snoc (entails_refl _))
    rw [NetL_eq, trace_snoc, users_snoc, lost_snoc, held_snoc, left_snoc]
    have e : usersStep (users x.2) ⟨some x.1.length, .create host c, evs⟩ = users x.2 := rfl
    have e2 : (heldStep (users x.2, held x.2) ⟨some x.1.length, .create host c, evs⟩).2 = held x.2 := rfl
    have e3 : (leftStep (users x.2, left x.2) ⟨some x.1.length, .create host c, evs⟩).2 = left x.2 := rfl
    have e4 : Entry.lost ⟨some x.1.length, .create host c, evs⟩ = if c = .broken then 1 else 0 := by cases c <;> rfl
    rw [e, e2, e3, e4, Lost_add]
    sep_cancel
  | close i =>
    unfold exec step
    dsimp only
    refine liftW_del (o := Out.done) (W := Log) (E := fun a log (out : Out) a' log' => out = .done ∧ a' = none ∧
      ∃ evs, CloseE (users log) a evs ∧ log' = log ++ [(⟨some i, .close a, evs⟩ : Entry)]) fun h a log => ?_
    rw [NetL_eq]
    refine Triple.conseq ((HTTPAPI_CloseConnection_spec H (g := g) (n := users log) (s := held log) (h := h) (a := a) (tr := trace log)).frame
      (Left Con (left log) ∗ Lost (lost log))) (by rw [OConn]; sep_cancel) fun _ => ?_
    simp only [hex_sep, pand_sep]
    refine entails_ex_l fun evs => entails_pand_l fun hE => entails_ex_r _ (entails_pand_r ?_ ⟨trivial, trivial, evs, hE, rfl⟩)
    rw [NetL_eq, trace_snoc, users_snoc, lost_snoc, held_snoc, left_snoc]
    have e : usersStep (users log) ⟨some i, .close a, evs⟩ = users log := rfl
    have e2 : (heldStep (users log, held log) ⟨some i, .close a, evs⟩).2 = held log := rfl
    have e4 : Entry.lost ⟨some i, .close a, evs⟩ = 0 := rfl
    rw [e, e2, e4, Nat.add_zero]
    simp only [sep_assoc]
    by_cases h0 : users log = 0
    · rw [if_pos h0]
      cases a with
      | none =>
        rw [OConn, ORep_none]
        refine entails_trans (Q := (h = 0) ⋏ (Net (trace log ++ evs) ∗ Glob Sess g (users log) (held log) ∗ Left Con (left log) ∗ Lost (lost log))) ?_ (entails_pand_l fun _ => entails_refl _)
        simp only [sep_pand, pand_sep, emp_sep]
        exact entails_refl _
      | some o =>
        have e3 : (leftStep (users log, left log) ⟨some i, .close (some o), evs⟩).2 = o :: left log := by dsimp only [leftStep]; rw [if_pos h0]
        rw [e3, OConn, ORep_some, Left]
        refine entails_trans (Q := ConnR Con h o ∗ (Net (trace log ++ evs) ∗ Glob Sess g (users log) (held log) ∗ Left Con (left log) ∗ Lost (lost log))) (by sep_cancel) ?_
        refine entails_trans (sep_mono (show ConnR Con h o ⊢ₕ ∃∃ p : Ptr, ConnR Con p o from entails_ex_r h (entails_refl _)) (entails_refl _)) ?_
        simp only [sep_assoc]
        rw [sep_left_comm]
        refine sep_mono (entails_refl _) ?_
        rw [sep_left_comm]
        exact entails_refl _
    · rw [if_neg h0]
      have e3 : (leftStep (users log, left log) ⟨some i, .close a, evs⟩).2 = left log := by
        cases a with
        | none => rfl
        | some o => dsimp only [leftStep]; rw [if_neg h0]
      rw [e3]
      sep_cancel
  | setOption i n v =>
    unfold exec step
    dsimp only
    refine liftW_op1 (f := Out.result) fun h a log => ?_
    refine Triple.conseq ((setOne_spec (Con := Con) (h := h) (a := a) (n := n) (v := v) hop).frame (NetL Net Sess Con g log)) (entails_refl _) fun r => ?_
    simp only [hex_sep, pand_sep]
    refine entails_ex_l fun b => entails_ex_l fun a' => entails_pand_l fun hE =>
      entails_ex_r a' (entails_ex_r _ (entails_pand_r ?_ ⟨b, r, hE.1, hE.2, rfl, rfl⟩))
    refine sep_mono (entails_refl _) (entails_trans ?_ (NetL_intro (e := ⟨some i, .setOption n b r, []⟩) ⟨fun _ => rfl, fun _ => rfl, fun _ => rfl⟩ rfl))
    rw [List.append_nil]; exact entails_refl _
  | clone n v out =>
    unfold exec step
    dsimp only
    refine liftW_plain (f := Out.result) fun log => ?_
    refine Triple.conseq ((cloneOne_spec (rel := rel) (n := n) (v := v) (out := out) hop).frame (NetL Net Sess Con g log)) (by rw [emp_sep]; exact entails_refl _) fun r => ?_
    simp only [hex_sep, pand_sep, emp_sep]
    refine entails_ex_l fun b => entails_ex_l fun d => entails_ex_l fun copy => entails_pand_l fun hE =>
      entails_ex_r _ (entails_pand_r ?_ ⟨b, d, r, copy, hE.1, hE.2.1, hE.2.2, rfl, rfl⟩)
    refine entails_trans ?_ (NetL_intro (e := ⟨none, .clone n b d r copy, []⟩) ⟨fun _ => rfl, fun _ => rfl, fun _ => rfl⟩ rfl)
    rw [List.append_nil]; exact entails_refl _
  | request i type path hdrs content status rhdrs rcontent =>
    unfold exec step
    dsimp only
    refine liftW_op1 (f := Out.result) fun h a log => ?_
    rw [NetL_eq]
    refine Triple.conseq ((requestOne_spec H (h := h) (g := g) (n := users log) (s := held log) (a := a) (tr := trace log) (type := type) (status := status)
      hop.1 hop.2.1 hop.2.2.1 hop.2.2.2.1 hop.2.2.2.2).frame
      (Left Con (left log) ∗ Lost (lost log))) (by sep_cancel) fun r => ?_
    simp only [hex_sep, pand_sep]
    refine entails_ex_l fun y => entails_ex_l fun y' => entails_ex_l fun evs => entails_ex_l fun k => entails_pand_l fun hE =>
      entails_ex_r a (entails_ex_r _ (entails_pand_r ?_ ⟨y, r, y', evs, k, hE.1, hE.2, rfl, rfl, rfl⟩))
    rw [NetL_eq, trace_snoc, lost_snoc, Lost_add, users_snoc, held_snoc, left_snoc]
    have e : usersStep (users log) ⟨some i, .request y r y' k, evs⟩ = users log := rfl
    have e2 : (heldStep (users log, held log) ⟨some i, .request y r y' k, evs⟩).2 = held log := rfl
    have e3 : (leftStep (users log, left log) ⟨some i, .request y r y' k, evs⟩).2 = left log := rfl
    rw [e, e2, e3]
    simp only [sep_assoc, Entry.lost]
    sep_cancel

theorem step_length {x x' : World} {op : Op} {o : Option Out} (h : step rel W x op o x') : x'.2.length ≤ x.2.length + 1 := by
  cases op <;> simp only [step, Plain, NewW, On1W] at h
  case init => obtain ⟨_, _, _, ⟨_, _, _, _, _, _, rfl⟩, rfl⟩ := h; simp
  case deinit => obtain ⟨_, _, _, ⟨_, _, _, _, _, rfl⟩, rfl⟩ := h; simp
  case create => obtain ⟨_, _, _, _, ⟨_, _, _, _, _, rfl⟩, rfl⟩ := h; simp
  case close =>
    rcases h with ⟨_, _, rfl⟩ | ⟨_, _, _, _, _, _, ⟨_, _, _, _, rfl⟩, rfl⟩ <;> simp
  case setOption =>
    rcases h with ⟨_, _, rfl⟩ | ⟨_, _, _, _, _, _, ⟨_, _, _, _, _, rfl⟩, rfl⟩ <;> simp
  case clone => obtain ⟨_, _, _, ⟨_, _, _, _, _, _, _, _, rfl⟩, rfl⟩ := h; simp
  case request =>
    rcases h with ⟨_, _, rfl⟩ | ⟨_, _, _, _, _, _, ⟨_, _, _, _, _, _, _, _, _, rfl⟩, rfl⟩ <;> simp

/-- Every history of fewer than 2⁶⁴ calls on any number of connections: no undefined behaviour; results, effects on the client's objects
and calls of WinHTTP are those of the specification. -/
theorem histories (H : Honours rel lib W Net Sess Con Req) {g : Ptr} (ops : List Op) (hops : ∀ op ∈ ops, good op) (env : List Nat) (x : World)
    (hl : x.2.length + ops.length < szMod) :
    Triple rel (OwnW (OConn Con) (NetL Net Sess Con g) env x) (runOps (exec lib g) ops env)
      (fun r => ∃∃ x', (Runs (step rel W) x ops r.1 x') ⋏ OwnW (OConn Con) (NetL Net Sess Con g) r.2 x') := by
  induction ops generalizing env x with
  | nil => exact Triple.pure (entails_ex_r x (entails_pand_r (entails_refl _) (Runs.nil x)))
  | cons op ops ih =>
    unfold runOps
    simp only [List.length_cons] at hl
    refine Triple.bind' (exec_spec H op (hops op (by simp)) env x (by omega)) fun r => ?_
    hoist; intro x1 h1
    refine Triple.bind' (ih (fun o ho => hops o (by simp [ho])) r.2 x1 (by have := step_length h1; omega)) fun rs => ?_
    hoist; intro x2 h2
    exact Triple.pure (entails_ex_r x2 (entails_pand_r (entails_refl _) (Runs.cons h1 h2)))

/-- From a state in which only WinHTTP and the static variables own memory; `rel`: memory is not refused. -/
theorem histories_run (H : Honours rel lib W Net Sess Con Req) {g : Ptr} (ops : List Op) (hops : ∀ op ∈ ops, good op)
    (hl : ops.length < szMod) (s : St) (hf : s.heap.fin) (hr : rel → Reliable s.alloc) (h0 : NetL Net Sess Con g [] s.heap) :
    ∃ outs env as log s', runOps (exec lib g) ops [] s = some (.ok ((outs, env), s')) ∧
      Runs (step rel W) ([], []) ops outs (as, log) ∧ (Own (OConn Con) env as ∗ NetL Net Sess Con g log) s'.heap := by
  have t := histories H (g := g) ops hops [] ([], []) (by simpa using hl)
  have t : Triple rel (NetL Net Sess Con g []) _ _ := t.pre (entails_of_eq (by rw [OwnW, Own_nil, emp_sep]))
  obtain ⟨r, s', h1, ⟨x', hx, hh⟩⟩ := t.run s hf hr h0
  refine ⟨r.1, r.2, x'.1, x'.2, s', h1, ?_, hh⟩
  simpa using hx

end Verif.Wh
