import Verif.Ti.HSpec
import Verif.Ti.Receive
import Verif.Curl.History
/-! # Every history of calls of `httpapi.h` on TI's `HTTPCli` runs without undefined behaviour and does what the specification says -/
set_option linter.unusedSimpArgs false
namespace Verif.Ti
open Verif.Headers (Hdrs HdrR OHdr HTTPHeaders_Free HTTPHeaders_Free_spec know_OHdr)
open Verif.Buffer (Content Buf OBuf BUFFER_delete BUFFER_delete_spec)
open Verif.Map (lit okText Arg_lit')
open Verif.Curl (Args dat ContentR_dat ArgsR_eq OutX_eq StatR)
open Verif.Ex (addAll mkHeaders mkBuffer mkStatus mkHeaders_built mkBuffer_spec mkStatus_spec okPairs okBytes OStat free_OStat)
variable {rel : Prop} {lib : Lib} {Net : List Ev → HProp} {Cli : Nat → Nat → HProp}

/-- a request: the objects are made, passed, and released -/
def requestOne (lib : Lib) (cb h : Ptr) (type : Nat) (path : Option Text) (hdrs : Option (List (Text × Text))) (content : Option Text) (len : Nat)
    (status : Option Val) (rhdrs : Option (List (Text × Text))) (rcontent : Option Text) : M Res := do
  let hq ← mkHeaders hdrs
  let st ← mkStatus status
  let hr ← mkHeaders rhdrs
  let cr ← mkBuffer rcontent
  let r ← HTTPAPI_ExecuteRequest lib cb h type (lit path) hq (dat content) (match content with | some bs => bs.length | none => len) st hr cr
  HTTPHeaders_Free hq
  free st
  HTTPHeaders_Free hr
  BUFFER_delete cr
  pure r

/-- the client: a table of connections.  `cb`: the automatic array -/
def exec (lib : Lib) (cb : Ptr) (op : Op) (env : List Nat) : M (Option Out × List Nat) :=
  match op with
  | .init => do let r ← HTTPAPI_Init; pure (some (.result r), env)
  | .deinit => do HTTPAPI_Deinit; pure (some .done, env)
  | .create host => do let h ← HTTPAPI_CreateConnection lib (lit (some host)); pure (some (if h = 0 then .null else .handle), env ++ [h])
  | .close i => on1 env i fun h => do HTTPAPI_CloseConnection lib h; pure (some .done, env.set i 0)
  | .setOption i n => on1 env i fun h => do let r ← HTTPAPI_SetOption h (lit n) 0; pure (some (.result r), env)
  | .clone n => do let r ← HTTPAPI_CloneOption (lit n) 0 0; pure (some (.result r), env)
  | .request i type path hdrs content len status rhdrs rcontent => on1 env i fun h => do
    let r ← requestOne lib cb h type path hdrs content len status rhdrs rcontent
    pure (some (.result r), env)

/-- arguments are C strings and objects -/
def good : Op → Prop
  | .create host => okText (some host)
  | .request _ _ path hdrs content _ _ rhdrs rcontent => okText path ∧ okPairs hdrs ∧ okBytes content ∧ okPairs rhdrs ∧ okBytes rcontent
  | _ => True

/-! ## Histories -/

/-- the library's memory after the calls of the record, the automatic array, and the lost blocks -/
def NetL (Net : List Ev → HProp) (cb : Ptr) (log : Log) : HProp := Net (trace log) ∗ Array128 cb ∗ Lost (lost log)
theorem NetL_eq {cb : Ptr} {log : Log} : NetL Net cb log = (Net (trace log) ∗ Array128 cb ∗ Lost (lost log)) := rfl

theorem trace_snoc {log : Log} {e : Entry} : trace (log ++ [e]) = trace log ++ e.evs := by simp [trace]
theorem lost_snoc {log : Log} {e : Entry} : lost (log ++ [e]) = lost log + e.lost := by simp [lost]

theorem Lost_add : ∀ m n : Nat, Lost (m + n) = (Lost m ∗ Lost n)
  | 0, n => by rw [Nat.zero_add, Lost_zero, emp_sep]
  | m + 1, n => by rw [Nat.succ_add, Lost, Lost, Lost_add m n, sep_assoc]

theorem NetL_intro {cb : Ptr} {log : Log} {e : Entry} (h : e.lost = 0) :
    Net (trace log ++ e.evs) ∗ Array128 cb ∗ Lost (lost log) ⊢ₕ NetL Net cb (log ++ [e]) := by
  rw [NetL_eq, trace_snoc, lost_snoc, h]; exact entails_refl _

/-- a request does not change its input -/
theorem ExecE.same {a : Option Nat} {x x' : Args} {r : Res} {evs : List Ev} {k : Nat} (h : ExecE rel a x r x' evs k) :
    x'.path = x.path ∧ x'.hdrs = x.hdrs ∧ x'.content = x.content ∧ x'.type = x.type ∧ x'.len = x.len := by
  have triv : x' = x → x'.path = x.path ∧ x'.hdrs = x.hdrs ∧ x'.content = x.content ∧ x'.type = x.type ∧ x'.len = x.len := by
    rintro rfl; exact ⟨rfl, rfl, rfl, rfl, rfl⟩
  unfold ExecE at h
  split at h
  · split at h
    · exact triv h.2.1
    · split at h
      · exact triv h.2.1
      · obtain ⟨r1, evs1, _, ⟨_, _, h, _⟩ | ⟨_, evs2, hR, _⟩⟩ := h
        · exact triv h
        · rcases hR with ⟨e, _, _, h, _⟩ | ⟨e, xs, r1, hs', _, _, _, ⟨_, _, h, _⟩ | ⟨_, _, h⟩⟩
          · exact triv h
          · rw [h]; exact ⟨rfl, rfl, rfl, rfl, rfl⟩
          · split at h
            · rw [h.1]; exact ⟨rfl, rfl, rfl, rfl, rfl⟩
            · obtain ⟨_, _, _, h, _⟩ := h
              rw [h]; exact ⟨rfl, rfl, rfl, rfl, rfl⟩
  · exact triv h.2.1

theorem requestOne_spec (H : Honours rel lib Net Cli) {h cb : Ptr} {a : Option Nat} {tr : List Ev} {type : Nat} {path : Option Text}
    {hdrs : Option (List (Text × Text))} {content : Option Text} {len : Nat} {status : Option Val} {rhdrs : Option (List (Text × Text))} {rcontent : Option Text}
    (hp : okText path) (hh : okPairs hdrs) (hc : okBytes content) (hrh : okPairs rhdrs) (hrc : okBytes rcontent) :
    Triple rel (OConn Cli h a ∗ Net tr ∗ Array128 cb) (requestOne lib cb h type path hdrs content len status rhdrs rcontent)
      (fun r => ∃∃ (y : Args) (y' : Args) (evs : List Ev) (k : Nat),
        (Made rel type path hdrs content len status rhdrs rcontent y ∧ ExecE rel a y r y' evs k) ⋏
          OConn Cli h a ∗ Net (tr ++ evs) ∗ Array128 cb ∗ Lost k) := by
  unfold requestOne
  step (mkHeaders_built hh) into hq
  intro xh h1
  step mkStatus_spec into st
  intro xs h3
  step (mkHeaders_built hrh) into hr
  intro xrh h4
  step (mkBuffer_spec hrc) into cr
  intro xrc h5
  have te := HTTPAPI_ExecuteRequest_spec H (cb := cb) (handle := h) (hd := hq) (st := st) (rh := hr) (rc := cr) (rp := lit path) (p := dat content)
    (a := a) (x := ⟨type, path, xh, content, len, xs, xrh, xrc⟩) (tr := tr) rfl
  simp only [ArgsR_eq, Arg_lit' hp, ContentR_dat hc, emp_sep, OutX_eq] at te
  have es : ∀ (p : Ptr) (v : Option Val), StatR p v = OStat p v := by intro p v; cases v <;> rfl
  simp only [es] at te
  step te into r
  intro y' evs k hE
  obtain ⟨e1, e2, e3, e4, e5⟩ := hE.same
  dsimp only at e1 e2 e3
  rw [e1, e3, Arg_lit' hp, ContentR_dat hc, emp_sep, emp_sep]
  step HTTPHeaders_Free_spec
  step free_OStat
  step HTTPHeaders_Free_spec
  step BUFFER_delete_spec
  refine Triple.pure (entails_ex_r _ (entails_ex_r y' (entails_ex_r evs (entails_ex_r k
    (entails_pand_r (by sep_cancel) ⟨⟨rfl, rfl, h1, rfl, rfl, h3, h4, h5⟩, hE⟩)))))

theorem exec_spec (H : Honours rel lib Net Cli) {cb : Ptr} (op : Op) (hop : good op) (env : List Nat) (x : World) :
    Triple rel (OwnW (OConn Cli) (NetL Net cb) env x) (exec lib cb op env)
      (fun r => ∃∃ x', (step rel x op r.1 x') ⋏ OwnW (OConn Cli) (NetL Net cb) r.2 x') := by
  have plain : ∀ (e : Entry) (o : Out), e.evs = [] → e.lost = 0 → OwnW (OConn Cli) (NetL Net cb) env x ⊢ₕ OwnW (OConn Cli) (NetL Net cb) env (x.1, x.2 ++ [e]) := by
    intro e o h1 h2
    unfold OwnW
    refine sep_mono (entails_refl _) (entails_trans ?_ (NetL_intro h2))
    rw [h1, List.append_nil]; exact entails_refl _
  cases op with
  | init =>
    unfold exec step Plain HTTPAPI_Init
    exact Triple.pure (entails_ex_r _ (entails_pand_r (plain ⟨none, .init, []⟩ .done rfl rfl) ⟨_, _, rfl, ⟨rfl, rfl⟩, rfl⟩))
  | deinit =>
    unfold exec step Plain HTTPAPI_Deinit
    exact Triple.pure (entails_ex_r _ (entails_pand_r (plain ⟨none, .deinit, []⟩ .done rfl rfl) ⟨_, _, rfl, ⟨rfl, rfl⟩, rfl⟩))
  | clone n =>
    unfold exec step Plain HTTPAPI_CloneOption
    exact Triple.pure (entails_ex_r _ (entails_pand_r (plain ⟨none, .clone n, []⟩ .done rfl rfl) ⟨_, _, rfl, ⟨rfl, rfl⟩, rfl⟩))
  | create host =>
    unfold exec step
    dsimp only
    refine liftW_new (f := fun h : Nat => if h = 0 then Out.null else .handle) fun log => ?_
    rw [NetL_eq]
    have t := HTTPAPI_CreateConnection_spec H (s := lit (some host)) (host := host) (tr := trace log)
    have e : CStr (lit (some host)) host = emp := by
      have := Arg_lit' (o := some host) hop
      rwa [Arg_some] at this
    rw [e] at t
    simp only [sep_emp] at t
    refine (t.frame (Array128 cb ∗ Lost (lost log))).conseq (by sep_cancel) fun h => ?_
    simp only [hex_sep, pand_sep]
    refine entails_ex_l fun a => entails_ex_l fun evs => entails_pand_l fun hE => ?_
    simp only [sep_assoc]
    by_cases h0 : h = 0
    · cases a with
      | none =>
        refine entails_ex_r none (entails_ex_r _ (entails_pand_r ?_ ⟨evs, hE, by simp [h0], rfl⟩))
        refine entails_trans ?_ (sep_mono (entails_refl _) (NetL_intro (e := ⟨some x.1.length, .create host none, evs⟩) rfl))
        first | exact entails_refl _ | sep_cancel
      | some c =>
        intro g hg
        exfalso
        have := know_OConn (p := h) (a := some c) (by pick) g hg
        simp [h0] at this
    · cases a with
      | none =>
        intro g hg
        exfalso
        have := know_OConn (p := h) (a := none) (by pick) g hg
        simp [h0] at this
      | some c =>
        refine entails_ex_r (some c) (entails_ex_r _ (entails_pand_r ?_ ⟨evs, hE, by simp [h0], rfl⟩))
        refine entails_trans ?_ (sep_mono (entails_refl _) (NetL_intro (e := ⟨some x.1.length, .create host (some c), evs⟩) rfl))
        first | exact entails_refl _ | sep_cancel
  | close i =>
    unfold exec step
    dsimp only
    refine liftW_del (o := Out.done) (W := Log) (E := fun a log (out : Out) a' log' => out = .done ∧ a' = none ∧
      ∃ evs, CloseE a evs ∧ log' = log ++ [(⟨some i, .close, evs⟩ : Entry)]) fun h a log => ?_
    rw [NetL_eq]
    refine Triple.conseq ((HTTPAPI_CloseConnection_spec H (h := h) (a := a) (tr := trace log)).frame
      (Array128 cb ∗ Lost (lost log))) (by rw [OConn]; sep_cancel) fun _ => ?_
    simp only [hex_sep, pand_sep]
    exact entails_ex_l fun evs => entails_pand_l fun hE => entails_ex_r _ (entails_pand_r (NetL_intro (e := ⟨some i, .close, evs⟩) rfl)
      ⟨trivial, trivial, evs, hE, rfl⟩)
  | setOption i n =>
    unfold exec step
    dsimp only
    refine liftW_op1 (f := Out.result) fun h a log => ?_
    unfold HTTPAPI_SetOption
    refine Triple.pure (entails_ex_r a (entails_ex_r _ (entails_pand_r ?_ ⟨rfl, rfl, rfl⟩)))
    refine sep_mono (entails_refl _) (entails_trans ?_ (NetL_intro (e := ⟨some i, .setOption n, []⟩) rfl))
    rw [List.append_nil]; exact entails_refl _
  | request i type path hdrs content len status rhdrs rcontent =>
    unfold exec step
    dsimp only
    refine liftW_op1 (f := Out.result) fun h a log => ?_
    rw [NetL_eq]
    refine Triple.conseq ((requestOne_spec H (h := h) (cb := cb) (a := a) (tr := trace log) (type := type) (len := len) (status := status)
      hop.1 hop.2.1 hop.2.2.1 hop.2.2.2.1 hop.2.2.2.2).frame
      (Lost (lost log))) (by sep_cancel) fun r => ?_
    simp only [hex_sep, pand_sep]
    refine entails_ex_l fun y => entails_ex_l fun y' => entails_ex_l fun evs => entails_ex_l fun k => entails_pand_l fun hE =>
      entails_ex_r a (entails_ex_r _ (entails_pand_r ?_ ⟨y, r, y', evs, k, hE.1, hE.2, rfl, rfl, rfl⟩))
    rw [NetL_eq, trace_snoc, lost_snoc, Lost_add]
    simp only [sep_assoc, Entry.lost]
    sep_cancel

/-- Every history of calls on any number of connections: no undefined behaviour; results, effects on the client's objects and calls of
the library are those of the specification. -/
theorem histories (H : Honours rel lib Net Cli) {cb : Ptr} (ops : List Op) (hops : ∀ op ∈ ops, good op) (env : List Nat) (x : World) :
    Triple rel (OwnW (OConn Cli) (NetL Net cb) env x) (runOps (exec lib cb) ops env)
      (fun r => ∃∃ x', (Runs (step rel) x ops r.1 x') ⋏ OwnW (OConn Cli) (NetL Net cb) r.2 x') :=
  runOps_spec (fun op hop env x => exec_spec H op hop env x) ops hops env x

/-- From a state in which only the library and the array own memory; `rel`: memory is not refused. -/
theorem histories_run (H : Honours rel lib Net Cli) {cb : Ptr} (ops : List Op) (hops : ∀ op ∈ ops, good op)
    (s : St) (hf : s.heap.fin) (hr : rel → Reliable s.alloc) (h0 : NetL Net cb [] s.heap) :
    ∃ outs env as log s', runOps (exec lib cb) ops [] s = some (.ok ((outs, env), s')) ∧
      Runs (step rel) ([], []) ops outs (as, log) ∧ (Own (OConn Cli) env as ∗ NetL Net cb log) s'.heap := by
  have t := histories H (cb := cb) ops hops [] ([], [])
  have t : Triple rel (NetL Net cb []) _ _ := t.pre (entails_of_eq (by rw [OwnW, Own_nil, emp_sep]))
  obtain ⟨r, s', h1, ⟨x', hx, hh⟩⟩ := t.run s hf hr h0
  exact ⟨r.1, r.2, x'.1, x'.2, s', h1, hx, hh⟩

end Verif.Ti
