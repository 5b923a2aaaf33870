import Verif.Wce.HSpec
import Verif.Wce.Calls
import Verif.Mb.History
/-! # Every history of calls of `httpapi_wince.c` runs without undefined behaviour and does what the specification says -/
set_option linter.unusedSimpArgs false
namespace Verif.Wce
open Verif.Headers (Hdrs HdrR OHdr HTTPHeaders_Free HTTPHeaders_Free_spec)
open Verif.Buffer (Content Buf OBuf BUFFER_new BUFFER_new_spec BUFFER_delete BUFFER_delete_spec)
open Verif.Map (lit okText Arg_lit')
open Verif.Curl (Args dat ContentR_dat ArgsR_eq OutX_eq StatR)
open Verif.Ex (mkHeaders mkStatus mkStatus_spec okPairs okBytes OStat free_OStat)
open Verif.Ex (Headed mkHeaders_built)
open Verif.Mb (Wire Arr Cell Op Out Called Served Sends Says pieces total mkBody mkBody_spec headed_length Filled)
variable {rel : Prop} {lib : Lib} {g : Ptr} {Net : List Ev → HProp} {Sk : Nat → Option Wire → HProp} {At : Nat → Text → Prop} {Peer P : Text → Wire → Prop} {W : Prop} {J : Res → Prop}

/-- a request: the objects are made, passed, and released -/
def requestOne (lib : Lib) (g buf cp h : Ptr) (type : Nat) (path : Option Text) (hdrs : Option (List (Text × Text))) (content : Option Text) (len : Nat)
    (status : Option Val) (rhdrs : Option (List (Text × Text))) (rcontent : Bool) : M Res := do
  let hq ← mkHeaders hdrs
  let st ← mkStatus status
  let hr ← mkHeaders rhdrs
  let cr ← mkBody rcontent
  let r ← HTTPAPI_ExecuteRequest lib g buf cp h type (lit path) hq (dat content) (match content with | some bs => bs.length | none => len) st hr cr
  HTTPHeaders_Free hq
  free st
  HTTPHeaders_Free hr
  BUFFER_delete cr
  pure r

/-- the client: a table of handles.  `buf`, `cp`: the automatic arrays -/
def exec (lib : Lib) (g buf cp : Ptr) (op : Op) (env : List Nat) : M (Option Out × List Nat) :=
  match op with
  | .create host => do let h ← HTTPAPI_CreateConnection (lit host); pure (some (if h = 0 then .null else .handle), env ++ [h])
  | .close i => on1 env i fun h => do HTTPAPI_CloseConnection lib h; pure (some .done, env.set i 0)
  | .setOption i n v => on1 env i fun h => do let r ← HTTPAPI_SetOption h (lit n) (lit v); pure (some (.result r), env)
  | .request i type path hdrs content len status rhdrs rcontent => on1 env i fun h => do
    let r ← requestOne lib g buf cp h type path hdrs content len status rhdrs rcontent
    pure (some (.result r), env)

/-- arguments are C strings and objects; the headers together, and the body, have less than 2³¹ bytes; no host name starts with three numbers -/
def good : Op → Prop
  | .create host => okText host ∧ ∀ t, host = some t → conversions t < 3
  | .close _ => True
  | .setOption _ n v => okText n ∧ okText v
  | .request _ _ path hdrs content _ _ rhdrs _ => okText path ∧ okPairs hdrs ∧ okBytes content ∧ okPairs rhdrs ∧ (content.getD []).length < 2 ^ 31 ∧ total (hdrs.getD []) < 2 ^ 31

/-- the memory of Winsock after the calls of the record, the option, and the automatic arrays -/
def NetL (Net : List Ev → HProp) (g buf cp : Ptr) (log : Log) : HProp := Net (trace log) ∗ Opt g ∗ Arr buf ∗ Cell cp
theorem NetL_eq {buf cp : Ptr} {log : Log} : NetL Net g buf cp log = (Net (trace log) ∗ Opt g ∗ Arr buf ∗ Cell cp) := rfl

theorem trace_snoc {log : Log} {e : Entry} : trace (log ++ [e]) = trace log ++ e.evs := by simp [trace]

theorem NetL_intro {buf cp : Ptr} {log : Log} {e : Entry} : Net (trace log ++ e.evs) ∗ Opt g ∗ Arr buf ∗ Cell cp ⊢ₕ NetL Net g buf cp (log ++ [e]) := by
  rw [NetL_eq, trace_snoc]; exact entails_refl _

/-- a handle whose connection, if there is one, is `P`, and whose host name does not start with three numbers -/
def OkObj (P : Text → Wire → Prop) (o : Obj) : Prop := (∀ fd w, o.sock = some (fd, some w) → P o.host w) ∧ conversions o.host < 3
def ServedR (P : Text → Wire → Prop) (Sk : Nat → Option Wire → HProp) (h : Ptr) (o : Obj) : HProp := (OkObj P o) ⋏ HandleR Sk h o
theorem ServedR_eq {h : Ptr} {o : Obj} : ServedR P Sk h o = ((OkObj P o) ⋏ HandleR Sk h o) := rfl

theorem served_out {h : Ptr} {a : Option Obj} : ORep (ServedR P Sk) h a = ((∀ o, a = some o → OkObj P o) ⋏ OHandle Sk h a) := by
  cases a with
  | none =>
    simp only [OHandle, ORep_none]
    funext m; apply propext
    exact ⟨fun h => ⟨(fun o e => by cases e), h⟩, fun h => h.2⟩
  | some o =>
    simp only [OHandle, ORep_some, ServedR_eq]
    funext m; apply propext
    exact ⟨fun h => ⟨fun o' e => by cases e; exact h.1, h.2⟩, fun h => ⟨h.1 o rfl, h.2⟩⟩

/-- a request does not change its input -/
theorem ExecE.same {a a' : Option Obj} {x x' : Args} {r : Res} {evs : List Ev} (h : ExecE rel W J Peer a x r x' a' evs) :
    x'.path = x.path ∧ x'.hdrs = x.hdrs ∧ x'.content = x.content := by
  unfold ExecE at h
  split at h
  · split at h
    · rw [h.2.1]; exact ⟨rfl, rfl, rfl⟩
    · obtain ⟨r1, s1, _, ⟨_, h, _⟩ | ⟨_, fd, _, _, h, _⟩ | ⟨_, fd, w, w', _, hX, _⟩⟩ := h
      · rw [h]; exact ⟨rfl, rfl, rfl⟩
      · rw [h]; exact ⟨rfl, rfl, rfl⟩
      · rcases hX with ⟨_, _, h, _⟩ | ⟨_, r2, w2, _, ⟨_, _, h, _⟩ | ⟨_, y, _, _, ⟨hs', _, h⟩, _⟩⟩
        · rw [h]; exact ⟨rfl, rfl, rfl⟩
        · rw [h]; exact ⟨rfl, rfl, rfl⟩
        · rw [h]; exact ⟨rfl, rfl, rfl⟩
  · rw [h.2.1]; exact ⟨rfl, rfl, rfl⟩

theorem served_answer (S : Served rel W Peer P) {o : Obj} {x : Args} (ho : OkObj P o) (hx : x.rcontent = none ∨ x.rcontent = some none) :
    Answered rel W Peer o x := by
  intro path hs w w' _ _ hw hS
  have hP : P o.host w := by
    rcases hw with ⟨fd, hw⟩ | ⟨_, h1, h2, h3⟩
    · exact ho.1 fd w hw
    · exact S.fresh _ _ h1 h2 h3
  obtain ⟨y, hy, _⟩ := S.answered _ _ _ _ _ _ hP hS hx
  exact ⟨y, hy⟩

theorem served_after (S : Served rel W Peer P) {a a' : Option Obj} {x x' : Args} {r : Res} {evs : List Ev} (ho : ∀ o, a = some o → OkObj P o)
    (hx : x.rcontent = none ∨ x.rcontent = some none) (hE : ExecE rel W J Peer a x r x' a' evs) : ∀ o, a' = some o → OkObj P o := by
  unfold ExecE at hE
  split at hE
  · rename_i o path hs hp hh
    have ho := ho o rfl
    split at hE
    · rw [hE.2.2.1]; intro o' e; cases e; exact ho
    · have conn : ∀ {r1 s1}, ConnectE J Peer o r1 s1 evs → ∀ fd w, s1 = some (fd, some w) → P o.host w := by
        intro r1 s1 hC fd w e
        cases hC with
        | kept h => cases e; exact ho.1 fd w h
        | noSocket => cases e
        | noName => cases e
        | noTls => cases e
        | refused => cases e
        | done _ h1 h2 h3 => cases e; exact S.fresh _ _ h1 h2 h3
      obtain ⟨r1, s1, hC, ⟨_, _, h⟩ | ⟨_, fd, hs1, _, _, h⟩ | ⟨_, fd, w, w', hs1, hX, h⟩⟩ := hE
      · rw [h]; intro o' e; cases e; exact ⟨conn hC, ho.2⟩
      · rw [h]; intro o' e; cases e; exact ⟨fun fd w e => (by cases e), ho.2⟩
      · rw [h]; intro o' e; cases e
        refine ⟨fun fd1 w1 e => ?_, ho.2⟩
        cases e
        have hP := conn hC fd w hs1
        rcases hX with ⟨_, _, _, h⟩ | ⟨_, r2, w2, hS, ⟨hr, _, _, h⟩ | ⟨hr, y, hy, _, _, h⟩⟩
        · rw [h]; exact hP
        · rw [h]; exact S.failed _ _ _ _ _ _ _ hP hS hr
        · subst hr
          obtain ⟨y', hy', hP'⟩ := S.answered _ _ _ _ _ _ hP hS hx
          rw [← hy.det hy'] at hP'
          rw [h]; exact hP'
  · rw [hE.2.2.1]; exact ho

theorem requestOne_spec (H : Honours rel lib g Net Sk At Peer W J) (S : Served rel W Peer P) (hr : rel) {h buf cp : Ptr} {a : Option Obj} {tr : List Ev} {type : Nat} {path : Option Text}
    {hdrs : Option (List (Text × Text))} {content : Option Text} {len : Nat} {status : Option Val} {rhdrs : Option (List (Text × Text))} {rcontent : Bool} {i : Nat}
    (ho : ∀ o, a = some o → OkObj P o) (hg : good (.request i type path hdrs content len status rhdrs rcontent)) :
    Triple rel (OHandle Sk h a ∗ Net tr ∗ Opt g ∗ Arr buf ∗ Cell cp) (requestOne lib g buf cp h type path hdrs content len status rhdrs rcontent)
      (fun r => ∃∃ (y : Args) (y' : Args) (a' : Option Obj) (evs : List Ev),
        (Mb.Made rel type path hdrs content len status rhdrs rcontent y ∧ ExecE rel W J Peer a y r y' a' evs ∧ ∀ o, a' = some o → OkObj P o) ⋏
          OHandle Sk h a' ∗ Net (tr ++ evs) ∗ Opt g ∗ Arr buf ∗ Cell cp) := by
  obtain ⟨hp, hh, hc, hrh, hcl, hhl⟩ := hg
  unfold requestOne
  step (mkHeaders_built hh) into hq
  intro xh h1
  step mkStatus_spec into st
  intro xs h3
  step (mkHeaders_built hrh) into hr'
  intro xrh h4
  step (mkBody_spec hr) into cr
  intro xrc h5
  have hx : xrc = none ∨ xrc = some none := by
    rcases h5 with h | h
    · cases rcontent
      · exact .inl h
      · exact .inr h
    · exact .inl h.2
  have te := HTTPAPI_ExecuteRequest_spec H (buf := buf) (cp := cp) (handle := h) (hd := hq) (st := st) (rh := hr') (rc := cr) (rp := lit path) (p := dat content)
    (a := a) (x := ⟨type, path, xh, content, len, xs, xrh, xrc⟩) (tr := tr) rfl (fun _ => hr) ⟨fun hs e => headed_length h1 e hhl, hcl⟩
    (fun o e _ => (ho o e).2) (fun o e => served_answer S (ho o e) hx)
  simp only [ArgsR_eq, Arg_lit' hp, ContentR_dat hc, emp_sep, OutX_eq] at te
  have es : ∀ (p : Ptr) (v : Option Val), StatR p v = OStat p v := by intro p v; cases v <;> rfl
  simp only [es] at te
  step te into r
  intro y' a' evs hE
  obtain ⟨e1, e2, e3⟩ := hE.same
  dsimp only at e1 e2 e3
  rw [e1, e3, Arg_lit' hp, ContentR_dat hc, emp_sep, emp_sep]
  step HTTPHeaders_Free_spec
  step free_OStat
  step HTTPHeaders_Free_spec
  step BUFFER_delete_spec
  exact Triple.pure (entails_ex_r _ (entails_ex_r y' (entails_ex_r a' (entails_ex_r evs
    (entails_pand_r (by sep_cancel) ⟨⟨rfl, rfl, h1, rfl, rfl, h3, h4, h5⟩, hE, served_after S ho hx hE⟩)))))

theorem exec_spec (H : Honours rel lib g Net Sk At Peer W J) (S : Served rel W Peer P) (hr : rel) {buf cp : Ptr} (op : Op) (hop : good op) (env : List Nat) (x : World) :
    Triple rel (OwnW (ORep (ServedR P Sk)) (NetL Net g buf cp) env x) (exec lib g buf cp op env)
      (fun r => ∃∃ x', (step rel W J Peer x op r.1 x') ⋏ OwnW (ORep (ServedR P Sk)) (NetL Net g buf cp) r.2 x') := by
  cases op with
  | create host =>
    unfold exec step
    dsimp only
    refine liftW_new (f := fun h : Nat => if h = 0 then Out.null else .handle) fun log => ?_
    rw [NetL_eq]
    have tc := HTTPAPI_CreateConnection_spec (Sk := Sk) hr (s := lit host) (host := host)
    rw [Arg_lit' hop.1] at tc
    simp only [sep_emp] at tc
    refine (tc.frame (Net (trace log) ∗ Opt g ∗ Arr buf ∗ Cell cp)).conseq (by rw [emp_sep]; sep_cancel) fun h => ?_
    simp only [hex_sep, pand_sep]
    refine entails_ex_l fun a => entails_pand_l fun hE => ?_
    intro m hm
    have hz := know_OHandle (Sk := Sk) (p := h) (a := a) (by pick) m hm
    revert hm
    revert m
    show OHandle Sk h a ∗ Net (trace log) ∗ Opt g ∗ Arr buf ∗ Cell cp ⊢ₕ _
    have hcr : ∀ o, a = some o → OkObj P o := by
      unfold CreateE at hE
      cases host with
      | none => exact fun o e => by rw [hE] at e; cases e
      | some t =>
        dsimp only at hE
        rw [hE]
        intro o e
        split at e
        · cases e; exact ⟨fun fd w e => (by cases e), hop.2 t rfl⟩
        · cases e
    refine entails_ex_r a (entails_ex_r _ (entails_pand_r ?_ ⟨hE, ?_, rfl⟩))
    · rw [served_out]
      refine sep_mono (entails_pand_r (entails_refl _) hcr) (entails_trans ?_ (NetL_intro (e := ⟨x.1.length, .create host, []⟩)))
      rw [List.append_nil]; exact entails_refl _
    · by_cases h0 : h = 0
      · rw [if_pos h0, if_pos (hz.1 h0)]
      · rw [if_neg h0, if_neg (fun h => h0 (hz.2 h))]
  | close i =>
    unfold exec step
    dsimp only
    refine liftW_del (o := Out.done) (W := Log) (E := fun a log (out : Out) a' log' => out = .done ∧ a' = none ∧
      log' = log ++ [(⟨i, .close, closing a⟩ : Entry)]) fun h a log => ?_
    rw [NetL_eq, served_out]
    hoist; intro ho
    refine Triple.conseq ((HTTPAPI_CloseConnection_spec H (h := h) (a := a) (tr := trace log)).frame (Opt g ∗ Arr buf ∗ Cell cp)) (by sep_cancel) fun _ => ?_
    exact entails_ex_r _ (entails_pand_r (NetL_intro (e := ⟨i, .close, closing a⟩)) ⟨rfl, rfl, rfl⟩)
  | setOption i n v =>
    unfold exec step
    dsimp only
    refine liftW_op1 (f := Out.result) fun h a log => ?_
    rw [served_out]
    hoist; intro ho
    unfold HTTPAPI_SetOption
    refine Triple.pure (entails_ex_r a (entails_ex_r _ (entails_pand_r ?_ ⟨rfl, rfl, rfl⟩)))
    rw [served_out]
    refine sep_mono (entails_pand_r (entails_refl _) ho) (entails_trans ?_ (NetL_intro (e := ⟨i, .setOption n v .invalidArg, []⟩)))
    rw [List.append_nil]; exact entails_refl _
  | request i type path hdrs content len status rhdrs rcontent =>
    unfold exec step
    dsimp only
    refine liftW_op1 (f := Out.result) fun h a log => ?_
    rw [NetL_eq, served_out]
    hoist; intro ho
    refine Triple.conseq (requestOne_spec H S hr (h := h) (buf := buf) (cp := cp) (a := a) (tr := trace log) ho hop) (by sep_cancel) fun r => ?_
    refine entails_ex_l fun y => entails_ex_l fun y' => entails_ex_l fun a' => entails_ex_l fun evs => entails_pand_l fun hE =>
      entails_ex_r a' (entails_ex_r _ (entails_pand_r ?_ ⟨y, r, y', evs, hE.1, hE.2.1, rfl, rfl⟩))
    rw [served_out]
    exact sep_mono (entails_pand_r (entails_refl _) hE.2.2) (NetL_intro (e := ⟨i, .request y r y', evs⟩))

/-- C112–C115: every history of calls on any number of handles: no undefined behaviour; results, effects on the client's objects and calls of Winsock are those
of the specification. -/
theorem histories (H : Honours rel lib g Net Sk At Peer W J) (S : Served rel W Peer P) (hr : rel) {buf cp : Ptr} (ops : List Op) (hops : ∀ op ∈ ops, good op) (env : List Nat) (x : World) :
    Triple rel (OwnW (ORep (ServedR P Sk)) (NetL Net g buf cp) env x) (runOps (exec lib g buf cp) ops env)
      (fun r => ∃∃ x', (Runs (step rel W J Peer) x ops r.1 x') ⋏ OwnW (ORep (ServedR P Sk)) (NetL Net g buf cp) r.2 x') :=
  runOps_spec (fun op hop env x => exec_spec H S hr op hop env x) ops hops env x

/-- From a state in which only the connection library and the arrays own memory, and memory is not refused. -/
theorem histories_run (H : Honours rel lib g Net Sk At Peer W J) (S : Served rel W Peer P) (hrel : rel) {buf cp : Ptr} (ops : List Op) (hops : ∀ op ∈ ops, good op)
    (s : St) (hf : s.heap.fin) (hr : Reliable s.alloc) (h0 : NetL Net g buf cp [] s.heap) :
    ∃ outs env as log s', runOps (exec lib g buf cp) ops [] s = some (.ok ((outs, env), s')) ∧
      Runs (step rel W J Peer) ([], []) ops outs (as, log) ∧ (Own (ORep (ServedR P Sk)) env as ∗ NetL Net g buf cp log) s'.heap := by
  have t := histories H S hrel (buf := buf) (cp := cp) ops hops [] ([], [])
  have t : Triple rel (NetL Net g buf cp []) _ _ := t.pre (entails_of_eq (by rw [OwnW, Own_nil, emp_sep]))
  obtain ⟨r, s', h1, ⟨x', hx, hh⟩⟩ := t.run s hf (fun _ => hr) h0
  exact ⟨r.1, r.2, x'.1, x'.2, s', h1, hx, hh⟩

end Verif.Wce
