import Verif.Mb.HSpec
import Verif.Mb.Theory
import Verif.Ti.History
/-! # Every history of calls of `httpapi_mbed.cpp` runs without undefined behaviour and does what the specification says -/
set_option linter.unusedSimpArgs false
namespace Verif.Mb
open Verif.Headers (Hdrs HdrR OHdr HTTPHeaders_Free HTTPHeaders_Free_spec)
open Verif.Buffer (Content Buf OBuf BUFFER_new BUFFER_new_spec BUFFER_delete BUFFER_delete_spec)
open Verif.Map (lit okText Arg_lit')
open Verif.Curl (Args dat ContentR_dat ArgsR_eq OutX_eq StatR)
open Verif.Ex (mkHeaders mkStatus mkStatus_spec okPairs okBytes OStat free_OStat)
open Verif.Ex (Passed Headed mkHeaders_built)
variable {rel : Prop} {lib : Lib} {Net : List Ev → HProp} {Con : Nat → Option Wire → HProp} {Peer P : Text → Wire → Prop} {W : Prop}

/-- an empty buffer, or `NULL` -/
def mkBody (rcontent : Bool) : M Ptr := if rcontent then BUFFER_new else pure 0

/-- a request: the objects are made, passed, and released -/
def requestOne (lib : Lib) (buf cp h : Ptr) (type : Nat) (path : Option Text) (hdrs : Option (List (Text × Text))) (content : Option Text) (len : Nat)
    (status : Option Val) (rhdrs : Option (List (Text × Text))) (rcontent : Bool) : M Res := do
  let hq ← mkHeaders hdrs
  let st ← mkStatus status
  let hr ← mkHeaders rhdrs
  let cr ← mkBody rcontent
  let r ← HTTPAPI_ExecuteRequest lib buf cp h type (lit path) hq (dat content) (match content with | some bs => bs.length | none => len) st hr cr
  HTTPHeaders_Free hq
  free st
  HTTPHeaders_Free hr
  BUFFER_delete cr
  pure r

/-- the client: a table of handles.  `buf`, `cp`: the automatic arrays -/
def exec (lib : Lib) (buf cp : Ptr) (op : Op) (env : List Nat) : M (Option Out × List Nat) :=
  match op with
  | .create host => do let h ← HTTPAPI_CreateConnection lib (lit host); pure (some (if h = 0 then .null else .handle), env ++ [h])
  | .close i => on1 env i fun h => do HTTPAPI_CloseConnection lib h; pure (some .done, env.set i 0)
  | .setOption i n v => on1 env i fun h => do let r ← HTTPAPI_SetOption h (lit n) (lit v); pure (some (.result r), env)
  | .request i type path hdrs content len status rhdrs rcontent => on1 env i fun h => do
    let r ← requestOne lib buf cp h type path hdrs content len status rhdrs rcontent
    pure (some (.result r), env)

/-- the length of header lines -/
def total (ps : List (Text × Text)) : Nat := (ps.map fun p => (headerLine p).length).sum

/-- arguments are C strings and objects; the headers together, and the body, have less than 2³¹ bytes -/
def good : Op → Prop
  | .create host => okText host
  | .close _ => True
  | .setOption _ n v => okText n ∧ okText v ∧ ∀ t, v = some t → t.length < 2 ^ 31 - 1
  | .request _ _ path hdrs content _ _ rhdrs _ => okText path ∧ okPairs hdrs ∧ okBytes content ∧ okPairs rhdrs ∧ (content.getD []).length < 2 ^ 31 ∧ total (hdrs.getD []) < 2 ^ 31

/-- the memory of connection objects after the calls of the record, and the automatic arrays -/
def NetL (Net : List Ev → HProp) (buf cp : Ptr) (log : Log) : HProp := Net (trace log) ∗ Arr buf ∗ Cell cp
theorem NetL_eq {buf cp : Ptr} {log : Log} : NetL Net buf cp log = (Net (trace log) ∗ Arr buf ∗ Cell cp) := rfl

theorem trace_snoc {log : Log} {e : Entry} : trace (log ++ [e]) = trace log ++ e.evs := by simp [trace]

theorem NetL_intro {buf cp : Ptr} {log : Log} {e : Entry} : Net (trace log ++ e.evs) ∗ Arr buf ∗ Cell cp ⊢ₕ NetL Net buf cp (log ++ [e]) := by
  rw [NetL_eq, trace_snoc]; exact entails_refl _

/-- a handle whose connection, if there is one, is `P` -/
def OkObj (P : Text → Wire → Prop) (o : Obj) : Prop := ∀ w, o.wire = some w → P o.host w
def ServedR (P : Text → Wire → Prop) (Con : Nat → Option Wire → HProp) (h : Ptr) (o : Obj) : HProp := (OkObj P o) ⋏ HandleR Con h o
theorem ServedR_eq {h : Ptr} {o : Obj} : ServedR P Con h o = ((OkObj P o) ⋏ HandleR Con h o) := rfl

theorem served_out {h : Ptr} {a : Option Obj} : ORep (ServedR P Con) h a = ((∀ o, a = some o → OkObj P o) ⋏ OHandle Con h a) := by
  cases a with
  | none =>
    simp only [OHandle, ORep_none]
    funext g; apply propext
    exact ⟨fun h => ⟨(fun o e => by cases e), h⟩, fun h => h.2⟩
  | some o =>
    simp only [OHandle, ORep_some, ServedR_eq]
    funext g; apply propext
    exact ⟨fun h => ⟨fun o' e => by cases e; exact h.1, h.2⟩, fun h => ⟨h.1 o rfl, h.2⟩⟩

theorem stored_length {hs : Hdrs} {n v : Text} {B : Nat} (h : ∀ p ∈ hs, (headerLine p).length ≤ B) :
    ∀ p ∈ Headers.stored false hs n v, (headerLine p).length ≤ B + (headerLine (n, v)).length := by
  intro p hp
  unfold Headers.stored at hp
  have hl : ∀ q : Text × Text, (headerLine q).length = q.1.length + 2 + q.2.length := by intro q; simp [headerLine]; omega
  cases hf : Headers.find hs n with
  | none =>
    rw [hf] at hp
    rcases List.mem_append.1 hp with hp | hp
    · have := h p hp; omega
    · simp at hp; subst hp; omega
  | some old =>
    rw [hf] at hp
    simp only [Bool.false_eq_true, if_false] at hp
    unfold Headers.find at hf
    obtain ⟨q, hq, rfl⟩ := Option.map_eq_some_iff.1 hf
    have hq1 := List.find?_some hq
    have hb := h q (List.mem_of_find?_eq_some hq)
    unfold Headers.set at hp
    obtain ⟨p0, hp0, rfl⟩ := List.mem_map.1 hp
    have := h p0 hp0
    split
    · simp at hq1
      rw [hl] at hb ⊢
      rw [hl]
      simp [hq1] at hb ⊢
      omega
    · omega

theorem built_length : ∀ {ps : List (Text × Text)} {hs hs' : Hdrs} {B : Nat}, Ex.Built rel hs ps hs' → (∀ p ∈ hs, (headerLine p).length ≤ B) →
    ∀ p ∈ hs', (headerLine p).length ≤ B + total ps
  | [], hs, hs', B, h, hB => by
    have e : hs' = hs := h
    subst e
    exact hB
  | p :: ps, hs, hs', B, h, hB => by
    obtain ⟨r, hs1, h1, h2⟩ := h
    have hd : (p.2.dropWhile Headers.isLWS).length ≤ p.2.length := (List.dropWhile_sublist _).length_le
    have hl : ∀ q : Text × Text, (headerLine q).length = q.1.length + 2 + q.2.length := by intro q; simp [headerLine]; omega
    have hB1 : ∀ q ∈ hs1, (headerLine q).length ≤ B + (headerLine p).length := by
      unfold Headers.StoreE at h1
      dsimp only at h1
      have keep : some hs1 = some hs → ∀ q ∈ hs1, (headerLine q).length ≤ B + (headerLine p).length := by
        intro e; cases e
        intro q hq; have := hB q hq; omega
      split at h1
      · rcases h1 with ⟨_, h1⟩ | ⟨_, h1, _⟩
        · cases h1
          intro q hq
          have := stored_length (n := p.1) (v := p.2.dropWhile Headers.isLWS) hB q hq
          rw [hl (p.1, _)] at this
          rw [hl p]
          dsimp only at this
          omega
        · exact keep h1
      · exact keep h1.2
    intro q hq
    have := built_length h2 hB1 q hq
    simp only [total, List.map_cons, List.sum_cons] at this ⊢
    omega

theorem headed_length {hdrs : Option (List (Text × Text))} {a : Option Hdrs} {hs : Hdrs} {N : Nat} (h : Headed rel hdrs a) (e : a = some hs) (hN : total (hdrs.getD []) < N) :
    ∀ p ∈ hs, (headerLine p).length < N := by
  obtain ⟨ps, rfl, hb⟩ := h.1 hs e
  intro p hp
  have := built_length (B := 0) hb (by simp) p hp
  simp at hN
  omega

/-- a request does not change its input -/
theorem ExecE.same {c : Nat} {a a' : Option Obj} {x x' : Args} {r : Res} {evs : List Ev} (h : ExecE rel W Peer c a x r x' a' evs) :
    x'.path = x.path ∧ x'.hdrs = x.hdrs ∧ x'.content = x.content := by
  unfold ExecE at h
  split at h
  · split at h
    · rw [h.2.1]; exact ⟨rfl, rfl, rfl⟩
    · obtain ⟨r1, w1, _, ⟨_, _, h, _⟩ | ⟨_, w, _, ⟨_, _, h, _⟩ | ⟨_, r2, w2, _, ⟨_, _, h, _⟩ | ⟨_, y, _, _, ⟨hs', _, h⟩, _⟩⟩⟩⟩ := h
      · rw [h]; exact ⟨rfl, rfl, rfl⟩
      · rw [h]; exact ⟨rfl, rfl, rfl⟩
      · rw [h]; exact ⟨rfl, rfl, rfl⟩
      · rw [h]; exact ⟨rfl, rfl, rfl⟩
  · rw [h.2.1]; exact ⟨rfl, rfl, rfl⟩

theorem Served.answer (S : Served rel W Peer P) {o : Obj} {x : Args} (ho : OkObj P o) (hx : x.rcontent = none ∨ x.rcontent = some none) :
    Answered rel W Peer o x := by
  intro path hs w w' _ _ hw hS
  have hP : P o.host w := by
    rcases hw with hw | ⟨_, h1, h2, h3⟩
    · exact ho w hw
    · exact S.fresh _ _ h1 h2 h3
  obtain ⟨y, hy, _⟩ := S.answered _ _ _ _ _ _ hP hS hx
  exact ⟨y, hy⟩

theorem Served.after (S : Served rel W Peer P) {c : Ptr} {a a' : Option Obj} {x x' : Args} {r : Res} {evs : List Ev} (ho : ∀ o, a = some o → OkObj P o)
    (hx : x.rcontent = none ∨ x.rcontent = some none) (hE : ExecE rel W Peer c a x r x' a' evs) : ∀ o, a' = some o → OkObj P o := by
  unfold ExecE at hE
  split at hE
  · rename_i o path hs hp hh
    have ho := ho o rfl
    split at hE
    · rw [hE.2.2.1]; intro o' e; cases e; exact ho
    · have conn : ∀ {r1 w1}, ConnectE Peer c o r1 w1 evs → ∀ w, w1 = some w → P o.host w := by
        intro r1 w1 hC w e
        subst e
        unfold ConnectE at hC
        cases hw : o.wire with
        | some w0 => rw [hw] at hC; rw [Option.some.inj hC.2.1]; exact ho _ hw
        | none =>
          rw [hw] at hC
          rcases hC with ⟨t, _, _, h, _⟩ | ⟨e, _, _, h, _⟩ | ⟨w0, _, h, h1, h2, h3, _⟩
          · cases h
          · cases h
          · cases h; exact S.fresh _ _ h1 h2 h3
      obtain ⟨r1, w1, hC, ⟨_, _, _, h⟩ | ⟨_, w, hw, ⟨_, _, _, h⟩ | ⟨_, r2, w2, hS, ⟨hr, _, _, h⟩ | ⟨hr, y, hy, _, _, h⟩⟩⟩⟩ := hE
      · rw [h]; intro o' e; cases e; exact conn hC
      · rw [h]; intro o' e; cases e; exact fun w' e => by cases e; exact conn hC w hw
      · rw [h]; intro o' e; cases e; exact fun w' e => by cases e; exact S.failed _ _ _ _ _ _ _ (conn hC w hw) hS hr
      · rw [h]; intro o' e; cases e
        subst hr
        obtain ⟨y', hy', hP⟩ := S.answered _ _ _ _ _ _ (conn hC w hw) hS hx
        rw [← hy.det hy'] at hP
        exact fun w' e => by cases e; exact hP
  · rw [hE.2.2.1]; exact ho

theorem SetE.after {a a' : Option Obj} {n v : Option Text} {r : Res} (ho : ∀ o, a = some o → OkObj P o) (hE : SetE a n v r a') : ∀ o, a' = some o → OkObj P o := by
  unfold SetE at hE
  split at hE
  · rename_i o _ _
    split at hE
    · rw [hE.2]; intro o' e; cases e; exact ho o rfl
    · rw [hE.2]; exact ho
  · rw [hE.2]; exact ho

theorem mkBody_spec (hr : rel) {rcontent : Bool} : Triple rel emp (mkBody rcontent) (fun r => ∃∃ b : Option Content, (Passed (¬ rel) (if rcontent then some none else none) b) ⋏ OBuf r b) := by
  cases rcontent with
  | false => exact Triple.pure (entails_ex_r none (entails_pand_r (by rw [Buffer.OBuf_none]; exact entails_pand_r (entails_refl _) rfl) (.inl rfl)))
  | true =>
    refine BUFFER_new_spec.conseq (entails_refl _) fun r => ?_
    by_cases h0 : r = 0
    · subst h0; rw [if_pos rfl]; exact entails_pand_l fun h => absurd hr h
    · rw [if_neg h0]
      exact entails_ex_r (some none) (entails_pand_r (by rw [Buffer.OBuf_some]; exact entails_refl _) (.inl rfl))

theorem requestOne_spec (H : Honours rel lib Net Con Peer W) (S : Served rel W Peer P) (hr : rel) {h buf cp : Ptr} {a : Option Obj} {tr : List Ev} {type : Nat} {path : Option Text}
    {hdrs : Option (List (Text × Text))} {content : Option Text} {len : Nat} {status : Option Val} {rhdrs : Option (List (Text × Text))} {rcontent : Bool} {i : Nat}
    (ho : ∀ o, a = some o → OkObj P o) (hg : good (.request i type path hdrs content len status rhdrs rcontent)) :
    Triple rel (OHandle Con h a ∗ Net tr ∗ Arr buf ∗ Cell cp) (requestOne lib buf cp h type path hdrs content len status rhdrs rcontent)
      (fun r => ∃∃ (y : Args) (y' : Args) (a' : Option Obj) (evs : List Ev),
        (Made rel type path hdrs content len status rhdrs rcontent y ∧ ExecE rel W Peer (conOf a) a y r y' a' evs ∧ ∀ o, a' = some o → OkObj P o) ⋏
          OHandle Con h a' ∗ Net (tr ++ evs) ∗ Arr buf ∗ Cell cp) := by
  obtain ⟨hp, hh, hc, hrh, hcl, hhl⟩ := hg
  unfold requestOne
  step (mkHeaders_built hh) into hq
  intro xh h1
  step mkStatus_spec into st
  intro xs h3
  step (mkHeaders_built hrh) into hr'
  intro xrh h4
  step (mkBody_spec hr) into cr
  intro xrc h5
  have hx : xrc = none ∨ xrc = some none := by
    rcases h5 with h | h
    · cases rcontent
      · exact .inl h
      · exact .inr h
    · exact .inl h.2
  have te := HTTPAPI_ExecuteRequest_spec H (buf := buf) (cp := cp) (handle := h) (hd := hq) (st := st) (rh := hr') (rc := cr) (rp := lit path) (p := dat content)
    (a := a) (x := ⟨type, path, xh, content, len, xs, xrh, xrc⟩) (tr := tr) rfl (fun _ => hr) ⟨fun hs e => headed_length h1 e hhl, hcl⟩
    (fun o e => S.answer (ho o e) hx)
  simp only [ArgsR_eq, Arg_lit' hp, ContentR_dat hc, emp_sep, OutX_eq] at te
  have es : ∀ (p : Ptr) (v : Option Val), StatR p v = OStat p v := by intro p v; cases v <;> rfl
  simp only [es] at te
  step te into r
  intro y' a' evs hE
  obtain ⟨e1, e2, e3⟩ := hE.same
  dsimp only at e1 e2 e3
  rw [e1, e3, Arg_lit' hp, ContentR_dat hc, emp_sep, emp_sep]
  step HTTPHeaders_Free_spec
  step free_OStat
  step HTTPHeaders_Free_spec
  step BUFFER_delete_spec
  exact Triple.pure (entails_ex_r _ (entails_ex_r y' (entails_ex_r a' (entails_ex_r evs
    (entails_pand_r (by sep_cancel) ⟨⟨rfl, rfl, h1, rfl, rfl, h3, h4, h5⟩, hE, S.after ho hx hE⟩)))))

theorem exec_spec (H : Honours rel lib Net Con Peer W) (S : Served rel W Peer P) (hr : rel) {buf cp : Ptr} (op : Op) (hop : good op) (env : List Nat) (x : World) :
    Triple rel (OwnW (ORep (ServedR P Con)) (NetL Net buf cp) env x) (exec lib buf cp op env)
      (fun r => ∃∃ x', (step rel W Peer x op r.1 x') ⋏ OwnW (ORep (ServedR P Con)) (NetL Net buf cp) r.2 x') := by
  cases op with
  | create host =>
    unfold exec step
    dsimp only
    refine liftW_new (f := fun h : Nat => if h = 0 then Out.null else .handle) fun log => ?_
    rw [NetL_eq]
    have tc := HTTPAPI_CreateConnection_spec H hr (s := lit host) (host := host) (tr := trace log)
    rw [Arg_lit' hop] at tc
    simp only [sep_emp] at tc
    refine (tc.frame (Arr buf ∗ Cell cp)).conseq (by sep_cancel) fun h => ?_
    simp only [hex_sep, pand_sep]
    refine entails_ex_l fun a => entails_ex_l fun evs => entails_pand_l fun hE => ?_
    simp only [sep_assoc]
    intro g hg
    have hz := know_OHandle (Con := Con) (p := h) (a := a) (by pick) g hg
    revert hg
    revert g
    show OHandle Con h a ∗ Net (trace log ++ evs) ∗ Arr buf ∗ Cell cp ⊢ₕ _
    have hcr : CreateE (conOf a) host a evs ∧ ∀ o, a = some o → OkObj P o := by
      unfold CreateE at hE ⊢
      cases host with
      | none => exact ⟨hE, fun o e => by rw [hE.1] at e; cases e⟩
      | some t =>
        dsimp only at hE ⊢
        by_cases hl : t.length < 64
        · rw [if_pos hl] at hE ⊢
          rw [hE.1, hE.2]
          exact ⟨⟨rfl, rfl⟩, fun o e => by cases e; exact fun w e => by cases e⟩
        · rw [if_neg hl] at hE ⊢
          exact ⟨hE, fun o e => by rw [hE.1] at e; cases e⟩
    refine entails_ex_r a (entails_ex_r _ (entails_pand_r ?_ ⟨evs, hcr.1, ?_, rfl⟩))
    · rw [served_out]
      refine sep_mono (entails_pand_r (entails_refl _) hcr.2) (NetL_intro (e := ⟨x.1.length, .create host, evs⟩))
    · by_cases h0 : h = 0
      · rw [if_pos h0, if_pos (hz.1 h0)]
      · rw [if_neg h0, if_neg (fun h => h0 (hz.2 h))]
  | close i =>
    unfold exec step
    dsimp only
    refine liftW_del (o := Out.done) (W := Log) (E := fun a log (out : Out) a' log' => out = .done ∧ a' = none ∧
      ∃ evs, CloseE (conOf a) a evs ∧ log' = log ++ [(⟨i, .close, evs⟩ : Entry)]) fun h a log => ?_
    rw [NetL_eq, served_out]
    hoist; intro ho
    refine Triple.conseq ((HTTPAPI_CloseConnection_spec H (h := h) (a := a) (tr := trace log)).frame (Arr buf ∗ Cell cp)) (by sep_cancel) fun _ => ?_
    simp only [hex_sep, pand_sep]
    refine entails_ex_l fun evs => entails_pand_l fun hE => entails_ex_r _ (entails_pand_r (NetL_intro (e := ⟨i, .close, evs⟩)) ⟨trivial, trivial, evs, hE, rfl⟩)
  | setOption i n v =>
    unfold exec step
    dsimp only
    refine liftW_op1 (f := Out.result) fun h a log => ?_
    rw [served_out]
    hoist; intro ho
    have t := HTTPAPI_SetOption_spec (Con := Con) hr (h := h) (a := a) (sn := lit n) (sv := lit v) (name := n) (value := v) hop.2.2
    rw [Arg_lit' hop.1, Arg_lit' hop.2.1] at t
    simp only [sep_emp] at t
    refine (t.frame (NetL Net buf cp log)).conseq (entails_refl _) fun r => ?_
    simp only [hex_sep, pand_sep]
    refine entails_ex_l fun a' => entails_pand_l fun hE => entails_ex_r a' (entails_ex_r _ (entails_pand_r ?_ ⟨r, hE, rfl, rfl⟩))
    rw [served_out]
    refine sep_mono (entails_pand_r (entails_refl _) (hE.after ho)) (entails_trans ?_ (NetL_intro (e := ⟨i, .setOption n v r, []⟩)))
    rw [List.append_nil]; exact entails_refl _
  | request i type path hdrs content len status rhdrs rcontent =>
    unfold exec step
    dsimp only
    refine liftW_op1 (f := Out.result) fun h a log => ?_
    rw [NetL_eq, served_out]
    hoist; intro ho
    refine Triple.conseq (requestOne_spec H S hr (h := h) (buf := buf) (cp := cp) (a := a) (tr := trace log) ho hop) (by sep_cancel) fun r => ?_
    refine entails_ex_l fun y => entails_ex_l fun y' => entails_ex_l fun a' => entails_ex_l fun evs => entails_pand_l fun hE =>
      entails_ex_r a' (entails_ex_r _ (entails_pand_r ?_ ⟨y, r, y', evs, hE.1, hE.2.1, rfl, rfl⟩))
    rw [served_out]
    exact sep_mono (entails_pand_r (entails_refl _) hE.2.2) (NetL_intro (e := ⟨i, .request y r y', evs⟩))

/-- C89–C92: every history of calls on any number of handles: no undefined behaviour; results, effects on the client's objects and calls of connection objects are those
of the specification. -/
theorem histories (H : Honours rel lib Net Con Peer W) (S : Served rel W Peer P) (hr : rel) {buf cp : Ptr} (ops : List Op) (hops : ∀ op ∈ ops, good op) (env : List Nat) (x : World) :
    Triple rel (OwnW (ORep (ServedR P Con)) (NetL Net buf cp) env x) (runOps (exec lib buf cp) ops env)
      (fun r => ∃∃ x', (Runs (step rel W Peer) x ops r.1 x') ⋏ OwnW (ORep (ServedR P Con)) (NetL Net buf cp) r.2 x') :=
  runOps_spec (fun op hop env x => exec_spec H S hr op hop env x) ops hops env x

/-- From a state in which only the connection library and the arrays own memory, and memory is not refused. -/
theorem histories_run (H : Honours rel lib Net Con Peer W) (S : Served rel W Peer P) (hrel : rel) {buf cp : Ptr} (ops : List Op) (hops : ∀ op ∈ ops, good op)
    (s : St) (hf : s.heap.fin) (hr : Reliable s.alloc) (h0 : NetL Net buf cp [] s.heap) :
    ∃ outs env as log s', runOps (exec lib buf cp) ops [] s = some (.ok ((outs, env), s')) ∧
      Runs (step rel W Peer) ([], []) ops outs (as, log) ∧ (Own (ORep (ServedR P Con)) env as ∗ NetL Net buf cp log) s'.heap := by
  have t := histories H S hrel (buf := buf) (cp := cp) ops hops [] ([], [])
  have t : Triple rel (NetL Net buf cp []) _ _ := t.pre (entails_of_eq (by rw [OwnW, Own_nil, emp_sep]))
  obtain ⟨r, s', h1, ⟨x', hx, hh⟩⟩ := t.run s hf (fun _ => hr) h0
  exact ⟨r.1, r.2, x'.1, x'.2, s', h1, hx, hh⟩

end Verif.Mb
