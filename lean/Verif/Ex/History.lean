import Verif.Ex.HSpec
import Verif.Ex.Build
import Verif.Map.History
/-! # Every history of calls runs without undefined behaviour and does what the specification says -/
namespace Verif.Ex
open Verif.Headers (Hdrs HdrR OHdr HTTPHeaders_Alloc HTTPHeaders_Free HTTPHeaders_Alloc_spec HTTPHeaders_Free_spec HTTPHeaders_AddHeaderNameValuePair know_OHdr)
open Verif.Buffer (Content Buf OBuf clen BUFFER_create BUFFER_delete BUFFER_create_spec BUFFER_delete_spec OBuf_null)
open Verif.Map (lit okText Arg_lit')
variable {rel : Prop} {api : Http} {Net : List Ev → HProp} {Sess : HProp} {Conn : Nat → HProp}

/-! ## The client's objects -/

def addAll (h : Ptr) : List (Text × Text) → M Unit
  | [] => pure ()
  | p :: l => do
    let _ ← HTTPHeaders_AddHeaderNameValuePair h (.str p.1) (.str p.2)
    addAll h l

def mkHeaders : Option (List (Text × Text)) → M Ptr
  | none => pure 0
  | some l => do
    let h ← HTTPHeaders_Alloc
    addAll h l
    pure h

def mkBuffer : Option (List UInt8) → M Ptr
  | none => pure 0
  | some bs => BUFFER_create (.lit bs) bs.length

def mkStatus : Option Val → M Ptr
  | none => pure 0
  | some v => do
    let p ← mallocS 1
    if p = 0 then pure 0 else do
    store p 0 v
    pure p

def mkBlock : Option Block → M Ptr
  | none => pure 0
  | some b => do
    let p ← malloc b.length
    if p = 0 then pure 0 else do
    storeN p 0 b
    pure p

def setOne (api : Http) (h : Ptr) (name : Option Text) (value : Option Block) : M Result := do
  let v ← mkBlock value
  let r ← HTTPAPIEX_SetOption api h (lit name) v
  free v
  pure r

/-- a request: the objects are made, passed, and released -/
def requestOne (api : Http) (tmp dum h : Ptr) (type : Nat) (path : Option Text) (hdrs : Option (List (Text × Text))) (content : Option (List UInt8))
    (status : Option Val) (rhdrs : Option (List (Text × Text))) (rcontent : Option (List UInt8)) : M Result := do
  let hq ← mkHeaders hdrs
  let cq ← mkBuffer content
  let st ← mkStatus status
  let hr ← mkHeaders rhdrs
  let cr ← mkBuffer rcontent
  let r ← HTTPAPIEX_ExecuteRequest api h type (lit path) hq cq st hr cr tmp dum
  HTTPHeaders_Free hq
  BUFFER_delete cq
  free st
  HTTPHeaders_Free hr
  BUFFER_delete cr
  pure r

/-- the client: a table of handles -/
def exec (api : Http) (tmp dum : Ptr) (op : Op) (env : List Nat) : M (Option Out × List Nat) :=
  match op with
  | .create host => do let h ← HTTPAPIEX_Create (lit host); pure (some (.handle (decide (h ≠ 0))), env ++ [h])
  | .destroy i => on1 env i fun h => do HTTPAPIEX_Destroy api h; pure (some .done, env.set i 0)
  | .setOption i n v => on1 env i fun h => do let r ← setOne api h n v; pure (some (.result r), env)
  | .request i type path hdrs content status rhdrs rcontent => on1 env i fun h => do
    let r ← requestOne api tmp dum h type path hdrs content status rhdrs rcontent
    pure (some (.result r), env)

def okPairs (l : Option (List (Text × Text))) : Prop := ∀ p ∈ l.getD [], (NoNul p.1 ∧ p.1.length < maxObj) ∧ NoNul p.2 ∧ p.2.length < maxObj
def okBytes (l : Option (List UInt8)) : Prop := (l.getD []).length ≤ maxObj

/-- arguments are C strings and objects -/
def good : Op → Prop
  | .create host => okText host
  | .destroy _ => True
  | .setOption _ n _ => okText n
  | .request _ _ path hdrs content _ rhdrs rcontent => okText path ∧ okPairs hdrs ∧ okBytes content ∧ okPairs rhdrs ∧ okBytes rcontent

/-! ## Making and releasing them -/

theorem addAll_built {h : Ptr} : ∀ {l : List (Text × Text)} {hs : Hdrs}, okPairs (some l) →
    Triple rel (HdrR h hs) (addAll h l) (fun _ => ∃∃ hs' : Hdrs, (Built rel hs l hs') ⋏ HdrR h hs')
  | [], hs, _ => Triple.pure (entails_ex_r hs (entails_pand_r (entails_refl _) rfl))
  | p :: l, hs, hl => by
    unfold addAll HTTPHeaders_AddHeaderNameValuePair
    have e1 : Arg (.str p.1) (some p.1) = emp := Strings.Arg_lit (hl p (by simp)).1
    have e2 : Arg (.str p.2) (some p.2) = emp := Strings.Arg_lit (hl p (by simp)).2
    have t := Headers.store_header_spec (rel := rel) (h := h) (a := some hs) (name := .str p.1) (value := .str p.2) (on := some p.1) (ov := some p.2) (replace := false)
    rw [e1, e2, sep_emp, sep_emp, OHdr, ORep_some] at t
    step t into r
    intro a' hE
    rw [e1, e2, sep_emp, sep_emp]
    cases a' with
    | none =>
      exfalso
      unfold Headers.StoreE at hE
      dsimp only at hE
      split at hE
      · rcases hE with ⟨_, h⟩ | ⟨_, h, _⟩ <;> cases h
      · cases hE.2
    | some hs1 =>
      rw [OHdr, ORep_some]
      refine (addAll_built (l := l) (hs := hs1) fun q hq => hl q (by simp at hq ⊢; exact Or.inr hq)).conseq (entails_refl _) fun _ => ?_
      exact entails_ex_l fun hs' => entails_pand_l fun hB => entails_ex_r hs' (entails_pand_r (entails_refl _) ⟨r, hs1, hE, hB⟩)

theorem mkHeaders_built {l : Option (List (Text × Text))} (hl : okPairs l) :
    Triple rel emp (mkHeaders l) (fun h => ∃∃ a : Option Hdrs, (Headed rel l a) ⋏ OHdr h a) := by
  have nil : ∀ l : Option (List (Text × Text)), (rel → l = none) → emp ⊢ₕ ∃∃ a : Option Hdrs, (Headed rel l a) ⋏ OHdr 0 a := fun l hl =>
    entails_ex_r none (entails_pand_r (by rw [OHdr, ORep_null]; exact entails_refl _) ⟨fun hs h => (by cases h), fun h _ => hl h⟩)
  cases l with
  | none => exact Triple.pure (nil none fun _ => rfl)
  | some l =>
    unfold mkHeaders
    step HTTPHeaders_Alloc_spec into h
    by_cases h0 : h = 0
    · subst h0
      rw [Made_zero]; hoist; intro hrel
      have e : Triple rel emp (addAll 0 l) (fun _ => emp) := by
        clear hl
        induction l with
        | nil => exact Triple.pure (entails_refl _)
        | cons p l ih =>
          unfold addAll HTTPHeaders_AddHeaderNameValuePair
          have : Triple rel emp (Headers.headers_ReplaceHeaderNameValuePair 0 (.str p.1) (.str p.2) false) (fun _ => emp) := by
            unfold Headers.headers_ReplaceHeaderNameValuePair
            simp only [true_or, if_true]
            exact Triple.pure (entails_refl _)
          step this
          exact ih
      step e
      exact Triple.pure (nil _ fun h => absurd h hrel)
    · rw [Made_ne h0]
      hoist; intro hs hhs
      subst hhs
      step (addAll_built (hs := []) hl) into _r
      intro hs' hB
      exact Triple.pure (entails_ex_r (some hs') (entails_pand_r (by rw [OHdr, ORep_some]; exact entails_refl _) ⟨fun hs h => (by cases h; exact ⟨l, rfl, hB⟩), fun _ h => (by cases h)⟩))

theorem Headed.not_not {l : Option (List (Text × Text))} {a : Option Hdrs} (h : Headed rel l a) : Headed (¬ ¬ rel) l a := by
  rwa [Classical.not_not]

theorem mkBuffer_spec {l : Option (List UInt8)} (hl : okBytes l) :
    Triple rel emp (mkBuffer l) (fun h => ∃∃ a : Option Content, (Passed (¬ rel) (l.map fun bs => some (bytesV bs)) a) ⋏ OBuf h a) := by
  cases l with
  | none =>
    refine Triple.pure (entails_ex_r none (entails_pand_r ?_ (Or.inl rfl)))
    rw [OBuf_null]; exact entails_refl _
  | some bs =>
    have t := BUFFER_create_spec (rel := rel) (source := .lit bs) (bs := bs)
    rw [Data_lit (List.prefix_refl bs) hl] at t
    refine Triple.conseq t (entails_refl _) fun r => ?_
    rw [sep_emp]
    by_cases h0 : r = 0
    · subst h0
      rw [if_pos rfl]
      exact entails_pand_l fun h => entails_ex_r none (entails_pand_r (by rw [OBuf_null]; exact entails_refl _) (Or.inr ⟨h.resolve_left (by simp), rfl⟩))
    · rw [if_neg h0]
      exact entails_ex_r _ (entails_pand_r (entails_of_eq Buffer.OBuf_some.symm) (Or.inl rfl))

theorem mkStatus_spec {l : Option Val} :
    Triple rel emp (mkStatus l) (fun h => ∃∃ a : Option Val, (Passed (¬ rel) l a) ⋏ OStat h a) := by
  have none' : (l = none ∨ ¬ rel) → (emp ⊢ₕ ∃∃ a : Option Val, (Passed (¬ rel) l a) ⋏ OStat 0 a) := by
    intro hl
    refine entails_ex_r none (entails_pand_r ?_ (hl.elim (fun h => Or.inl h.symm) fun h => Or.inr ⟨h, rfl⟩))
    rw [OStat, eq_self, true_pand]; exact entails_refl _
  cases l with
  | none => exact Triple.pure (none' (Or.inl rfl))
  | some v =>
    unfold mkStatus
    refine Triple.mallocS (by decide) (fun hr => ?_) fun p hp => ?_
    · rw [if_pos rfl]; exact Triple.pure (none' (Or.inr hr))
    · rw [if_neg hp]
      step (store_spec (b := List.replicate 1 .undef) (by decide))
      exact Triple.pure (entails_ex_r (some v) (entails_pand_r (entails_refl _) (Or.inl rfl)))

theorem mkBlock_spec {l : Option Block} :
    Triple rel emp (mkBlock l) (fun h => ∃∃ a : Option Block, (Passed (¬ rel ∨ maxObj < (l.getD []).length) l a) ⋏ OBlk h a) := by
  have none' : (l = none ∨ ¬ rel ∨ maxObj < (l.getD []).length) → (emp ⊢ₕ ∃∃ a : Option Block, (Passed (¬ rel ∨ maxObj < (l.getD []).length) l a) ⋏ OBlk 0 a) := by
    intro hl
    refine entails_ex_r none (entails_pand_r ?_ (hl.elim (fun h => Or.inl h.symm) fun h => Or.inr ⟨h, rfl⟩))
    rw [OBlk, eq_self, true_pand]; exact entails_refl _
  cases l with
  | none => exact Triple.pure (none' (Or.inl rfl))
  | some b =>
    unfold mkBlock
    refine Triple.malloc (fun hr => ?_) fun p hp hm => ?_
    · rw [if_pos rfl]; exact Triple.pure (none' (Or.inr hr))
    · rw [if_neg hp]
      step (storeN_spec (b := List.replicate b.length .undef) (by simp))
      refine Triple.pure (entails_ex_r (some b) (entails_pand_r (entails_of_eq ?_) (Or.inl rfl)))
      simp [OBlk]

theorem free_OStat {p : Ptr} {v : Option Val} : Triple rel (OStat p v) (free p) (fun _ => emp) := by
  cases v with
  | none => unfold OStat; hoist; rintro rfl; exact free_null_spec
  | some v => exact free_spec

theorem free_OBlk {p : Ptr} {v : Option Block} : Triple rel (OBlk p v) (free p) (fun _ => emp) := by
  cases v with
  | none => unfold OBlk; hoist; rintro rfl; exact free_null_spec
  | some v => exact free_spec

/-! ## Histories -/

/-- The transport's memory after the calls of the record, the static variable and the array on the stack. -/
def NetL (Net : List Ev → HProp) (tmp dum : Ptr) (log : Log) : HProp :=
  ∃∃ (d : Val) (t : Block), (t.length = 22) ⋏ Net (trace log) ∗ dum ↦ [d] ∗ tmp ↦ t

theorem NetL_eq {tmp dum : Ptr} {log : Log} : NetL Net tmp dum log =
    ∃∃ (d : Val) (t : Block), (t.length = 22) ⋏ Net (trace log) ∗ dum ↦ [d] ∗ tmp ↦ t := rfl

theorem trace_snoc {log : Log} {e : Entry} : trace (log ++ [e]) = trace log ++ e.evs := by simp [trace]

theorem NetL_intro {tmp dum : Ptr} {log : Log} {e : Entry} {d : Val} {t : Block} (ht : t.length = 22) :
    Net (trace log ++ e.evs) ∗ dum ↦ [d] ∗ tmp ↦ t ⊢ₕ NetL Net tmp dum (log ++ [e]) := by
  rw [NetL_eq, trace_snoc]
  exact entails_ex_r d (entails_ex_r t (entails_pand_r (entails_refl _) ht))

theorem setOne_spec (H : Honours rel api Net Sess Conn) {h : Ptr} {a : Option Obj} {n : Option Text} {v : Option Block} {tr : List Ev} (hn : okText n) :
    Triple rel (OEx Sess Conn h a ∗ Net tr) (setOne api h n v)
      (fun r => ∃∃ (b : Option Block) (a' : Option Obj) (evs : List Ev), (Passed (¬ rel ∨ maxObj < (v.getD []).length) v b ∧ SetE (¬ rel) n b a r a' evs) ⋏ OEx Sess Conn h a' ∗ Net (tr ++ evs)) := by
  unfold setOne
  step mkBlock_spec into p
  intro b hb
  have t := HTTPAPIEX_SetOption_spec H (h := h) (v := p) (a := a) (s := lit n) (n := n) (b := b) (tr := tr)
  simp only [Arg_lit' hn, emp_sep] at t
  step t into r
  intro a' evs hE
  step free_OBlk
  exact Triple.pure (entails_ex_r b (entails_ex_r a' (entails_ex_r evs (entails_pand_r (by sep_cancel) ⟨hb, hE⟩))))

theorem requestOne_spec (H : Honours rel api Net Sess Conn) {h tmp dum : Ptr} {a : Option Obj} {log : Log} {type : Nat} {path : Option Text}
    {hdrs : Option (List (Text × Text))} {content : Option (List UInt8)} {status : Option Val} {rhdrs : Option (List (Text × Text))} {rcontent : Option (List UInt8)}
    (hp : okText path) (hh : okPairs hdrs) (hc : okBytes content) (hrh : okPairs rhdrs) (hrc : okBytes rcontent) :
    Triple rel (OEx Sess Conn h a ∗ NetL Net tmp dum log) (requestOne api tmp dum h type path hdrs content status rhdrs rcontent)
      (fun r => ∃∃ (y : Args) (d : Val) (y' : Args) (d' : Val) (a' : Option Obj) (evs : List Ev) (t' : Block),
        (Made (¬ rel) type path hdrs content status rhdrs rcontent y ∧ ExecE (¬ rel) a y d r a' y' d' evs ∧ t'.length = 22) ⋏
          OEx Sess Conn h a' ∗ Net (trace log ++ evs) ∗ dum ↦ [d'] ∗ tmp ↦ t') := by
  unfold requestOne
  rw [NetL_eq]
  hoist; intro d t ht
  step (mkHeaders_built hh) into hq
  intro xh h1
  step (mkBuffer_spec hc) into cq
  intro xc h2
  step mkStatus_spec into st
  intro xs h3
  step (mkHeaders_built hrh) into hr
  intro xrh h4
  step (mkBuffer_spec hrc) into cr
  intro xrc h5
  have te := HTTPAPIEX_ExecuteRequest_spec H (h := h) (hq := hq) (cq := cq) (st := st) (hr := hr) (cr := cr) (temp := tmp) (dummy := dum)
    (path := lit path) (a := a) (x := ⟨type, path, xh, xc, xs, xrh, xrc⟩) (t := t) (d := d) (tr := trace log) ht
  simp only [ArgsR_eq, Arg_lit' hp, emp_sep] at te
  refine Triple.pre (P' := _) ?_ (entails_refl _)
  step te into r
  intro a' y' d' evs t' hE ht'
  have hpath : y'.path = path := by
    have h : ExecE (¬ rel) a ⟨type, path, xh, xc, xs, xrh, xrc⟩ d r a' y' d' evs := hE
    unfold ExecE at h
    cases a with
    | none => rw [h.2.2.1]
    | some o =>
      dsimp only at h
      split at h
      · rw [h.2.2.1]
      · rcases h with ⟨_, _, _, _, h | h | h⟩ | ⟨_, _, _, _, _, _, h, _⟩
        · rw [h.1]
        · rw [h.1]
        · rw [h.1]
        · rw [h]; rfl
  rw [hpath, Arg_lit' hp, emp_sep]
  step HTTPHeaders_Free_spec
  step BUFFER_delete_spec
  step free_OStat
  step HTTPHeaders_Free_spec
  step BUFFER_delete_spec
  refine Triple.pure (entails_ex_r _ (entails_ex_r d (entails_ex_r y' (entails_ex_r d' (entails_ex_r a' (entails_ex_r evs (entails_ex_r t'
    (entails_pand_r (by sep_cancel) ⟨⟨rfl, rfl, h1.not_not, h2, h3, h4.not_not, h5⟩, hE, ht'⟩))))))))

theorem exec_spec (H : Honours rel api Net Sess Conn) {tmp dum : Ptr} (op : Op) (hop : good op) (env : List Nat) (x : World) :
    Triple rel (OwnW (OEx Sess Conn) (NetL Net tmp dum) env x) (exec api tmp dum op env)
      (fun r => ∃∃ x', (step (¬ rel) x op r.1 x') ⋏ OwnW (OEx Sess Conn) (NetL Net tmp dum) r.2 x') := by
  cases op with
  | create host =>
    unfold exec step
    dsimp only
    refine liftW_new (f := fun h => Out.handle (decide (h ≠ 0))) fun log => ?_
    have t := HTTPAPIEX_Create_spec (rel := rel) (Sess := Sess) (Conn := Conn) (s := lit host) (o := host)
    simp only [Arg_lit' hop, sep_emp] at t
    refine Triple.conseq (t.frame (NetL Net tmp dum log)) (by rw [emp_sep]; exact entails_refl _) fun r => ?_
    simp only [hex_sep, pand_sep]
    refine entails_ex_l fun a' => entails_pand_l fun hE => entails_ex_r a' (entails_ex_r _ (entails_pand_r ?_ ⟨_, hE, rfl, rfl⟩))
    refine sep_mono (entails_refl _) ?_
    rw [NetL_eq]
    refine entails_ex_l fun d => entails_ex_l fun t => entails_pand_l fun ht => ?_
    refine entails_trans ?_ (NetL_intro (e := ⟨x.1.length, .create host (decide (r ≠ 0)), []⟩) (d := d) ht)
    rw [List.append_nil]; exact entails_refl _
  | destroy i =>
    unfold exec step
    dsimp only
    refine liftW_del (o := Out.done) (W := Log) (E := fun a log (out : Out) a' log' => out = .done ∧ a' = none ∧
      ∃ evs, DestroyE a evs ∧ log' = log ++ [(⟨i, .destroy, evs⟩ : Entry)]) fun h a log => ?_
    rw [NetL_eq]
    hoist; intro d t ht
    refine Triple.conseq ((HTTPAPIEX_Destroy_spec H (h := h) (a := a) (tr := trace log)).frame (dum ↦ [d] ∗ tmp ↦ t)) (by sep_cancel) fun _ => ?_
    simp only [hex_sep, pand_sep]
    exact entails_ex_l fun evs => entails_pand_l fun hE => entails_ex_r _ (entails_pand_r (NetL_intro (e := ⟨i, .destroy, evs⟩) ht) ⟨trivial, trivial, evs, hE, rfl⟩)
  | setOption i n v =>
    unfold exec step
    dsimp only
    refine liftW_op1 (f := Out.result) fun h a log => ?_
    rw [NetL_eq]
    hoist; intro d t ht
    refine Triple.conseq ((setOne_spec H (h := h) (a := a) (n := n) (v := v) (tr := trace log) hop).frame (dum ↦ [d] ∗ tmp ↦ t)) (by sep_cancel) fun r => ?_
    simp only [hex_sep, pand_sep]
    refine entails_ex_l fun b => entails_ex_l fun a' => entails_ex_l fun evs => entails_pand_l fun hE =>
      entails_ex_r a' (entails_ex_r _ (entails_pand_r ?_ ⟨b, r, evs, hE.1, hE.2, rfl, rfl⟩))
    rw [sep_assoc]
    exact sep_mono (entails_refl _) (NetL_intro (e := ⟨i, .setOption n b r, evs⟩) ht)
  | request i type path hdrs content status rhdrs rcontent =>
    unfold exec step
    dsimp only
    refine liftW_op1 (f := Out.result) fun h a log => ?_
    refine Triple.conseq (requestOne_spec H (h := h) (a := a) (log := log) hop.1 hop.2.1 hop.2.2.1 hop.2.2.2.1 hop.2.2.2.2) (entails_refl _) fun r => ?_
    refine entails_ex_l fun y => entails_ex_l fun d => entails_ex_l fun y' => entails_ex_l fun d' => entails_ex_l fun a' => entails_ex_l fun evs =>
      entails_ex_l fun t' => entails_pand_l fun hE => entails_ex_r a' (entails_ex_r _ (entails_pand_r ?_ ⟨y, d, r, y', d', evs, hE.1, hE.2.1, rfl, rfl⟩))
    exact sep_mono (entails_refl _) (NetL_intro (e := ⟨i, .request y r y', evs⟩) hE.2.2)

/-- Every history on any number of handles: no undefined behaviour; results, effects on the client's objects and calls of the transport
are those of the specification. -/
theorem histories (H : Honours rel api Net Sess Conn) {tmp dum : Ptr} (ops : List Op) (hops : ∀ op ∈ ops, good op) (env : List Nat) (x : World) :
    Triple rel (OwnW (OEx Sess Conn) (NetL Net tmp dum) env x) (runOps (exec api tmp dum) ops env)
      (fun r => ∃∃ x', (Runs (step (¬ rel)) x ops r.1 x') ⋏ OwnW (OEx Sess Conn) (NetL Net tmp dum) r.2 x') :=
  runOps_spec (fun op hop env x => exec_spec H op hop env x) ops hops env x

/-- From a state in which only the transport and the two variables own memory. -/
theorem histories_run (H : Honours False api Net Sess Conn) {tmp dum : Ptr} (ops : List Op) (hops : ∀ op ∈ ops, good op) (s : St)
    (hf : s.heap.fin) (h0 : NetL Net tmp dum [] s.heap) :
    ∃ outs env as log s', runOps (exec api tmp dum) ops [] s = some (.ok ((outs, env), s')) ∧
      Runs (step True) ([], []) ops outs (as, log) ∧ (Own (OEx Sess Conn) env as ∗ NetL Net tmp dum log) s'.heap := by
  have t := histories H (tmp := tmp) (dum := dum) ops hops [] ([], [])
  have t : Triple False (NetL Net tmp dum []) _ _ := t.pre (entails_of_eq (by rw [OwnW, Own_nil, emp_sep]))
  obtain ⟨r, s', h1, ⟨x', hx, hh⟩⟩ := t.run s hf (fun h => h.elim) h0
  refine ⟨r.1, r.2, x'.1, x'.2, s', h1, ?_, hh⟩
  simpa using hx

theorem Own_gone {env : List Nat} {as : List (Option Obj)} (h : ∀ a ∈ as, a = none) : Own (OEx Sess Conn) env as ⊢ₕ emp := by
  induction as generalizing env with
  | nil =>
    intro x hx
    obtain ⟨hl, hx⟩ := hx
    have : env = [] := List.length_eq_zero_iff.1 (by simpa using hl)
    subst this
    exact hx
  | cons a as ih =>
    have ha := h a (by simp)
    subst ha
    cases env with
    | nil => intro x hx; have := hx.1; simp at this
    | cons p env =>
      rw [Map.Own_cons, OEx, ORep_none]
      rw [pand_sep, emp_sep]
      exact entails_pand_l fun _ => ih fun a ha => h a (by simp [ha])

/-- C44: what a history leaves behind when all handles are destroyed: the memory of the transport and the two variables, nothing else. -/
theorem nothing_left (H : Honours False api Net Sess Conn) {tmp dum : Ptr} (ops : List Op) (hops : ∀ op ∈ ops, good op) (s : St)
    (hf : s.heap.fin) (h0 : NetL Net tmp dum [] s.heap) :
    ∃ outs env as log s', runOps (exec api tmp dum) ops [] s = some (.ok ((outs, env), s')) ∧
      Runs (step True) ([], []) ops outs (as, log) ∧ ((∀ a ∈ as, a = none) → NetL Net tmp dum log s'.heap) := by
  obtain ⟨outs, env, as, log, s', h1, h2, h3⟩ := histories_run H ops hops s hf h0
  refine ⟨outs, env, as, log, s', h1, h2, fun ha => ?_⟩
  have := sep_mono (Own_gone (env := env) ha) (entails_refl _) _ h3
  rwa [emp_sep] at this

end Verif.Ex
