import Verif.Exs.Props
import Verif.Ex.History
/-! # C45: every history of calls on any number of handles of both kinds -/
set_option linter.unusedVariables false
namespace Verif.Exs
open Verif.Ex Verif.Strings Verif.Headers Verif.Sas
open Verif.Buffer (BUFFER_delete BUFFER_delete_spec)
open Verif.Base64 (Decodes)
open Verif.Hmac (Sized)
open Verif.Map (lit okText Arg_lit')
variable {rel : Prop} {api : Http} {Net : List Ev → HProp} {Sess : HProp} {Conn : Nat → HProp} {get_time : M Int} {Clk : List Int → HProp}

/-- Client operations: those of `httpapiex.h`; credentials are made from strings, which the client makes and releases; a request with the
credentials at position `i` on the connection handle at position `j`. -/
inductive Op where
  | ex (op : Ex.Op)
  | create (key uri name : Option Ex.Text)
  | destroy (i : Nat)
  | request (i j type : Nat) (path : Option Ex.Text) (hdrs : Option (List (Ex.Text × Ex.Text))) (content : Option (List UInt8)) (status : Option Val)
      (rhdrs : Option (List (Ex.Text × Ex.Text))) (rcontent : Option (List UInt8))

/-- The client's tables, the record of the transport, the readings of the clock. -/
structure World where
  creds : List (Option Creds)
  ex : Ex.World
  clock : List Int

/-- One client call; `none`: no such position, or no memory for the array of `SASToken_Create`, and no call. -/
def step (oom : Prop) (x : World) (op : Op) (o : Option Out) (x' : World) : Prop :=
  match op with
  | .ex op => ∃ e, Ex.step oom x.ex op o e ∧ x' = { x with ex := e }
  | .create k u n => ∃ k' u' n' ok a', Passed oom k k' ∧ Passed oom u u' ∧ Passed oom n n' ∧ CreateE oom k' u' n' ok a' ∧ o = some (.handle ok) ∧
      x' = { x with creds := x.creds ++ [a'] }
  | .destroy i => (x.creds[i]? = none ∧ o = none ∧ x' = x) ∨ (x.creds[i]? ≠ none ∧ o = some .done ∧ x' = { x with creds := x.creds.set i none })
  | .request i j type path hdrs content status rhdrs rcontent =>
      (o = none ∧ x' = x ∧ (x.creds[i]? = none ∨ x.ex.1[j]? = none ∨ oom)) ∨
      ∃ c a y d r a' y' d' cl' evs, x.creds[i]? = some c ∧ x.ex.1[j]? = some a ∧ Ex.Made oom type path hdrs content status rhdrs rcontent y ∧
        ExecE oom c a y d x.clock r a' y' d' cl' evs ∧ o = some (.result r) ∧
        x' = ⟨x.creds, (x.ex.1.set j a', x.ex.2 ++ [⟨j, .request y r y', evs⟩]), cl'⟩

/-! ## The client -/

def createOne (k u n : Option Ex.Text) : M Ptr := do
  let ks ← STRING_construct (lit k)
  let us ← STRING_construct (lit u)
  let ns ← STRING_construct (lit n)
  let h ← HTTPAPIEX_SAS_Create ks us ns
  STRING_delete ks
  STRING_delete us
  STRING_delete ns
  pure h

def requestOne (api : Http) (get_time : M Int) (l : Hmac.Locals) (tmp dum te sh h : Ptr) (type : Nat) (path : Option Ex.Text)
    (hdrs : Option (List (Ex.Text × Ex.Text))) (content : Option (List UInt8))
    (status : Option Val) (rhdrs : Option (List (Ex.Text × Ex.Text))) (rcontent : Option (List UInt8)) : M Result := do
  let hq ← mkHeaders hdrs
  let cq ← mkBuffer content
  let st ← mkStatus status
  let hr ← mkHeaders rhdrs
  let cr ← mkBuffer rcontent
  let r ← HTTPAPIEX_SAS_ExecuteRequest api get_time l te sh h type (lit path) hq cq st hr cr tmp dum
  HTTPHeaders_Free hq
  BUFFER_delete cq
  free st
  HTTPHeaders_Free hr
  BUFFER_delete cr
  pure r

def exec (api : Http) (get_time : M Int) (l : Hmac.Locals) (tmp dum : Ptr) (op : Op) (env : List Nat × List Nat) : M (Option Out × (List Nat × List Nat)) :=
  match op with
  | .ex op => do
    let r ← Ex.exec api tmp dum op env.2
    pure (r.1, (env.1, r.2))
  | .create k u n => do
    let h ← createOne k u n
    pure (some (.handle (decide (h ≠ 0))), (env.1 ++ [h], env.2))
  | .destroy i =>
    match env.1[i]? with
    | none => pure (none, env)
    | some h => do
      HTTPAPIEX_SAS_Destroy h
      pure (some .done, (env.1.set i 0, env.2))
  | .request i j type path hdrs content status rhdrs rcontent =>
    match env.1[i]?, env.2[j]? with
    | some sh, some h => do
      let te ← malloc 32
      if te = 0 then pure (none, env) else do
      let r ← requestOne api get_time l tmp dum te sh h type path hdrs content status rhdrs rcontent
      pure (some (.result r), env)
    | _, _ => pure (none, env)

/-- arguments are C strings and objects; keys are base64 texts -/
def good : Op → Prop
  | .ex op => Ex.good op
  | .create k u n => okText k ∧ okText u ∧ okText n ∧ ∀ kt, k = some kt → ∃ kb, Decodes kt kb
  | .destroy _ => True
  | .request _ _ _ path hdrs content _ rhdrs rcontent => okText path ∧ okPairs hdrs ∧ okBytes content ∧ okPairs rhdrs ∧ okBytes rcontent

/-! ## Proof -/

theorem mkString_spec {o : Option Ex.Text} (ho : okText o) :
    Triple rel emp (STRING_construct (lit o)) (fun r => ∃∃ o' : Option Ex.Text, (Passed (¬ rel) o o') ⋏ OStr r o') := by
  have t := STRING_construct_spec (rel := rel) (psz := lit o) (o := o)
  rw [Arg_lit' ho] at t
  refine t.conseq (entails_refl _) fun r => ?_
  rw [sep_emp]
  by_cases hr : r = 0
  · subst hr
    rw [Made_zero]
    exact entails_pand_l fun h => entails_ex_r none (entails_pand_r (entails_of_eq nullStr.symm) (h.elim (fun h => Or.inl h.symm) fun h => Or.inr ⟨h, rfl⟩))
  · rw [Made_ne hr]
    refine entails_ex_l fun t => entails_pand_l fun h => entails_ex_r (some t) (entails_pand_r (entails_of_eq OStr_some.symm) (Or.inl h.symm))

theorem createOne_spec {k u n : Option Ex.Text} (hk : okText k) (hu : okText u) (hn : okText n) :
    Triple rel emp (createOne k u n) (fun r => ∃∃ (k' u' n' : Option Ex.Text) (a' : Option Creds),
      (Passed (¬ rel) k k' ∧ Passed (¬ rel) u u' ∧ Passed (¬ rel) n n' ∧ CreateE (¬ rel) k' u' n' (decide (r ≠ 0)) a') ⋏ OCred r a') := by
  unfold createOne
  step (mkString_spec hk) into ks
  intro k' hk'
  step (mkString_spec hu) into us
  intro u' hu'
  step (mkString_spec hn) into ns
  intro n' hn'
  have t := HTTPAPIEX_SAS_Create_spec (rel := rel) (P := OStr ks k' ∗ OStr us u' ∗ OStr ns n') (key := ks) (uri := us) (name := ns) (k := k') (u := u') (n := n')
    ⟨_, rfl⟩ ⟨_, sep_left_comm _ _ _⟩ ⟨OStr ks k' ∗ OStr us u', by rw [sep_comm (OStr ns _), sep_assoc]⟩
  refine Triple.bind' (t.pre (by sep_cancel)) fun h => ?_
  hoist; intro a' hE
  step STRING_delete_spec
  step STRING_delete_spec
  step STRING_delete_spec
  exact Triple.pure (entails_ex_r k' (entails_ex_r u' (entails_ex_r n' (entails_ex_r a' (entails_pand_r (entails_refl _) ⟨hk', hu', hn', hE⟩)))))

/-- credentials with a base64 key -/
def CredG (h : Ptr) (c : Creds) : HProp := (∃ kb, Decodes c.key kb) ⋏ CredR h c
abbrev OCredG (h : Ptr) (a : Option Creds) : HProp := ORep CredG h a

theorem OCredG_eq {h : Ptr} {a : Option Creds} : OCredG h a = ((∀ c, a = some c → ∃ kb, Decodes c.key kb) ⋏ OCred h a) := by
  cases a with
  | none =>
    rw [OCredG, OCred, ORep_none, ORep_none]
    rw [show (∀ c : Creds, none = some c → ∃ kb, Decodes c.key kb) = True from by simp, true_pand]
  | some c =>
    rw [OCredG, OCred, ORep_some, ORep_some, CredG]
    congr 1
    simp

/-- memory without a pointer to it; none if the allocator does not refuse -/
def Lost (rel : Prop) : HProp := ∃∃ lost : HProp, (rel → lost = emp) ⋏ lost

theorem Lost_intro {lost : HProp} (h : rel → lost = emp) : lost ∗ Lost rel ⊢ₕ Lost rel := by
  unfold Lost
  rw [sep_hex]
  refine entails_ex_l fun l2 => ?_
  rw [sep_pand]
  exact entails_pand_l fun h2 => entails_ex_r (lost ∗ l2) (entails_pand_r (entails_refl _) fun hr => by rw [h hr, h2 hr, sep_emp])

theorem requestOne_spec (H : Honours rel api Net Sess Conn) (HC : Clock rel get_time Clk) {l : Hmac.Locals} (ht : Sized l.tctx)
    (hs : Sized l.ctx.shaContext) {sh h tmp dum te : Ptr} {c : Option Creds} {a : Option Obj} {log : Log} {cl : List Int} {b : Block} {type : Nat} {path : Option Ex.Text}
    {hdrs : Option (List (Ex.Text × Ex.Text))} {content : Option (List UInt8)} {status : Option Val} {rhdrs : Option (List (Ex.Text × Ex.Text))}
    {rcontent : Option (List UInt8)} (hb : b.length = 32) (hd : ∀ cc, c = some cc → ∃ kb, Decodes cc.key kb)
    (hp : okText path) (hh : okPairs hdrs) (hc : okBytes content) (hrh : okPairs rhdrs) (hrc : okBytes rcontent) :
    Triple rel (OCred sh c ∗ Clk cl ∗ te ↦ b ∗ OEx Sess Conn h a ∗ NetL Net tmp dum log) (requestOne api get_time l tmp dum te sh h type path hdrs content status rhdrs rcontent)
      (fun r => ∃∃ (y : Args) (d : Val) (y' : Args) (d' : Val) (a' : Option Obj) (cl' : List Int) (evs : List Ev) (t' : Block) (lost : HProp),
        (Ex.Made (¬ rel) type path hdrs content status rhdrs rcontent y ∧ ExecE (¬ rel) c a y d cl r a' y' d' cl' evs ∧ t'.length = 22 ∧ (rel → lost = emp)) ⋏
          OCred sh c ∗ Clk cl' ∗ OEx Sess Conn h a' ∗ Net (trace log ++ evs) ∗ dum ↦ [d'] ∗ tmp ↦ t' ∗ lost) := by
  unfold requestOne
  rw [NetL_eq]
  hoist; intro d t ht'
  step (mkHeaders_built hh) into hq
  intro xh h1
  step (mkBuffer_spec hc) into cq
  intro xc h2
  step mkStatus_spec into st
  intro xs h3
  step (mkHeaders_built hrh) into hr
  intro xrh h4
  step (mkBuffer_spec hrc) into cr
  intro xrc h5
  have T := HTTPAPIEX_SAS_ExecuteRequest_partial H HC ht hs (te := te) (sh := sh) (h := h) (hq := hq) (cq := cq) (st := st) (hr := hr) (cr := cr) (temp := tmp) (dummy := dum)
    (path := lit path) (c := c) (a := a) (x := ⟨type, path, xh, xc, xs, xrh, xrc⟩) (b := b) (t := t) (d := d) (tr := trace log) (cl := cl) hb ht' hd
  simp only [ArgsR_eq, Arg_lit' hp, emp_sep, sep_assoc] at T
  step T into r
  intro a' y' d' cl' evs t' lost hE ht2 hl
  have hpath : y'.path = path := by
    obtain ⟨hs', -, h⟩ := hE
    unfold Ex.ExecE at h
    cases a with
    | none => rw [h.2.2.1]
    | some o =>
      dsimp only at h
      split at h
      · rw [h.2.2.1]
      · rcases h with ⟨_, _, _, _, h | h | h⟩ | ⟨_, _, _, _, _, _, h, _⟩
        · rw [h.1]
        · rw [h.1]
        · rw [h.1]
        · rw [h]; rfl
  rw [hpath, Arg_lit' hp, emp_sep]
  step HTTPHeaders_Free_spec
  step BUFFER_delete_spec
  step free_OStat
  step HTTPHeaders_Free_spec
  step BUFFER_delete_spec
  refine Triple.pure (entails_ex_r _ (entails_ex_r d (entails_ex_r y' (entails_ex_r d' (entails_ex_r a' (entails_ex_r cl' (entails_ex_r evs (entails_ex_r t' (entails_ex_r lost
    (entails_pand_r (by sep_cancel) ⟨⟨rfl, rfl, h1.not_not, h2, h3, h4.not_not, h5⟩, hE, ht2, hl⟩))))))))))

/-- everything the client owns -/
def Inv (rel : Prop) (Net : List Ev → HProp) (Sess : HProp) (Conn : Nat → HProp) (Clk : List Int → HProp) (tmp dum : Ptr) (env : List Nat × List Nat) (x : World) : HProp :=
  Own OCredG env.1 x.creds ∗ OwnW (OEx Sess Conn) (NetL Net tmp dum) env.2 x.ex ∗ Clk x.clock ∗ Lost rel

theorem exec_spec (H : Honours rel api Net Sess Conn) (HC : Clock rel get_time Clk) {l : Hmac.Locals} (ht : Sized l.tctx)
    (hs : Sized l.ctx.shaContext) {tmp dum : Ptr} (op : Op) (hop : good op) (env : List Nat × List Nat) (x : World) :
    Triple rel (Inv rel Net Sess Conn Clk tmp dum env x) (exec api get_time l tmp dum op env)
      (fun r => ∃∃ x', (step (¬ rel) x op r.1 x') ⋏ Inv rel Net Sess Conn Clk tmp dum r.2 x') := by
  cases op with
  | ex op =>
    unfold exec Inv
    dsimp only
    step (Ex.exec_spec H (tmp := tmp) (dum := dum) op hop env.2 x.ex) into r
    intro e hE
    exact Triple.pure (entails_ex_r { x with ex := e } (entails_pand_r (by dsimp only; sep_cancel) ⟨e, hE, rfl⟩))
  | create k u n =>
    unfold exec Inv
    dsimp only
    step (createOne_spec hop.1 hop.2.1 hop.2.2.1) into h
    intro k' u' n' a' hk hu hn hE
    refine Triple.pure (entails_ex_r { x with creds := x.creds ++ [a'] } (entails_pand_r ?_ ⟨k', u', n', _, a', hk, hu, hn, hE, rfl, rfl⟩))
    dsimp only
    have hg : ∀ c, a' = some c → ∃ kb, Decodes c.key kb := by
      rintro c rfl
      cases k' with
      | none => simp [CreateE] at hE
      | some kt =>
        cases u' with
        | none => simp [CreateE] at hE
        | some ut =>
          cases n' with
          | none => simp [CreateE] at hE
          | some nt =>
            simp only [CreateE] at hE
            have hc : c = ⟨kt, ut, nt⟩ := by simp at hE; exact hE.2
            subst hc
            rcases hk with hk | hk
            · exact hop.2.2.2 kt hk.symm
            · simp at hk
    refine entails_trans (Q := (OCredG h a' ∗ Own OCredG env.1 x.creds) ∗ OwnW (OEx Sess Conn) (NetL Net tmp dum) env.2 x.ex ∗ Clk x.clock ∗ Lost rel) ?_
      (sep_mono Own_snoc (entails_refl _))
    rw [OCredG_eq, pand_sep, pand_sep, sep_assoc]
    exact entails_pand_r (by sep_cancel) hg
  | destroy i =>
    unfold exec Inv
    dsimp only
    refine Triple.know (φ := env.1.length = x.creds.length) (by rintro _ ⟨a, b, _, _, h, _⟩; exact h.1) fun hl => ?_
    cases hi : env.1[i]? with
    | none => exact Triple.pure (entails_ex_r x (entails_pand_r (entails_refl _) (Or.inl ⟨get_none hl hi, rfl, rfl⟩)))
    | some h =>
      obtain ⟨a, F, ha, h2, h3⟩ := Own_get (R := OCredG) hi hl
      dsimp only
      rw [h2, OCredG_eq]
      simp only [sep_assoc, pand_sep]
      hoist; intro hg
      step HTTPAPIEX_SAS_Destroy_spec
      refine Triple.pure (entails_ex_r { x with creds := x.creds.set i none } (entails_pand_r ?_ (Or.inr ⟨by simp [ha], rfl, rfl⟩)))
      dsimp only
      rw [h3, OCredG, ORep_null, emp_sep]; sep_cancel
  | request i j type path hdrs content status rhdrs rcontent =>
    unfold exec Inv
    dsimp only
    refine Triple.know (φ := env.1.length = x.creds.length) (by rintro _ ⟨a, b, _, _, h, _⟩; exact h.1) fun hl => ?_
    refine Triple.know (φ := env.2.length = x.ex.1.length) (by rintro _ ⟨_, _, _, _, _, ⟨_, _, _, _, ⟨_, _, _, _, h, _⟩, _⟩⟩; exact h.1) fun hl2 => ?_
    cases hi : env.1[i]? with
    | none => exact Triple.pure (entails_ex_r x (entails_pand_r (entails_refl _) (Or.inl ⟨rfl, rfl, Or.inl (get_none hl hi)⟩)))
    | some sh =>
    cases hj : env.2[j]? with
    | none => exact Triple.pure (entails_ex_r x (entails_pand_r (entails_refl _) (Or.inl ⟨rfl, rfl, Or.inr (Or.inl (get_none hl2 hj))⟩)))
    | some h =>
      dsimp only
      refine Triple.malloc (fun hr => ?_) fun te hte hm => ?_
      · rw [if_pos rfl]
        refine Triple.pure (entails_ex_r x (entails_pand_r (entails_refl _) (Or.inl ⟨rfl, rfl, Or.inr (Or.inr ?_)⟩)))
        exact hr.resolve_right (by decide)
      rw [if_neg hte]
      obtain ⟨c, F, hc, h2, h3⟩ := Own_get (R := OCredG) hi hl
      obtain ⟨a, G, ha, h4, h5⟩ := Own_get (R := OEx Sess Conn) hj hl2
      unfold OwnW
      rw [h2, h4, OCredG_eq]
      simp only [sep_assoc, pand_sep, sep_pand]
      hoist; intro hg
      step (requestOne_spec H HC ht hs (sh := sh) (h := h) (tmp := tmp) (dum := dum) (te := te) (c := c) (a := a) (log := x.ex.2) (cl := x.clock)
        (b := List.replicate 32 .undef) (type := type) (path := path) (hdrs := hdrs) (content := content) (status := status) (rhdrs := rhdrs) (rcontent := rcontent)
        (by simp) hg hop.1 hop.2.1 hop.2.2.1 hop.2.2.2.1 hop.2.2.2.2) into r
      intro y d y' d' a' cl' evs t' lost hM hE ht2 hlost
      refine Triple.pure (entails_ex_r ⟨x.creds, (x.ex.1.set j a', x.ex.2 ++ [⟨j, .request y r y', evs⟩]), cl'⟩ (entails_pand_r ?_
        (Or.inr ⟨c, a, y, d, r, a', y', d', cl', evs, hc, ha, hM, hE, rfl, rfl⟩)))
      dsimp only
      have e := h5 h a'
      rw [set_self hj] at e
      rw [h2, e, OCredG_eq]
      simp only [sep_assoc, pand_sep]
      refine entails_pand_r ?_ hg
      refine entails_trans (Q := OCred sh c ∗ F ∗ OEx Sess Conn h a' ∗ G ∗ (Net (trace x.ex.2 ++ evs) ∗ dum ↦ [d'] ∗ tmp ↦ t') ∗ Clk cl' ∗ lost ∗ Lost rel)
        (by simp only [sep_assoc]; sep_cancel) ?_
      exact sep_mono (entails_refl _) (sep_mono (entails_refl _) (sep_mono (entails_refl _) (sep_mono (entails_refl _)
        (sep_mono (NetL_intro (e := ⟨j, .request y r y', evs⟩) ht2) (sep_mono (entails_refl _) (Lost_intro hlost))))))

/-- C45: every history of calls on any number of handles of both kinds: no undefined behaviour, and the results and effects of the
specification.  Missing: keys that are not base64 texts, readings of the clock before 1970. -/
theorem histories_partial (H : Honours rel api Net Sess Conn) (HC : Clock rel get_time Clk) {l : Hmac.Locals} (ht : Sized l.tctx)
    (hs : Sized l.ctx.shaContext) {tmp dum : Ptr} (ops : List Op) (hops : ∀ op ∈ ops, good op) (env : List Nat × List Nat) (x : World) :
    Triple rel (Inv rel Net Sess Conn Clk tmp dum env x) (runOps (exec api get_time l tmp dum) ops env)
      (fun r => ∃∃ x', (Runs (step (¬ rel)) x ops r.1 x') ⋏ Inv rel Net Sess Conn Clk tmp dum r.2 x') :=
  runOps_spec (fun op hop env x => exec_spec H HC ht hs op hop env x) ops hops env x

theorem Own_gone {env : List Nat} {as : List (Option Creds)} (h : ∀ a ∈ as, a = none) : Own OCredG env as ⊢ₕ emp := by
  induction as generalizing env with
  | nil =>
    intro x hx
    obtain ⟨hl, hx⟩ := hx
    have : env = [] := List.length_eq_zero_iff.1 (by simpa using hl)
    subst this
    exact hx
  | cons a as ih =>
    have ha := h a (by simp)
    subst ha
    cases env with
    | nil => intro x hx; have := hx.1; simp at this
    | cons p env =>
      rw [Map.Own_cons, OCredG, ORep_none]
      rw [pand_sep, emp_sep]
      exact entails_pand_l fun _ => ih fun a ha => h a (by simp [ha])

/-- C45: a history from the beginning, with memory always available: it runs to the end, and when all handles of both kinds are destroyed,
nothing is left but the memory of the transport, of the clock and of the two variables. -/
theorem run_partial (H : Honours True api Net Sess Conn) (HC : Clock True get_time Clk) {l : Hmac.Locals} (ht : Sized l.tctx)
    (hs : Sized l.ctx.shaContext) {tmp dum : Ptr} (ops : List Op) (hops : ∀ op ∈ ops, good op) (s : St) (hf : s.heap.fin) (hr : Reliable s.alloc)
    (h0 : (NetL Net tmp dum [] ∗ Clk []) s.heap) :
    ∃ outs env x s', runOps (exec api get_time l tmp dum) ops ([], []) s = some (.ok ((outs, env), s')) ∧
      Runs (step False) ⟨[], ([], []), []⟩ ops outs x ∧
      ((∀ c ∈ x.creds, c = none) → (∀ a ∈ x.ex.1, a = none) → (NetL Net tmp dum x.ex.2 ∗ Clk x.clock) s'.heap) := by
  have t := histories_partial H HC ht hs (tmp := tmp) (dum := dum) ops hops ([], []) ⟨[], ([], []), []⟩
  have t : Triple True (NetL Net tmp dum [] ∗ Clk []) _ _ := t.pre (by
    unfold Inv OwnW
    dsimp only
    rw [Own_nil, Own_nil, emp_sep, emp_sep]
    refine sep_mono (entails_refl _) ?_
    refine entails_trans (entails_of_eq (sep_emp _).symm) (sep_mono (entails_refl _) ?_)
    exact entails_ex_r emp (entails_pand_r (entails_refl _) fun _ => rfl))
  obtain ⟨r, s', h1, ⟨x', hx, hh⟩⟩ := t.run s hf (fun _ => hr) h0
  refine ⟨r.1, r.2, x', s', h1, by simpa using hx, fun hc ha => ?_⟩
  have e : Inv True Net Sess Conn Clk tmp dum r.2 x' ⊢ₕ NetL Net tmp dum x'.ex.2 ∗ Clk x'.clock := by
    unfold Inv OwnW
    refine entails_trans (sep_mono (Own_gone hc) (sep_mono (sep_mono (Ex.Own_gone ha) (entails_refl _)) (sep_mono (entails_refl _)
      (Q' := emp) ?_))) ?_
    · exact entails_ex_l fun lost => entails_pand_l fun h => by rw [h trivial]; exact entails_refl _
    · rw [emp_sep, emp_sep, sep_emp]; exact entails_refl _
  exact e _ hh

end Verif.Exs
