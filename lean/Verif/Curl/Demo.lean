import Verif.Curl.Ledger
/-!
# A libcurl that meets the contract, and what the code does on it

The theorems about histories are not vacuous; the runs at the end show what the partial theorems leave out.
-/
set_option linter.unusedSimpArgs false
namespace Verif.Curl
open Verif.Sas (text)
open Verif.Map (lit okText Arg_lit')

def fnCode : Fn → Nat
  | .null => 0
  | .headers => 1
  | .content => 2

/-- what the demo remembers of the options of its easy handle 77 -/
def kept (k : Cfg) : Block := [.ptr k.writeData, .int (fnCode k.headerFn), .ptr k.writeHeader]

/-- the easy handle is in use -/
def heldStep (b : Bool) : Ev → Bool
  | .easyInit c => if c = 0 then b else true
  | .easyCleanup _ => false
  | _ => b
def held (tr : List Ev) : Bool := tr.foldl heldStep false

/-- The demo has one easy handle, 77.  At address 1000 it keeps the number of events, the options and whether the handle is in use; at
1001, which belongs to the handle, the options of the running transfer.  A response has the pieces `resp 0`, `resp 1`, …, `resp (n - 1)`,
counted from the last (`true`: header, if headers are wanted). -/
def flag (b : Bool) : Nat := match b with | true => 1 | false => 0
def Scratch : HProp := ∃∃ a b c : Val, 1001 ↦ [a, b, c]
def Spare (b : Bool) : HProp := match b with | true => emp | false => Scratch
def demoNet (tr : List Ev) : HProp := 1000 ↦ (.int (flag (held tr)) :: kept (cfg 77 tr)) ∗ Spare (held tr)
def demoEasy (c : Nat) : HProp := (c = 77) ⋏ Scratch
def demoBusy (rel : Prop) (c : Nat) (t : Transfer) (n : Nat) : HProp :=
  (c = 77 ∧ t.got.length + n * 100 ≤ maxObj ∧ (rel ∨ n = 0)) ⋏ 1001 ↦ kept t.cfg ∗ Lines (fun _ _ => emp) t.cfg.headers t.lines ∗ BodyR t.cfg t.body

/-- a piece of the response in memory of its own -/
def lend (fn : Fn) (bs : Text) (user : Ptr) : M Call := do
  let p ← malloc (bs.length + 1)
  storeN p 0 (bytesV bs ++ [.byte 0])
  pure ⟨fn, p, 1, bs.length, user⟩

def demoSet : Opt → M Unit
  | .writeData p => store 1000 1 (.ptr p)
  | .headerFunction f => store 1000 2 (.int (fnCode f))
  | .writeHeader p => store 1000 3 (.ptr p)
  | _ => pure ()

/-- `plan`: the results; `hdr`, `body`: the piece of header (if it is wanted) or body that is sent `n` times -/
def demoLib (ok : Bool) (hdr : Option Text) (body : Text) (n : Nat) (status : Int) : Lib where
  globalInit := pure (if ok then 0 else 2)
  globalCleanup := pure ()
  easyInit := do
    let h ← loadInt 1000 0
    if h = 0 then do
      storeN 1000 0 (.int 1 :: kept {})
      pure 77
    else pure 0
  easyCleanup _ := store 1000 0 (.int 0)
  setopt _ o := do
    if ok then do
      demoSet o
      pure 0
    else pure 1
  slistAppend _ _ := pure 5
  slistFreeAll _ := pure ()
  performBegin _ := do
    let a ← load 1000 1
    let b ← load 1000 2
    let c ← load 1000 3
    storeN 1001 0 [a, b, c]
    pure n
  performNext _ := do
    let d ← loadPtr 1001 0
    let f ← loadInt 1001 1
    let h ← loadPtr 1001 2
    match hdr with
    | some hs => if f = 1 then lend .headers hs h else lend .content body d
    | none => lend .content body d
  performBack _ k _ := free k.ptr
  performEnd _ := pure 0
  responseCode _ := pure (0, status)

theorem cfg_snoc {c : Nat} {tr : List Ev} {e : Ev} : cfg c (tr ++ [e]) = cfgStep c (cfg c tr) e := by simp [cfg]
theorem held_snoc {tr : List Ev} {e : Ev} : held (tr ++ [e]) = heldStep (held tr) e := by simp [held]
theorem demoNet_eq {tr : List Ev} : demoNet tr = (1000 ↦ (.int (flag (held tr)) :: kept (cfg 77 tr)) ∗ Spare (held tr)) := rfl

/-- an event that changes neither -/
theorem demoNet_same {tr : List Ev} {e : Ev} (h1 : ∀ k, cfgStep 77 k e = k) (h2 : ∀ b, heldStep b e = b) : demoNet (tr ++ [e]) = demoNet tr := by
  rw [demoNet_eq, demoNet_eq, cfg_snoc, held_snoc, h1, h2]

theorem lend_spec {rel : Prop} (hr : rel) {fn : Fn} {bs : Text} {user : Ptr} (hb : bs.length ≤ 100) :
    Triple rel emp (lend fn bs user) (fun k => ∃∃ p : Ptr, (k = ⟨fn, p, 1, bs.length, user⟩) ⋏ p ↦ (bytesV bs ++ [.byte 0])) := by
  unfold lend
  refine Triple.malloc (fun h => ?_) fun p hp hm => ?_
  · rcases h with h | h
    · exact absurd hr h
    · unfold maxObj at h; omega
  · step (storeN_spec (b := List.replicate (bs.length + 1) .undef) (by simp [bytesV]))
    refine Triple.pure (entails_ex_r p (entails_pand_r (entails_of_eq ?_) rfl))
    simp [bytesV]

theorem demoSet_spec {rel : Prop} {o : Opt} {s : Setting} {k : Cfg} {x : Val} :
    Triple rel (1000 ↦ (x :: kept k) ∗ OptArg o s) (demoSet o) (fun _ => 1000 ↦ (x :: kept (k.set s)) ∗ OptArg o s) := by
  have same : demoSet o = pure () → (OptArg o s = ((False) ⋏ emp) ∨ kept (k.set s) = kept k) →
      Triple rel (1000 ↦ (x :: kept k) ∗ OptArg o s) (demoSet o) (fun _ => 1000 ↦ (x :: kept (k.set s)) ∗ OptArg o s) := by
    rintro e1 (e2 | e2)
    · rw [e2]; hoist; intro h; exact h.elim
    · rw [e1, e2]; exact Triple.pure (entails_refl _)
  have eqc : ∀ X, OptArg o s = ((s = X) ⋏ emp) → demoSet o = pure () → kept (k.set X) = kept k →
      Triple rel (1000 ↦ (x :: kept k) ∗ OptArg o s) (demoSet o) (fun _ => 1000 ↦ (x :: kept (k.set s)) ∗ OptArg o s) := by
    intro X e1 e2 e3
    by_cases h : s = X
    · subst h; exact same e2 (Or.inr e3)
    · exact same e2 (Or.inl (by rw [e1, show (s = X) = False from propext ⟨h, False.elim⟩]))
  cases o with
  | long o v =>
    by_cases h : s = .long o v
    · subst h
      refine same rfl (Or.inr ?_)
      cases o <;> simp only [Cfg.set] <;> first | rfl | (split <;> rfl)
    · have e : ((s = .long o v) ⋏ emp) = ((False) ⋏ emp) := by rw [show (s = .long o v) = False from propext ⟨h, False.elim⟩]
      exact same rfl (Or.inl e)
  | url p => cases s <;> first | exact same rfl (Or.inr rfl) | exact same rfl (Or.inl rfl)
  | customRequest p => cases s <;> first | exact same rfl (Or.inr rfl) | exact same rfl (Or.inl rfl)
  | httpHeader l => exact eqc (.httpHeader l) rfl rfl rfl
  | postFields p => exact eqc (.postFields p) rfl rfl rfl
  | writeFunction f => exact eqc (.writeFunction f) rfl rfl rfl
  | writeHeader p =>
    have e : OptArg (.writeHeader p) s = ((s = .writeHeader p) ⋏ emp) := rfl
    rw [e]; hoist; rintro rfl
    refine Triple.conseq (store_spec (p := 1000) (b := x :: kept k) (off := 3) (v := .ptr p) (by simp [kept])) (entails_refl _) fun _ => ?_
    rw [eq_self, true_pand, sep_emp]; exact entails_refl _
  | headerFunction f =>
    have e : OptArg (.headerFunction f) s = ((s = .headerFunction f) ⋏ emp) := rfl
    rw [e]; hoist; rintro rfl
    refine Triple.conseq (store_spec (p := 1000) (b := x :: kept k) (off := 2) (v := .int (fnCode f)) (by simp [kept])) (entails_refl _) fun _ => ?_
    rw [eq_self, true_pand, sep_emp]; exact entails_refl _
  | writeData p =>
    have e : OptArg (.writeData p) s = ((s = .writeData p) ⋏ emp) := rfl
    rw [e]; hoist; rintro rfl
    refine Triple.conseq (store_spec (p := 1000) (b := x :: kept k) (off := 1) (v := .ptr p) (by simp [kept])) (entails_refl _) fun _ => ?_
    rw [eq_self, true_pand, sep_emp]; exact entails_refl _

theorem demo_honours {rel : Prop} (ok : Bool) (hdr : Option Text) (body : Text) (n : Nat) (status : Int) (hn : n * 100 ≤ maxObj) (hr : rel ∨ n = 0)
    (h1 : body.length ≤ 100) (h2 : (hdr.getD []).length ≤ 100) :
    Honours rel (demoLib ok hdr body n status) demoNet emp demoEasy (fun _ _ => emp) (demoBusy rel) := by
  constructor
  case globalInit =>
    intro tr
    refine Triple.pure ?_
    rw [demoNet_same (fun _ => rfl) (fun _ => rfl)]
    simp only [ite_self, sep_emp]
    exact entails_refl _
  case globalCleanup =>
    intro tr
    refine Triple.pure ?_
    rw [demoNet_same (fun _ => rfl) (fun _ => rfl), sep_emp]
    exact entails_refl _
  case easyInit =>
    intro tr
    unfold demoLib
    dsimp only
    rw [demoNet_eq]
    stepd (loadInt_spec (p := 1000) (n := flag (held tr)) ?_)
    cases hh : held tr
    · rw [if_pos (by rfl)]
      step (storeN_spec (p := 1000) (off := 0) (vs := .int 1 :: kept {}) (b := .int (flag false) :: kept (cfg 77 tr)) (by simp [kept]))
      refine Triple.pure ?_
      rw [if_neg (by decide), demoNet_eq, cfg_snoc, held_snoc]
      simp only [heldStep, cfgStep, hh, demoEasy, eq_self, true_pand, Spare]
      simp [kept, flag]
      sep_cancel
    · rw [if_neg (by decide)]
      refine Triple.pure ?_
      rw [if_pos rfl, sep_emp, demoNet_eq, cfg_snoc, held_snoc, hh]
      simp only [heldStep, cfgStep]
      exact entails_refl _
  case easyCleanup =>
    intro c tr
    unfold demoLib
    dsimp only
    rw [demoNet_eq, demoEasy]
    hoist; rintro rfl
    cases hh : held tr
    · simp only [Spare]
      unfold Scratch
      hoist
      intro a b c a' b' c'
      refine Triple.know (φ := False) ?_ (fun h => h.elim)
      intro h hp
      obtain ⟨x, y, hd, rfl, _, hy⟩ := hp
      exact sep_pts_ne (F := emp) (by rw [sep_emp]; exact hy) rfl
    · last (store_spec (p := 1000) (b := .int (flag true) :: kept (cfg 77 tr)) (by simp [kept]))
      rw [demoNet_eq, cfg_snoc, held_snoc]
      simp only [heldStep, cfgStep, hh, Spare, List.set_cons_zero, flag]
      sep_cancel
  case setopt =>
    intro c o s tr
    unfold demoLib
    dsimp only
    rw [demoEasy]
    hoist; rintro rfl
    cases ok with
    | false =>
      rw [if_neg (by simp)]
      refine Triple.pure ?_
      rw [demoNet_same (fun k => by simp [cfgStep]) (fun _ => rfl)]
      simp only [eq_self, true_pand]
      sep_cancel
    | true =>
      rw [if_pos rfl, demoNet_eq]
      simp only [sep_assoc]
      step (demoSet_spec (o := o) (s := s) (k := cfg 77 tr) (x := .int (flag (held tr))))
      refine Triple.pure ?_
      rw [demoNet_eq, cfg_snoc, held_snoc]
      simp only [heldStep, cfgStep, and_self, if_true, eq_self, true_pand]
      sep_cancel
  case slistAppend =>
    intro l ls s t
    refine Triple.pure ?_
    rw [if_neg (by decide), sep_emp]
    unfold Lines
    split
    · rw [pand_sep, emp_sep]; exact entails_pand_l fun _ => entails_refl _
    · rw [emp_sep]; exact entails_refl _
  case slistFreeAll =>
    intro l ls
    refine Triple.pure ?_
    unfold Lines
    split
    · exact entails_pand_l fun _ => entails_refl _
    · exact entails_refl _
  case performBegin =>
    intro c tr k url ls bs hk _ _
    subst hk
    unfold demoLib
    dsimp only
    rw [demoNet_eq, demoEasy]
    unfold Scratch
    hoist; rintro rfl a b d
    step (load_spec (p := 1000) (b := .int (flag (held tr)) :: kept (cfg 77 tr)) (off := 1) (v := .ptr (cfg 77 tr).writeData) (by rfl))
    step (load_spec (p := 1000) (b := .int (flag (held tr)) :: kept (cfg 77 tr)) (off := 2) (v := .int (fnCode (cfg 77 tr).headerFn)) (by rfl))
    step (load_spec (p := 1000) (b := .int (flag (held tr)) :: kept (cfg 77 tr)) (off := 3) (v := .ptr (cfg 77 tr).writeHeader) (by rfl))
    step (storeN_spec (p := 1001) (off := 0) (b := [a, b, d]) (by simp))
    refine Triple.pure ?_
    rw [demoNet_same (fun _ => rfl) (fun _ => rfl), demoNet_eq, demoBusy]
    simp only [sep_pand]
    refine entails_pand_r ?_ ⟨trivial, by simpa using hn, hr⟩
    simp only [List.take_zero, List.nil_append, List.length_cons, List.length_nil, Nat.zero_add, List.drop_succ_cons, List.drop_zero, List.append_nil, List.drop_nil]
    unfold kept
    sep_cancel
  case performNext =>
    intro c t m tr
    unfold demoLib
    dsimp only
    rw [demoBusy]
    hoist; intro hc hg hr'
    subst hc
    have hrel : rel := by
      rcases hr' with h | h
      · exact h
      · omega
    step (loadPtr_spec (p := 1001) (b := kept t.cfg) (off := 0) (q := t.cfg.writeData) (by rfl))
    step (loadInt_spec (p := 1001) (b := kept t.cfg) (off := 1) (n := fnCode t.cfg.headerFn) (by rfl))
    step (loadPtr_spec (p := 1001) (b := kept t.cfg) (off := 2) (q := t.cfg.writeHeader) (by rfl))
    have content : Triple rel (1001 ↦ kept t.cfg ∗ demoNet tr ∗ Lines (fun _ _ => emp) t.cfg.headers t.lines ∗ BodyR t.cfg t.body)
        (lend .content body t.cfg.writeData) (Given rel demoNet (demoBusy rel) tr 77 t m) := by
      refine Triple.conseq ((lend_spec hrel (fn := .content) (user := t.cfg.writeData) h1).frame _) (by rw [emp_sep]; exact entails_refl _) fun k => ?_
      simp only [hex_sep, pand_sep]
      refine entails_ex_l fun p => entails_pand_l fun hk => ?_
      subst hk
      unfold Given
      dsimp only
      refine entails_ex_r body (entails_ex_r [.byte 0] (entails_pand_r ?_ ⟨by simp, rfl, Or.inr (Or.inr ⟨hrel, ?_⟩)⟩))
      · rw [demoNet_same (fun _ => rfl) (fun _ => rfl), demoBusy]
        simp only [sep_pand, pand_sep]
        refine entails_pand_r ?_ ⟨trivial, ?_, Or.inl hrel⟩
        · sep_cancel
        · simp only [List.length_append]; omega
      · simp only [List.length_append]; omega
    cases hdr with
    | none => exact Triple.pre content (by sep_cancel)
    | some hs =>
      dsimp only
      refine Triple.ite (fun hf => ?_) fun _ => Triple.pre content (by sep_cancel)
      have hfn : t.cfg.headerFn = .headers := by cases h : t.cfg.headerFn <;> simp [h, fnCode] at hf ⊢
      refine Triple.conseq ((lend_spec hrel (fn := .headers) (user := t.cfg.writeHeader) h2).frame
        (1001 ↦ kept t.cfg ∗ demoNet tr ∗ Lines (fun _ _ => emp) t.cfg.headers t.lines ∗ BodyR t.cfg t.body)) (by rw [emp_sep]; sep_cancel) fun k => ?_
      simp only [hex_sep, pand_sep]
      refine entails_ex_l fun p => entails_pand_l fun hk => ?_
      subst hk
      unfold Given
      dsimp only
      refine entails_ex_r hs (entails_ex_r [] (entails_pand_r ?_ ⟨by simp, hfn, rfl⟩))
      rw [demoNet_same (fun _ => rfl) (fun _ => rfl), demoBusy]
      simp only [sep_pand, pand_sep]
      refine entails_pand_r ?_ ⟨trivial, by omega, Or.inl hrel⟩
      sep_cancel
  case performBack =>
    intro c t m tr k b
    unfold demoLib
    dsimp only
    last (free_spec (p := k.ptr))
    sep_cancel
  case performEnd =>
    intro c t tr
    refine Triple.pure ?_
    rw [demoNet_same (fun _ => rfl) (fun _ => rfl), demoBusy, demoEasy]
    simp only [sep_pand, pand_sep]
    refine entails_pand_l fun hc => entails_pand_r ?_ hc.1
    refine sep_mono (entails_refl _) (sep_mono ?_ (entails_refl _))
    exact entails_ex_r _ (entails_ex_r _ (entails_ex_r _ (entails_refl _)))
  case responseCode =>
    intro c tr
    refine Triple.pure ?_
    rw [demoNet_same (fun _ => rfl) (fun _ => rfl)]
    exact entails_refl _

/-! ## Runs of the code on the demo -/

/-- an address that is free -/
noncomputable def freshAt (t : Nat) (h : Heap) : Ptr := if (h (2000 + t)).isNone then 2000 + t else Classical.epsilon fun p => p ≠ 0 ∧ h p = none

/-- memory of the demo: libcurl's two blocks, `nUsersOfHTTPAPI` (1002) and `responseContentBuffer` (1003); allocation number `t` is
refused if `refuse t` -/
noncomputable def demoSt (refuse : Nat → Bool) : St :=
  { heap := fun p => if p = 1000 then some [.int 0, .ptr 0, .int 0, .ptr 0] else if p = 1001 then some [.undef, .undef, .undef] else
      if p = 1002 then some [.int 0] else if p = 1003 then some [.undef, .undef, .undef] else none,
    alloc := fun t h _ => if refuse t then 0 else freshAt t h, tick := 0 }

theorem demoSt_fin {f : Nat → Bool} : (demoSt f).heap.fin := ⟨1004, fun p hp => by
  have h1 : p ≠ 1000 := by omega
  have h2 : p ≠ 1001 := by omega
  have h3 : p ≠ 1002 := by omega
  have h4 : p ≠ 1003 := by omega
  simp [demoSt, h1, h2, h3, h4]⟩

theorem demoSt_reliable : Reliable (demoSt fun _ => false).alloc := by
  intro t h n hf hn
  show (if false = true then 0 else freshAt t h) ≠ 0 ∧ h (if false = true then 0 else freshAt t h) = none
  rw [if_neg (by decide)]
  unfold freshAt
  split
  · rename_i e; exact ⟨by omega, by simpa using e⟩
  · obtain ⟨N, hN⟩ := hf
    exact Classical.epsilon_spec (p := fun p => p ≠ 0 ∧ h p = none) ⟨N + 1, by omega, hN _ (by omega)⟩

theorem peel {Q : HProp} {p : Ptr} {b : Block} {h : Heap} (h1 : h p = some b) (hp : (p ↦ b) (Heap.single p b)) (h2 : Q fun q => if q = p then none else h q) :
    (p ↦ b ∗ Q) h := by
  refine ⟨_, _, ?_, ?_, hp, h2⟩
  · intro q
    by_cases e : q = p
    · right; simp [e]
    · left; simp [Heap.single, e]
  · funext q
    by_cases e : q = p
    · subst e; simp [Heap.union, Heap.single, h1]
    · simp [Heap.union, Heap.single, e]

theorem demoSt_net {f : Nat → Bool} : NetL demoNet emp 1002 1003 [] (demoSt f).heap := by
  have key : (1000 ↦ [.int 0, .ptr 0, .int 0, .ptr 0] ∗ 1001 ↦ [.undef, .undef, .undef] ∗ 1002 ↦ [.int 0] ∗ 1003 ↦ [.undef, .undef, .undef] ∗ emp) (demoSt f).heap := by
    refine peel rfl ⟨by decide, by decide, rfl⟩ (peel rfl ⟨by decide, by decide, rfl⟩ (peel rfl ⟨by decide, by decide, rfl⟩ (peel rfl ⟨by decide, by decide, rfl⟩ ?_)))
    funext p
    simp only [demoSt]
    by_cases h1 : p = 1000
    · subst h1; rfl
    by_cases h2 : p = 1001
    · subst h2; rfl
    by_cases h3 : p = 1002
    · subst h3; rfl
    by_cases h4 : p = 1003
    · subst h4; rfl
    simp [h1, h2, h3, h4, Heap.empty]
  refine (?_ : _ ⊢ₕ _) _ key
  rw [NetL_eq, demoNet, Users_eq]
  unfold Cell3
  simp only [Scratch, Spare, held, List.foldl_nil, trace, List.flatMap_nil, users, lost, Lost, List.countP_nil, if_true, hex_sep, sep_hex, sep_assoc, sep_emp]
  exact entails_ex_r .undef (entails_ex_r .undef (entails_ex_r .undef (entails_ex_r .undef (entails_ex_r .undef (entails_ex_r .undef (entails_refl _))))))

/-- what a run returns -/
noncomputable def report (lib : Lib) (refuse : Nat → Bool) (ops : List Op) : Option (List (Option Out)) :=
  match runOps (exec lib 1002 1003) ops [] (demoSt refuse) with
  | some (.ok ((outs, _), _)) => some outs
  | _ => none

/-- `log` is the record of a run of the code on a libcurl that meets the contract -/
def Recorded (rel : Prop) (ops : List Op) (outs : List (Option Out)) (as : List (Option Obj)) (log : Log) : Prop :=
  ∃ (lib : Lib) (Net : List Ev → HProp) (Global : HProp) (Easy : Nat → HProp) (Slist : Nat → List Text → HProp) (Busy : Nat → Transfer → Nat → HProp)
    (g rcb : Ptr) (s : St) (env : List Nat) (s' : St),
    Honours rel lib Net Global Easy Slist Busy ∧ s.heap.fin ∧ (rel → Reliable s.alloc) ∧ NetL Net Global g rcb [] s.heap ∧ (∀ op ∈ ops, good op) ∧
    runOps (exec lib g rcb) ops [] s = some (.ok ((outs, env), s')) ∧
    Runs (step rel) ([], []) ops outs (as, log) ∧ (Own (OConn Easy) env as ∗ NetL Net Global g rcb log) s'.heap

/-- from a computed run to its record -/
theorem read_report {rel : Prop} {ok : Bool} {hdr : Option Text} {body : Text} {n : Nat} {status : Int} {refuse : Nat → Bool} (hn : n * 100 ≤ maxObj)
    (hr : rel ∨ n = 0) (h1 : body.length ≤ 100) (h2 : (hdr.getD []).length ≤ 100) (hf : rel → refuse = fun _ => false)
    {ops : List Op} {outs : List (Option Out)} (hops : ∀ op ∈ ops, good op) (hl : ops.length < szMod)
    (h : report (demoLib ok hdr body n status) refuse ops = some outs) : ∃ as log, Recorded rel ops outs as log := by
  have hrel : rel → Reliable (demoSt refuse).alloc := fun k => by rw [hf k]; exact demoSt_reliable
  have H := demo_honours (rel := rel) ok hdr body n status hn hr h1 h2
  obtain ⟨outs', env, as, log, s', k1, k2, k3⟩ := histories_run H ops hops hl (demoSt refuse) demoSt_fin hrel demoSt_net
  unfold report at h
  rw [k1] at h
  obtain rfl : outs' = outs := by simpa using h
  exact ⟨as, log, _, _, _, _, _, _, _, _, _, env, s', H, demoSt_fin, hrel, demoSt_net, hops, k1, k2, k3⟩

/-- The record of a history has an entry for every request that was answered. -/
theorem request_recorded {rel : Prop} {x x' : World} {ops : List Op} {outs : List (Option Out)} (h : Runs (step rel) x ops outs x') {k i type : Nat}
    {path : Option Text} {hdrs : Option (List (Text × Text))} {content : Option Text} {len : Nat} {status : Option Val} {rhdrs : Option (List (Text × Text))}
    {rcontent : Option Text} {r : Res} (h1 : ops[k]? = some (.request i type path hdrs content len status rhdrs rcontent))
    (h2 : outs[k]? = some (some (.result r))) :
    ∃ l1 y y' evs l2, x'.2 = l1 ++ ⟨some i, .request y r y', evs⟩ :: l2 ∧ Made rel type path hdrs content len status rhdrs rcontent y := by
  have grows : ∀ {x x' : World} {ops outs}, Runs (step rel) x ops outs x' → ∃ l, x'.2 = x.2 ++ l := by
    intro x x' ops outs h
    induction h with
    | nil x => exact ⟨[], by simp⟩
    | cons h1 _ ih =>
      obtain ⟨l, hl⟩ := ih
      rcases step_cases h1 with rfl | ⟨c, evs, _, rfl⟩ | ⟨c, a', evs, _, rfl⟩ | ⟨i, a, c, a', evs, _, _, rfl⟩
      · exact ⟨l, hl⟩
      · exact ⟨_, by rw [hl]; exact List.append_assoc _ _ _⟩
      · exact ⟨_, by rw [hl]; exact List.append_assoc _ _ _⟩
      · exact ⟨_, by rw [hl]; exact List.append_assoc _ _ _⟩
  induction h generalizing k with
  | nil x => simp at h1
  | @cons x op o x1 ops os x2 hs hrest ih =>
    cases k with
    | succ k => exact ih (by simpa using h1) (by simpa using h2)
    | zero =>
      simp at h1 h2
      subst h1; subst h2
      obtain ⟨l, hl⟩ := grows hrest
      rcases hs with ⟨_, h, _⟩ | ⟨a, r', a', w', _, hr, ⟨y, p, rh, rcb, r2, y', evs, hm, _, _, _, ho, rfl⟩, rfl⟩
      · cases h
      · cases hr; cases ho
        exact ⟨x.2, y, y', evs, l, by rw [hl]; simp, hm⟩

/-! ### what an ordinary history gives -/

/-- a `POST` with a header, and a `GET` with content, to one host; the response body comes in two pieces -/
def sample : List Op :=
  [.init, .create (some (text "h")), .setOption 0 (some (text "timeout")) (some 5),
   .request 0 1 (some (text "/p")) (some [(text "A", text "b")]) (some (text "xy")) 0 (some .undef) none (some (text "old")),
   .request 0 0 (some (text "/q")) (some []) (some (text "z")) 0 (some .undef) none (some []), .clone (some (text "timeout")) (some 5) true, .close 0, .deinit]
def sampleOuts : List (Option Out) :=
  [some (.result .ok), some .handle, some (.result .ok), some (.result .ok), some (.result .ok), some (.result .ok), some .done, some .done]

theorem sample_good : ∀ op ∈ sample, good op := by
  simp [sample, good, okText, Ex.okPairs, Ex.okBytes, text, NoNul, maxObj]

theorem sample_run : report (demoLib true none (text "ab") 2 200) (fun _ => false) sample = some sampleOuts := by decide +kernel

/-- the hypotheses of the theorems about histories are met by a run in which requests succeed -/
theorem sample_recorded : ∃ as log, Recorded True sample sampleOuts as log :=
  read_report (by decide) (Or.inl trivial) (by decide) (by decide) (fun _ => rfl) sample_good (by decide) sample_run

/-! ### what the code does wrong -/

/-- C66: a `GET` with content is sent as a `POST`: in every history -/
theorem get_becomes_post {rel : Prop} {ops : List Op} {outs : List (Option Out)} {as : List (Option Obj)} {log : Log}
    (h : Runs (step rel) ([], []) ops outs (as, log)) {l1 l2 : Log} {p : Option Nat} {x x' : Args} {r : Res} {evs : List Ev}
    (hl : log = l1 ++ ⟨p, .request x r x', evs⟩ :: l2) (ht : x.type = 0) (hc : x.content.getD [] ≠ []) {c : Nat} {q : Request} (hq : .perform c q ∈ evs) :
    q.verb = text "POST" := by
  obtain ⟨i, y, r', y', host, _, he, _, ⟨path, hs, _, _, _, hv, _⟩, _⟩ := request_faithful h hl hq
  cases he
  rw [hv, ht]
  unfold verbOf Args.body
  simp [hc]

/-- … and such histories exist -/
theorem get_becomes_post_run : ∃ as log l1 l2 p x x' evs c q, Recorded True sample sampleOuts as log ∧ log = l1 ++ ⟨p, .request x .ok x', evs⟩ :: l2 ∧ x.type = 0 ∧
    .perform c q ∈ evs ∧ q.verb = text "POST" := by
  obtain ⟨as, log, R⟩ := sample_recorded
  have R' := R
  obtain ⟨_, _, _, _, _, _, _, _, _, _, _, _, _, _, _, _, _, hr, _⟩ := R'
  obtain ⟨l1, y, y', evs, l2, hl, hm⟩ := request_recorded hr (k := 4) rfl rfl
  have ho := (request_once hr hl).2 rfl
  obtain ⟨e, he, hp⟩ := List.countP_pos_iff.1 (by rw [ho.1]; exact Nat.one_pos)
  cases e with
  | perform c q =>
    refine ⟨as, log, l1, l2, _, y, y', evs, c, q, R, hl, hm.1, he, get_becomes_post hr hl hm.1 ?_ he⟩
    rw [hm.2.2.2.1]; decide
  | _ => simp [Ev.isPerform] at hp

/-- C66: a header whose value is blank is not sent. -/
theorem blank_dropped : (allLines [(text "A", []), (text "B", text "c")]).filter shown = [text "B: c"] := by decide +kernel

/-- C70: If memory for the host name is refused, the result of `HTTPAPI_CreateConnection` is not `NULL`, and closing it is undefined:
its fields were never set.  For every libcurl. -/
theorem null_handle (lib : Lib) :
    outcome (do
      let h ← HTTPAPI_CreateConnection lib (.str [104])
      if h = 0 then pure () else HTTPAPI_CloseConnection lib h) (St.start fun t _ _ => if t = 1 then 0 else 100)
    = some (.error (.ub "pointer read of a slot that holds no pointer")) := by rfl

/-- a request for which the buffer holds `old` before: the result, and what the buffer holds afterwards -/
def fetch (lib : Lib) (old : Text) : M (Res × Option Block) := do
  let h ← HTTPAPI_CreateConnection lib (.str (text "h"))
  let q ← Headers.HTTPHeaders_Alloc
  let b ← Buffer.BUFFER_create (.lit old) old.length
  let r ← HTTPAPI_ExecuteRequest lib 1003 h 0 (.str (text "/")) q .null 0 0 0 b
  let n ← Buffer.BUFFER_length b
  let p ← Buffer.BUFFER_u_char b
  let t ← loadN p 0 n
  pure (r, t)

/-- C67: both pieces of the body are received. -/
example : outcome (fetch (demoLib true none (text "ab") 2 200) (text "old")) (demoSt fun _ => false) = some (.ok (.ok, some (bytesV (text "abab")))) := by
  decide +kernel

/-- C67: After a response with an empty body the buffer still holds the body of an earlier response, although the result is `HTTPAPI_OK`. -/
theorem stale_content : outcome (fetch (demoLib true none [] 0 200) (text "old")) (demoSt fun _ => false) = some (.ok (.ok, some (bytesV (text "old")))) := by
  decide +kernel

/-- C67: If memory to store the body is refused, the result still is `HTTPAPI_OK`. -/
theorem masked_failure : outcome (fetch (demoLib true none (text "ab") 2 200) (text "old")) (demoSt (· == 11)) = some (.ok (.ok, some (bytesV (text "old")))) := by
  decide +kernel

/-- C67: If memory for a later piece of the body is refused, what was received is released twice. -/
theorem released_twice : outcome (fetch (demoLib true none (text "ab") 2 200) (text "old")) (demoSt (· == 10)) = some (.error (.ub "free of a block that is not live")) := by
  decide +kernel

/-! ### response headers

The loops with a number of steps unfolded, so that runs can be computed. -/

def skipF : Nat → Ptr → Nat → M Nat
  | 0, p, i => skipDelims p i
  | n + 1, p, i => do
    let c ← loadByte p i
    if isDelim c then skipF n p (i + 1) else pure i
theorem skipF_eq : ∀ n p i, skipF n p i = skipDelims p i
  | 0, _, _ => rfl
  | n + 1, p, i => by rw [skipDelims]; unfold skipF; simp only [skipF_eq n]

def tokenEndF : Nat → Ptr → Nat → M Nat
  | 0, p, i => tokenEnd p i
  | n + 1, p, i => do
    let c ← loadByte p i
    if c = 0 ∨ isDelim c then pure i else tokenEndF n p (i + 1)
theorem tokenEndF_eq : ∀ n p i, tokenEndF n p i = tokenEnd p i
  | 0, _, _ => rfl
  | n + 1, p, i => by rw [tokenEnd]; unfold tokenEndF; simp only [tokenEndF_eq n]

def strchrF : Nat → Ptr → UInt8 → Nat → M (Option Nat)
  | 0, p, ch, i => strchr p ch i
  | n + 1, p, ch, i => do
    let c ← loadByte p i
    if c = ch then pure (some i) else if c = 0 then pure none else strchrF n p ch (i + 1)
theorem strchrF_eq : ∀ n p ch i, strchrF n p ch i = strchr p ch i
  | 0, _, _, _ => rfl
  | n + 1, p, ch, i => by rw [strchr]; unfold strchrF; simp only [strchrF_eq n]

def strtokF (n : Nat) (p : Ptr) (i : Nat) : M (Option Nat × Nat) := do
  let b ← skipF n p i
  let c ← loadByte p b
  if c = 0 then pure (none, b)
  else do
    let e ← tokenEndF n p b
    let c ← loadByte p e
    if c = 0 then pure (some b, e)
    else do
      store p e (.byte 0)
      pure (some b, e + 1)
theorem strtokF_eq (n : Nat) (p : Ptr) (i : Nat) : strtokF n p i = strtok p i := by unfold strtokF strtok; simp only [skipF_eq, tokenEndF_eq]

def addLineF (n : Nat) (h p token : Ptr) : M Unit := do
  let w ← strchrF n p 58 token
  match w with
  | some whereIsColon => do
    store p whereIsColon (.byte 0)
    let _ ← Headers.HTTPHeaders_AddHeaderNameValuePair h (.heap p token) (.heap p (whereIsColon + 1))
    store p whereIsColon (.byte 58)
  | none => pure ()
theorem addLineF_eq (n : Nat) (h p token : Ptr) : addLineF n h p token = addLine h p token := by unfold addLineF addLine; rw [strchrF_eq]; rfl

def tokenLoopF (m : Nat) : Nat → Ptr → Ptr → Option Nat × Nat → M Unit
  | 0, h, p, t => tokenLoop h p t
  | n + 1, h, p, t => do
    match t.1 with
    | none => pure ()
    | some token => do
      let c ← loadByte p token
      if c ≠ 0 then do
        addLineF m h p token
        let t ← strtokF m p t.2
        tokenLoopF m n h p t
      else pure ()
theorem tokenLoopF_eq (m : Nat) : ∀ n h p t, tokenLoopF m n h p t = tokenLoop h p t
  | 0, _, _, _ => rfl
  | n + 1, h, p, t => by rw [tokenLoop]; unfold tokenLoopF; simp only [tokenLoopF_eq m n, addLineF_eq, strtokF_eq]; rfl

def headersF (m : Nat) (ptr : Ptr) (size nmemb : Nat) (userdata : Ptr) : M Nat := do
  if ptr ≠ 0 then do
    let t ← strtokF m ptr 0
    tokenLoopF m m userdata ptr t
    pure ((size * nmemb) % szMod)
  else pure ((size * nmemb) % szMod)
theorem headersF_eq (m : Nat) : headersF m = HeadersWriteFunction := by
  funext p s n u
  unfold headersF HeadersWriteFunction
  simp only [tokenLoopF_eq, strtokF_eq]

/-- the piece `bs` of the response headers is given to `write`: what it returns, how many headers there are, and the first one -/
def headersRun (write : Ptr → Nat → Nat → Ptr → M Nat) (bs : Text) : M (Nat × Option Nat × Option Text) := do
  let h ← Headers.HTTPHeaders_Alloc
  let p ← malloc (bs.length + 1)
  storeN p 0 (bytesV bs ++ [.byte 0])
  let r ← write p 1 bs.length h
  let n ← Headers.HTTPHeaders_GetHeaderCount h true
  let g ← Headers.HTTPHeaders_GetHeader h 0 true
  match g.2 with
  | some q => do
    let t ← cstr (.heap q 0)
    pure (r, n.2, some t)
  | none => pure (r, n.2, none)

/-- C67: a header of the response is stored -/
example : outcome (headersRun HeadersWriteFunction (text "A: b\r\n")) (demoSt fun _ => false) = some (.ok (6, some 1, some (text "A: b"))) := by
  rw [← headersF_eq 8]; decide +kernel

/-- C67: If memory to store a header of the response is refused, the function reports to libcurl that all went well, so the request goes on. -/
theorem header_lost : outcome (headersRun HeadersWriteFunction (text "A: b\r\n")) (demoSt fun t => t ≥ 3) = some (.ok (6, some 0, none)) := by
  rw [← headersF_eq 8]; decide +kernel

end Verif.Curl
