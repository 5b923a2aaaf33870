import Verif.Ti.Ledger
import Verif.Curl.Demo
/-!
# A library that meets the contract of `Honours`, and runs of the code on it

The theorems about histories are not vacuous; the runs at the end show what the partial theorems leave out.
-/
set_option linter.unusedSimpArgs false
set_option linter.unusedVariables false
namespace Verif.Ti
open Verif.Headers (Hdrs HTTPHeaders_AddHeaderNameValuePair HTTPHeaders_GetHeader)
open Verif.Buffer (Content)
open Verif.Curl (Args peel freshAt strchrF strchrF_eq strchr)
open Verif.Sas (text)
open Verif.Map (okText)

/-- what the demo answers: `nh` times the header `hdr`, `nb` times the bytes `body`; the body ends with an error if `bad` -/
structure Plan where
  hdr : Text
  nh : Nat
  body : Text
  nb : Nat
  bad : Bool := false

def heldStep (b : Bool) : Ev → Bool
  | .create c => b || c == 77
  | .delete c => b && c != 77
  | _ => b
def held (tr : List Ev) : Bool := tr.foldl heldStep false
def flag (b : Bool) : Nat := match b with | true => 1 | false => 0
/-- 1001: pieces left -/
def Pieces (n : Nat) : HProp := ∃∃ h b : Nat, (n = h + b) ⋏ 1001 ↦ [.int h, .int b]
def Scratch : HProp := ∃∃ a b : Val, 1001 ↦ [a, b]
def Spare (b : Bool) : HProp := match b with | true => emp | false => Scratch
/-- 1000: whether the only client is taken, and the length of the body so far -/
def demoNet (tr : List Ev) : HProp := (lineSoFar 77 tr = [] ∧ (bodySoFar 77 tr).length < 2 ^ 31) ⋏ 1000 ↦ [.int (flag (held tr)), .int (bodySoFar 77 tr).length] ∗ Spare (held tr)
def demoCli (c n : Nat) : HProp := (c = 77) ⋏ Pieces n

def demoLib (d : Plan) : Lib where
  initSockAddr _ := pure (0, 5)
  create := do
    let f ← loadInt 1000 0
    if f = 0 then do
      store 1000 0 (.int 1)
      storeN 1001 0 [.int 0, .int 0]
      pure 77
    else pure 0
  connect _ _ _ := pure 0
  disconnect _ := pure ()
  delete _ := store 1000 0 (.int 0)
  sendRequest _ _ _ := pure 0
  sendField _ _ _ _ := pure 0
  sendRequestBody _ _ _ := pure 0
  getResponseStatus _ := do
    storeN 1001 0 [.int d.nh, .int d.nb]
    store 1000 1 (.int 0)
    pure 200
  readResponseHeader _ buf _ := do
    let h ← loadInt 1001 0
    if h = 0 then pure (0, false) else do
    storeN buf 0 (bytesV (d.hdr ++ [0]))
    store 1001 0 (.int (h - 1))
    pure (((d.hdr ++ [0]).length : Int), false)
  readResponseBody _ buf _ := do
    let b ← loadInt 1001 1
    let l ← loadInt 1000 1
    if b = 0 ∨ 2 ^ 31 < l + 200 then pure (if d.bad then -1 else 0, false) else do
    storeN buf 0 (bytesV d.body)
    store 1001 1 (.int (b - 1))
    store 1000 1 (.int (l + d.body.length))
    pure ((d.body.length : Int), true)

theorem held_snoc {tr : List Ev} {e : Ev} : held (tr ++ [e]) = heldStep (held tr) e := by simp [held]
theorem demoNet_eq {tr : List Ev} : demoNet tr = ((lineSoFar 77 tr = [] ∧ (bodySoFar 77 tr).length < 2 ^ 31) ⋏ 1000 ↦ [.int (flag (held tr)), .int (bodySoFar 77 tr).length] ∗ Spare (held tr)) := rfl

/-- a call that changes nothing in the demo -/
theorem demoNet_same {tr : List Ev} {e : Ev} (h1 : ∀ t, lineStep 77 t e = t) (h2 : ∀ t, bodyStep 77 t e = t) (h3 : ∀ b, heldStep b e = b) : demoNet (tr ++ [e]) = demoNet tr := by
  rw [demoNet_eq, demoNet_eq, lineSoFar_snoc, bodySoFar_snoc, held_snoc, h1, h2, h3]

theorem demo_honours {rel : Prop} (d : Plan) (hn : NoNul d.hdr) (h1 : d.hdr.length ≤ 100) (h2 : d.body.length ≤ 100) :
    Honours rel (demoLib d) demoNet demoCli where
  initSockAddr s t tr := Triple.pure (by rw [demoNet_same (fun _ => rfl) (fun _ => rfl) fun _ => rfl]; exact entails_refl _)
  create tr := by
    simp only [demoLib]
    rw [demoNet_eq]; hoist; intro hl hL
    stepd (loadInt_spec (p := 1000) (n := flag (held tr)) ?_)
    cases hh : held tr with
    | true =>
      rw [if_neg (by simp [flag])]
      refine Triple.pure ?_
      rw [if_pos rfl, sep_emp, demoNet_same (fun _ => rfl) (fun _ => rfl) (fun b => by simp [heldStep]), demoNet_eq, hh]
      exact entails_pand_r (entails_refl _) ⟨hl, hL⟩
    | false =>
      rw [if_pos (show flag false = 0 from rfl)]
      stepd (store_spec (p := 1000) ?_)
      simp only [Spare, Scratch]; hoist; intro a b
      stepd (storeN_spec (p := 1001) (off := 0) (b := [a, b]) (vs := [.int 0, .int 0]) ?_)
      refine Triple.pure ?_
      rw [if_neg (by decide), demoNet_eq, lineSoFar_snoc, bodySoFar_snoc, held_snoc]
      simp only [lineStep, bodyStep, heldStep, hh, demoCli, Pieces, Spare, beq_self_eq_true, Bool.or_true, sep_emp, eq_self, true_pand]
      rw [show flag true = 1 from rfl]
      refine entails_trans (entails_of_eq (sep_comm _ _)) ?_
      rw [pand_sep]
      exact entails_pand_r (sep_mono (entails_refl _) (entails_ex_r 0 (entails_ex_r 0 (entails_ex_r 0 (entails_pand_r (entails_refl _) rfl))))) ⟨hl, hL⟩
  connect c n a p tr := Triple.pure (by rw [demoNet_same (fun _ => rfl) (fun _ => rfl) fun _ => rfl]; exact sep_mono (entails_refl _) (entails_ex_r n (entails_refl _)))
  disconnect c n tr := Triple.pure (by rw [demoNet_same (fun _ => rfl) (fun _ => rfl) fun _ => rfl]; exact sep_mono (entails_refl _) (entails_ex_r n (entails_refl _)))
  delete c n tr := by
    simp only [demoLib]
    rw [demoNet_eq, demoCli, Pieces]; hoist; intro hc h b hb hl hL
    subst hc
    have e : ∀ a b : Val, (1000 ↦ [.int 0, .int (bodySoFar 77 tr).length] ∗ Spare (held tr) ∗ 1001 ↦ [a, b]) ⊢ₕ demoNet (tr ++ [.delete 77]) := by
      intro a b
      rw [demoNet_eq, lineSoFar_snoc, bodySoFar_snoc, held_snoc]
      simp only [lineStep, bodyStep, heldStep, bne_self_eq_false, Bool.and_false]
      refine entails_pand_r (sep_mono (entails_refl _) ?_) ⟨hl, hL⟩
      have : ∀ b0, Spare b0 ∗ 1001 ↦ [a, b] ⊢ₕ Spare false := by
        intro b0
        cases b0 with
        | true => simp only [Spare, emp_sep]; exact entails_ex_r a (entails_ex_r b (entails_refl _))
        | false =>
          intro g hg
          exfalso
          simp only [Spare, Scratch, hex_sep] at hg
          obtain ⟨x, y, hg⟩ := hg
          exact know_pts2 (p := 1001) (q := 1001) (b := [x, y]) (c := [a, b]) (by pick) (by pick) g hg rfl
      exact this _
    refine Triple.conseq ((store_spec (p := 1000) (off := 0) (v := .int 0) (b := [.int (flag (held tr)), .int (bodySoFar 77 tr).length]) (by simp)).frame
      (Spare (held tr) ∗ 1001 ↦ [.int h, .int b])) (by sep_cancel) fun _ => ?_
    simp only [List.set_cons_zero]
    exact e _ _
  sendRequest c n s t s' t' tr := Triple.pure (by
    rw [demoNet_same (fun _ => rfl) (fun _ => rfl) fun _ => rfl]; exact sep_mono (entails_refl _) (sep_mono (entails_ex_r n (entails_refl _)) (entails_refl _)))
  sendField c n V s t s' t' tr _ := Triple.pure (by
    rw [demoNet_same (fun _ => rfl) (fun _ => rfl) fun _ => rfl]; exact sep_mono (entails_refl _) (sep_mono (entails_ex_r n (entails_refl _)) (entails_refl _)))
  sendLast c n tr := Triple.pure (by
    rw [demoNet_same (fun _ => rfl) (fun _ => rfl) fun _ => rfl]; exact sep_mono (entails_refl _) (entails_ex_r n (entails_refl _)))
  sendRequestBody c n p bs tr := Triple.pure (by
    rw [demoNet_same (fun _ => rfl) (fun _ => rfl) fun _ => rfl]; exact sep_mono (entails_refl _) (sep_mono (entails_ex_r n (entails_refl _)) (entails_refl _)))
  getResponseStatus c n tr := by
    simp only [demoLib]
    rw [demoNet_eq, demoCli, Pieces]; hoist; intro hc h b hb hl hL
    subst hc
    stepd (storeN_spec (p := 1001) (off := 0) (b := [.int h, .int b]) (vs := [.int d.nh, .int d.nb]) ?_)
    stepd (store_spec (p := 1000) ?_)
    refine Triple.pure ?_
    rw [demoNet_eq, lineSoFar_snoc, bodySoFar_snoc, held_snoc]
    simp only [lineStep, bodyStep, heldStep, demoCli, Pieces, if_true, eq_self, true_pand, List.length_nil]
    refine entails_trans (Q := (1000 ↦ [.int (flag (held tr)), .int 0] ∗ Spare (held tr)) ∗ 1001 ↦ [.int d.nh, .int d.nb]) (by simp only [sep_assoc]; sep_cancel) ?_
    exact sep_mono (entails_pand_r (entails_refl _) ⟨trivial, by decide⟩) (entails_ex_r (d.nh + d.nb) (entails_ex_r d.nh (entails_ex_r d.nb (entails_pand_r (entails_refl _) rfl))))
  readResponseHeader c n cb tr := by
    simp only [demoLib]
    rw [demoNet_eq, demoCli, Pieces, Array128]; hoist; intro blk hblk hc h b hb hl hL
    subst hc
    replace hblk : blk.length = 128 := hblk
    stepd (loadInt_spec (p := 1001) (n := h) ?_)
    by_cases h0 : h = 0
    · rw [if_pos h0]
      refine Triple.pure ?_
      unfold Got
      rw [if_neg (by simp)]
      refine entails_ex_r [] (entails_ex_r blk (entails_ex_r n (entails_pand_r ?_ ⟨rfl, by simpa using hblk, ⟨by simp, by simp [hl]⟩, by simp⟩)))
      rw [demoNet_eq, lineSoFar_snoc, bodySoFar_snoc, held_snoc]
      simp only [lineStep, bodyStep, heldStep, demoCli, Pieces, if_true, Bool.false_eq_true, if_false, eq_self, true_pand, bytesV, List.map_nil, List.nil_append]
      simp only [hex_sep, pand_sep, sep_hex, sep_pand, sep_assoc]
      refine entails_ex_r h (entails_ex_r b ?_)
      first
        | exact entails_pand_r (entails_pand_r (by sep_cancel) hb) ⟨trivial, hL⟩
        | exact entails_pand_r (entails_pand_r (by sep_cancel) ⟨trivial, hL⟩) hb
    · rw [if_neg h0]
      step (storeN_spec (p := cb) (off := 0) (b := blk) (vs := bytesV (d.hdr ++ [0])) (by simp [bytesV, hblk]; omega))
      stepd (store_spec (p := 1001) (off := 0) ?_)
      refine Triple.pure ?_
      unfold Got
      rw [if_neg (by simp; omega)]
      refine entails_ex_r (d.hdr ++ [0]) (entails_ex_r (blk.drop (d.hdr.length + 1)) (entails_ex_r (h - 1 + b) (entails_pand_r ?_ ⟨rfl, ?_, ⟨?_, ?_⟩, ?_⟩)))
      · rw [demoNet_eq, lineSoFar_snoc, bodySoFar_snoc, held_snoc]
        simp only [lineStep, bodyStep, heldStep, demoCli, Pieces, if_true, Bool.false_eq_true, if_false, eq_self, true_pand]
        simp only [hex_sep, pand_sep, sep_hex, sep_pand, sep_assoc]
        refine entails_ex_r (h - 1) (entails_ex_r b (entails_pand_r (entails_pand_r ?_ ⟨trivial, hL⟩) rfl))
        have e : List.take 0 blk ++ bytesV (d.hdr ++ [0]) ++ List.drop (0 + (bytesV (d.hdr ++ [0])).length) blk = bytesV (d.hdr ++ [0]) ++ blk.drop (d.hdr.length + 1) := by simp [bytesV]
        rw [e]
        sep_cancel
      · simp [CONTENT_BUF_LEN]; omega
      · exact .inr ⟨d.hdr, rfl, hn⟩
      · rw [hl]; simp; omega
      · intro _; omega
  readResponseBody c n cb tr := by
    simp only [demoLib]
    rw [demoNet_eq, demoCli, Pieces, Array128]; hoist; intro blk hblk hc h b hb hl hL
    subst hc
    replace hblk : blk.length = 128 := hblk
    stepd (loadInt_spec (p := 1001) (n := b) ?_)
    stepd (loadInt_spec (p := 1000) (n := (bodySoFar 77 tr).length) ?_)
    by_cases h0 : b = 0 ∨ 2 ^ 31 < (bodySoFar 77 tr).length + 200
    · rw [if_pos h0]
      refine Triple.pure ?_
      unfold Got
      cases d.bad with
      | true =>
        simp only [if_true]
        rw [if_pos (by decide), demoNet_eq, lineSoFar_snoc, bodySoFar_snoc, held_snoc]
        simp only [lineStep, bodyStep, heldStep, demoCli, Pieces, if_true, eq_self, true_pand, Array128]
        simp only [hex_sep, pand_sep, sep_hex, sep_pand, sep_assoc]
        exact entails_ex_r blk (entails_pand_r (entails_ex_r n (entails_ex_r h (entails_ex_r b (entails_pand_r (entails_pand_r (by sep_cancel) ⟨hl, hL⟩) hb)))) hblk)
      | false =>
        simp only [Bool.false_eq_true, if_false]
        rw [if_neg (by simp)]
        refine entails_ex_r [] (entails_ex_r blk (entails_ex_r n (entails_pand_r ?_ ⟨rfl, by simpa using hblk, ?_, by simp⟩)))
        · rw [demoNet_eq, lineSoFar_snoc, bodySoFar_snoc, held_snoc]
          simp only [lineStep, bodyStep, heldStep, demoCli, Pieces, if_true, List.append_nil, eq_self, true_pand, bytesV, List.map_nil, List.nil_append]
          simp only [hex_sep, pand_sep, sep_hex, sep_pand, sep_assoc]
          refine entails_ex_r h (entails_ex_r b ?_)
          first
            | exact entails_pand_r (entails_pand_r (by sep_cancel) hb) ⟨hl, hL⟩
            | exact entails_pand_r (entails_pand_r (by sep_cancel) ⟨hl, hL⟩) hb
        · rw [List.append_nil]; exact hL
    · rw [if_neg h0]
      have hlt : (bodySoFar 77 tr).length + d.body.length < 2 ^ 31 := by omega
      step (storeN_spec (p := cb) (off := 0) (b := blk) (vs := bytesV d.body) (by simp [bytesV, hblk]; omega))
      stepd (store_spec (p := 1001) (off := 1) ?_)
      stepd (store_spec (p := 1000) (off := 1) ?_)
      refine Triple.pure ?_
      unfold Got
      rw [if_neg (by simp)]
      refine entails_ex_r d.body (entails_ex_r (blk.drop d.body.length) (entails_ex_r (h + (b - 1)) (entails_pand_r ?_ ⟨rfl, ?_, ?_, ?_⟩)))
      · rw [demoNet_eq, lineSoFar_snoc, bodySoFar_snoc, held_snoc]
        simp only [lineStep, bodyStep, heldStep, demoCli, Pieces, if_true, eq_self, true_pand, List.length_append]
        simp only [hex_sep, pand_sep, sep_hex, sep_pand, sep_assoc]
        have e : List.take 0 blk ++ bytesV d.body ++ List.drop (0 + (bytesV d.body).length) blk = bytesV d.body ++ blk.drop d.body.length := by simp [bytesV]
        rw [e]
        refine entails_ex_r h (entails_ex_r (b - 1) ?_)
        exact entails_pand_r (entails_pand_r (by sep_cancel) ⟨hl, hlt⟩) rfl
      · simp [CONTENT_BUF_LEN]; omega
      · simp only [List.length_append]; exact hlt
      · intro _; omega

/-! ## Runs of the code on the demo -/

/-- memory of the demo: the library's two blocks and the automatic array (1003); allocation number `t` is refused if `refuse t` -/
noncomputable def demoSt (refuse : Nat → Bool) : St :=
  { heap := fun p => if p = 1000 then some [.int 0, .int 0] else if p = 1001 then some [.undef, .undef] else
      if p = 1003 then some (List.replicate 128 .undef) else none,
    alloc := fun t h _ => if refuse t then 0 else freshAt t h, tick := 0 }

theorem demoSt_fin {f : Nat → Bool} : (demoSt f).heap.fin := ⟨1004, fun p hp => by
  have h1 : p ≠ 1000 := by omega
  have h2 : p ≠ 1001 := by omega
  have h4 : p ≠ 1003 := by omega
  simp [demoSt, h1, h2, h4]⟩

theorem demoSt_reliable : Reliable (demoSt fun _ => false).alloc := Curl.demoSt_reliable

theorem demoSt_net {f : Nat → Bool} : NetL demoNet 1003 [] (demoSt f).heap := by
  have key : (1000 ↦ [.int 0, .int 0] ∗ 1001 ↦ [.undef, .undef] ∗ 1003 ↦ (List.replicate 128 .undef) ∗ emp) (demoSt f).heap := by
    refine peel rfl ⟨by decide, by decide, rfl⟩ (peel rfl ⟨by decide, by decide, rfl⟩ (peel rfl ⟨by decide, by simp [maxObj], rfl⟩ ?_))
    funext p
    simp only [demoSt]
    by_cases h1 : p = 1000
    · subst h1; rfl
    by_cases h2 : p = 1001
    · subst h2; rfl
    by_cases h4 : p = 1003
    · subst h4; rfl
    simp [h1, h2, h4, Heap.empty]
  refine (?_ : _ ⊢ₕ _) _ key
  rw [NetL_eq, demoNet]
  have e1 : trace [] = [] := rfl
  have e2 : lost [] = 0 := rfl
  have e3 : held [] = false := rfl
  have e4 : bodySoFar 77 [] = [] := rfl
  have e5 : lineSoFar 77 [] = [] := rfl
  rw [e1, e2, e3, e4, e5, Lost_zero]
  simp only [Array128, Scratch, Spare, hex_sep, sep_hex, pand_sep, sep_pand, sep_assoc, sep_emp, flag, List.length_nil]
  exact entails_ex_r (List.replicate 128 .undef) (entails_pand_r (entails_pand_r (entails_ex_r Val.undef (entails_ex_r Val.undef (entails_refl _)))
    ⟨trivial, by decide⟩) (by simp))

/-- what a run returns -/
noncomputable def report (ex : Op → List Nat → M (Option Out × List Nat)) (refuse : Nat → Bool) (ops : List Op) : Option (List (Option Out)) :=
  match runOps ex ops [] (demoSt refuse) with
  | some (.ok ((outs, _), _)) => some outs
  | _ => none

/-- `log` is the record of a run of the code on a library that meets the contract -/
def Recorded (rel : Prop) (ops : List Op) (outs : List (Option Out)) (as : List (Option Nat)) (log : Log) : Prop :=
  ∃ (lib : Lib) (Net : List Ev → HProp) (Cli : Nat → Nat → HProp) (cb : Ptr) (s : St) (env : List Nat) (s' : St),
    Honours rel lib Net Cli ∧ s.heap.fin ∧ (rel → Reliable s.alloc) ∧ NetL Net cb [] s.heap ∧ (∀ op ∈ ops, good op) ∧
    runOps (exec lib cb) ops [] s = some (.ok ((outs, env), s')) ∧
    Runs (step rel) ([], []) ops outs (as, log) ∧ (Own (OConn Cli) env as ∗ NetL Net cb log) s'.heap

/-- from a computed run to its record -/
theorem read_report {rel : Prop} {d : Plan} {refuse : Nat → Bool} (hn : NoNul d.hdr) (h1 : d.hdr.length ≤ 100) (h2 : d.body.length ≤ 100)
    (hf : rel → refuse = fun _ => false) {ops : List Op} {outs : List (Option Out)} (hops : ∀ op ∈ ops, good op)
    (h : report (exec (demoLib d) 1003) refuse ops = some outs) : ∃ as log, Recorded rel ops outs as log := by
  have hrel : rel → Reliable (demoSt refuse).alloc := fun k => by rw [hf k]; exact demoSt_reliable
  have H := demo_honours (rel := rel) d hn h1 h2
  obtain ⟨outs', env, as, log, s', k1, k2, k3⟩ := histories_run H ops hops (demoSt refuse) demoSt_fin hrel demoSt_net
  unfold report at h
  rw [k1] at h
  obtain rfl : outs' = outs := by simpa using h
  exact ⟨as, log, _, _, _, _, _, env, s', H, demoSt_fin, hrel, demoSt_net, hops, k1, k2, k3⟩

/-! ### The code with `m` steps of every loop unfolded, so that runs can be computed -/

def skipSpacesF : Nat → Ptr → Nat → M Nat
  | 0, p, i => skipSpaces p i
  | n + 1, p, i => do
    let c ← loadByte p i
    if c = 32 then skipSpacesF n p (i + 1) else pure i
theorem skipSpacesF_eq : ∀ n p i, skipSpacesF n p i = skipSpaces p i
  | 0, _, _ => rfl
  | n + 1, p, i => by rw [skipSpaces]; unfold skipSpacesF; simp only [skipSpacesF_eq n]

section
variable (m : Nat) (lib : Lib)

def splitHeaderF (headerName : Ptr) : M (Option Nat) := do
  let w ← strchrF m headerName 58 0
  match w with
  | none => pure none
  | some i => do
    store headerName i (.byte 0)
    let v ← skipSpacesF m headerName (i + 1)
    pure (some v)
theorem splitHeaderF_eq : splitHeaderF m = splitHeader := by
  funext p; unfold splitHeaderF splitHeader; simp only [strchrF_eq, skipSpacesF_eq]; rfl

def sendHeaderF (cli : Nat) (hname : Ptr) : M Int := do
  let v ← splitHeaderF m hname
  match v with
  | none => do
    free hname
    pure (-1)
  | some hvalue => do
    let ret ← lib.sendField cli (.heap hname 0) (.heap hname hvalue) false
    free hname
    pure ret
theorem sendHeaderF_eq : sendHeaderF m = sendHeader := by
  funext lib c p; unfold sendHeaderF sendHeader; simp only [splitHeaderF_eq]; rfl

def sendHeadersF (cli : Nat) (headers : Ptr) : Nat → M Res
  | 0 => pure .ok
  | cnt + 1 => do
    let x ← Headers.HTTPHeaders_GetHeader headers cnt true
    match x with
    | (.ok, some hname) => do
      let ret ← sendHeaderF m lib cli hname
      if ret < 0 then pure .sendRequestFailed else sendHeadersF cli headers cnt
    | _ => pure .queryHeadersFailed
theorem sendHeadersF_eq (c : Nat) (h : Ptr) : ∀ n, sendHeadersF m lib c h n = sendHeaders lib c h n
  | 0 => rfl
  | n + 1 => by unfold sendHeadersF sendHeaders; simp only [sendHeadersF_eq c h n, sendHeaderF_eq]; rfl

def addHeaderF (responseHeaders hname : Ptr) : M Res := do
  let v ← splitHeaderF m hname
  match v with
  | none => pure .httpHeadersFailed
  | some hvalue => do
    let r ← HTTPHeaders_AddHeaderNameValuePair responseHeaders (.heap hname 0) (.heap hname hvalue)
    if r ≠ .ok then pure .httpHeadersFailed else pure .ok
theorem addHeaderF_eq : addHeaderF m = addHeader := by
  funext c p; unfold addHeaderF addHeader; simp only [splitHeaderF_eq]; rfl

def headerLoopF : Nat → Nat → Ptr → Ptr → Ptr → Nat → Nat → M (Ptr × Res)
  | 0, cli, responseHeaders, contentBuf, hname, cnt, offset => headerLoop lib cli responseHeaders contentBuf hname cnt offset
  | n + 1, cli, responseHeaders, contentBuf, hname, cnt, offset => do
    let x ← lib.readResponseHeader cli contentBuf CONTENT_BUF_LEN
    if x.1 < 0 then pure (hname, .receiveResponseFailed)
    else if x.1 = 0 then pure (hname, .ok)
    else if intMax < offset + x.1.toNat then ub "signed overflow"
    else do
    let g ← grow hname cnt (offset + x.1.toNat)
    match g with
    | none => pure (0, .allocFailed)
    | some (hname, cnt) => do
      memcpy hname offset (.heap contentBuf 0) x.1.toNat
      if x.2 then headerLoopF n cli responseHeaders contentBuf hname cnt (offset + x.1.toNat) else do
      let e ← addHeaderF m responseHeaders hname
      if e ≠ .ok then pure (hname, e) else headerLoopF n cli responseHeaders contentBuf hname cnt 0
theorem headerLoopF_eq : ∀ n c r b h k o, headerLoopF m lib n c r b h k o = headerLoop lib c r b h k o
  | 0, _, _, _, _, _, _ => rfl
  | n + 1, c, r, b, h, k, o => by rw [headerLoop]; unfold headerLoopF; simp only [headerLoopF_eq n, addHeaderF_eq]; rfl

def bodyLoopF : Nat → Nat → Ptr → Ptr → Nat → M Int
  | 0, cli, responseContent, contentBuf, offset => bodyLoop lib cli responseContent contentBuf offset
  | n + 1, cli, responseContent, contentBuf, offset => do
    let x ← lib.readResponseBody cli contentBuf CONTENT_BUF_LEN
    if x.1 < 0 then pure (code .receiveResponseFailed)
    else if x.1 ≠ 0 then do
      let ret ← storePiece responseContent contentBuf x.1.toNat offset
      if ret ≠ 0 then pure ret
      else if intMax < offset + x.1.toNat then ub "signed overflow"
      else if x.2 then bodyLoopF n cli responseContent contentBuf (offset + x.1.toNat) else pure 0
    else if x.2 then bodyLoopF n cli responseContent contentBuf offset else pure 0
theorem bodyLoopF_eq : ∀ n c r b o, bodyLoopF lib n c r b o = bodyLoop lib c r b o
  | 0, _, _, _, _ => rfl
  | n + 1, c, r, b, o => by rw [bodyLoop]; unfold bodyLoopF; simp only [bodyLoopF_eq n]

def readBodyF (cli : Nat) (contentBuf responseContent : Ptr) : M Res := do
  if responseContent ≠ 0 then do
    let ret ← bodyLoopF lib m cli responseContent contentBuf 0
    if ret < 0 then do
      let _ ← Buffer.BUFFER_unbuild responseContent
      pure (ofCode ret)
    else pure .ok
  else pure .ok
theorem readBodyF_eq : readBodyF m = readBody := by
  funext lib c b r; unfold readBodyF readBody; simp only [bodyLoopF_eq]

def receiveF (cli : Nat) (contentBuf statusCode responseHeaders responseContent : Ptr) : M Res := do
  let ret ← lib.getResponseStatus cli
  if ret < 0 then pure .receiveResponseFailed else do
  store statusCode 0 (.int ret.toNat)
  let x ← headerLoopF m lib m cli responseHeaders contentBuf 0 0 0
  free x.1
  if x.2 ≠ .ok then pure x.2 else
  readBodyF m lib cli contentBuf responseContent
theorem receiveF_eq : receiveF m = receive := by
  funext lib c b s r rc; unfold receiveF receive; simp only [readBodyF_eq, headerLoopF_eq]

def sendF (cli : Nat) (requestType : Nat) (relativePath : CharPtr) (headers : Ptr) (cnt : Nat) (content : CharPtr) (contentLength : Nat) : M Res := do
  let ret ← lib.sendRequest cli (getHttpMethod requestType) relativePath
  if ret < 0 then pure .sendRequestFailed else do
  let r ← sendHeadersF m lib cli headers cnt
  if r ≠ .ok then pure r else do
  let ret ← lib.sendField cli .null .null true
  if ret < 0 then pure .sendRequestFailed else do
  if content ≠ .null ∧ contentLength ≠ 0 then do
    let ret ← lib.sendRequestBody cli content contentLength
    if ret < 0 then pure .sendRequestFailed else pure .ok
  else pure .ok
theorem sendF_eq : sendF m = send := by
  funext lib c t p h n k l; unfold sendF send; simp only [sendHeadersF_eq]

def ExecuteRequestF (contentBuf : Ptr) (handle : Nat) (requestType : Nat) (relativePath : CharPtr) (httpHeadersHandle : Ptr) (content : CharPtr)
    (contentLength : Nat) (statusCode responseHeadersHandle responseContent : Ptr) : M Res := do
  storeN contentBuf 0 (List.replicate CONTENT_BUF_LEN (.byte 0))
  if handle = 0 ∨ getHttpMethod requestType = .null ∨ relativePath = .null ∨ statusCode = 0 ∨ responseHeadersHandle = 0 then pure .invalidArg
  else do
  let x ← Headers.HTTPHeaders_GetHeaderCount httpHeadersHandle true
  match x with
  | (.ok, some cnt) => do
    let r ← sendF m lib handle requestType relativePath httpHeadersHandle cnt content contentLength
    if r ≠ .ok then pure r else
    receiveF m lib handle contentBuf statusCode responseHeadersHandle responseContent
  | _ => pure .queryHeadersFailed
theorem ExecuteRequestF_eq : ExecuteRequestF m = HTTPAPI_ExecuteRequest := by
  funext lib cb h t p hh c n s rh rc; unfold ExecuteRequestF HTTPAPI_ExecuteRequest; simp only [sendF_eq, receiveF_eq]; rfl

def requestOneF (cb h : Ptr) (type : Nat) (path : Option Text) (hdrs : Option (List (Text × Text))) (content : Option Text) (len : Nat)
    (status : Option Val) (rhdrs : Option (List (Text × Text))) (rcontent : Option Text) : M Res := do
  let hq ← Ex.mkHeaders hdrs
  let st ← Ex.mkStatus status
  let hr ← Ex.mkHeaders rhdrs
  let cr ← Ex.mkBuffer rcontent
  let r ← ExecuteRequestF m lib cb h type (Map.lit path) hq (Curl.dat content) (match content with | some bs => bs.length | none => len) st hr cr
  Headers.HTTPHeaders_Free hq
  free st
  Headers.HTTPHeaders_Free hr
  Buffer.BUFFER_delete cr
  pure r
theorem requestOneF_eq : requestOneF m = requestOne := by
  funext lib cb h t p hh c n s rh rc; unfold requestOneF requestOne; simp only [ExecuteRequestF_eq]; rfl

def execF (cb : Ptr) (op : Op) (env : List Nat) : M (Option Out × List Nat) :=
  match op with
  | .request i type path hdrs content len status rhdrs rcontent => on1 env i fun h => do
    let r ← requestOneF m lib cb h type path hdrs content len status rhdrs rcontent
    pure (some (.result r), env)
  | op => exec lib cb op env
theorem execF_eq : execF m = exec := by
  funext lib cb op env; unfold execF; simp only [requestOneF_eq]; cases op <;> rfl
end

/-! ### what an ordinary history gives -/

/-- a `POST` with two headers, and a `GET`, to one host; the response has a header, and a body in two pieces -/
def sample : List Op :=
  [.init, .create (text "h"), .setOption 0 (some (text "timeout")),
   .request 0 1 (some (text "/p")) (some [(text "A", text "b"), (text "C", text "d")]) (some (text "xy")) 0 (some .undef) (some []) (some []),
   .request 0 0 (some (text "/q")) (some []) none 0 (some .undef) (some []) (some []), .clone (some (text "timeout")), .close 0, .deinit]
def sampleOuts : List (Option Out) :=
  [some (.result .ok), some .handle, some (.result .invalidArg), some (.result .ok), some (.result .ok), some (.result .invalidArg), some .done, some .done]

theorem sample_good : ∀ op ∈ sample, good op := by
  simp [sample, good, okText, Ex.okPairs, Ex.okBytes, text, NoNul, maxObj]
  rintro a b (⟨rfl, rfl⟩ | ⟨rfl, rfl⟩) <;> simp

def samplePlan : Plan := { hdr := text "E: f", nh := 1, body := text "ab", nb := 2 }

theorem sample_run : report (exec (demoLib samplePlan) 1003) (fun _ => false) sample = some sampleOuts := by
  rw [← execF_eq 8]; decide +kernel

/-- the hypotheses of the theorems about histories are met by a run in which requests succeed -/
theorem sample_recorded : ∃ as log, Recorded True sample sampleOuts as log :=
  read_report (by decide) (by decide) (by decide) (fun _ => rfl) sample_good sample_run

/-! ### what the code does wrong -/

/-- a request for which the buffer holds `old` before: the result, the value of the first response header named `E`, and what the buffer holds
afterwards -/
def fetch (ex : Lib → Ptr → Nat → Nat → CharPtr → Ptr → CharPtr → Nat → Ptr → Ptr → Ptr → M Res) (lib : Lib) (old : Text) : M (Res × Option Block) := do
  let h ← HTTPAPI_CreateConnection lib (.str (text "h"))
  let q ← Headers.HTTPHeaders_Alloc
  let st ← malloc 1
  let rh ← Headers.HTTPHeaders_Alloc
  let b ← Buffer.BUFFER_create (.lit old) old.length
  let r ← ex lib 1003 h 0 (.str (text "/")) q .null 0 st rh b
  let n ← Buffer.BUFFER_length b
  let p ← Buffer.BUFFER_u_char b
  let t ← loadN p 0 n
  pure (r, t)

/-- C87: both pieces of the body are received. -/
example : outcome (fetch HTTPAPI_ExecuteRequest (demoLib samplePlan) []) (demoSt fun _ => false) = some (.ok (.ok, some (bytesV (text "abab")))) := by
  rw [← ExecuteRequestF_eq 8]; decide +kernel

/-- C87: If the buffer is not empty before, the body is written over its beginning, and its end has bytes that were never written. -/
theorem stale_tail : outcome (fetch HTTPAPI_ExecuteRequest (demoLib samplePlan) (text "old")) (demoSt fun _ => false) =
    some (.ok (.ok, some (bytesV (text "abab") ++ [.undef, .undef, .undef]))) := by
  rw [← ExecuteRequestF_eq 8]; decide +kernel

/-- C87: If the library fails to read the body, the result still is `HTTPAPI_OK`, and the body is what had come until then. -/
theorem masked_failure : outcome (fetch HTTPAPI_ExecuteRequest (demoLib { samplePlan with bad := true }) []) (demoSt fun _ => false) =
    some (.ok (.ok, some (bytesV (text "abab")))) := by
  rw [← ExecuteRequestF_eq 8]; decide +kernel

/-- C87: If memory to store the body is refused, the result still is `HTTPAPI_OK`, and the buffer is empty. -/
theorem masked_refusal : outcome (fetch HTTPAPI_ExecuteRequest (demoLib samplePlan) []) (demoSt (· ≥ 12)) =
    some (.ok (.ok, some [])) := by
  rw [← ExecuteRequestF_eq 8]; decide +kernel

/-- the demo, but the header comes in two pieces, `E: f` and `gh` with its NUL -/
def twoPieces (nul : Bool) : Lib :=
  { demoLib samplePlan with
    readResponseHeader := fun _ buf _ => do
      let h ← loadInt 1001 0
      if h = 1 then do
        storeN buf 0 (bytesV (text "E: f"))
        store 1001 0 (.int 2)
        pure (4, true)
      else if h = 2 then do
        storeN buf 0 (bytesV (text "gh" ++ [0]))
        store 1001 0 (.int 0)
        pure (if nul then 3 else 2, false)
      else pure (0, false) }

/-- C88: a request, everything the client has is released afterwards, and the block at `p` -/
noncomputable def afterwards (ex : Lib → Ptr → Nat → Nat → CharPtr → Ptr → CharPtr → Nat → Ptr → Ptr → Ptr → M Res) (lib : Lib) (refuse : Nat → Bool) (p : Ptr) :
    Option (Res × Option Block) :=
  match (do
    let h ← HTTPAPI_CreateConnection lib (.str (text "h"))
    let q ← Headers.HTTPHeaders_Alloc
    let st ← malloc 1
    let rh ← Headers.HTTPHeaders_Alloc
    let r ← ex lib 1003 h 0 (.str (text "/")) q .null 0 st rh 0
    Headers.HTTPHeaders_Free q
    free st
    Headers.HTTPHeaders_Free rh
    HTTPAPI_CloseConnection lib h
    pure r : M Res) (demoSt refuse) with
  | some (.ok (r, s)) => some (r, s.heap p)
  | _ => none

/-- if memory is not refused, the block of the line is released -/
example : afterwards HTTPAPI_ExecuteRequest (twoPieces true) (fun _ => false) 2005 = some (.ok, none) := by
  rw [← ExecuteRequestF_eq 8]; decide +kernel

/-- C88: If the block of a header line cannot be enlarged, it is lost. -/
theorem line_lost : afterwards HTTPAPI_ExecuteRequest (twoPieces true) (· ≥ 6) 2005 = some (.allocFailed, some (bytesV (text "E: f"))) := by
  rw [← ExecuteRequestF_eq 8]; decide +kernel

/-- A library whose last piece of a line has no NUL makes the code read past the end of the line. -/
theorem needs_nul : outcome (fetch HTTPAPI_ExecuteRequest (twoPieces false) []) (demoSt fun _ => false) = some (.error (.ub "string not terminated")) := by
  rw [← ExecuteRequestF_eq 8]; decide +kernel

/-- `NULL` as host name reaches the library. -/
theorem null_host : outcome (HTTPAPI_CreateConnection { demoLib samplePlan with initSockAddr := fun s => do let _ ← strlen s; pure (0, 5) } .null)
    (demoSt fun _ => false) = some (.error (.ub "dereference of NULL")) := by decide +kernel

end Verif.Ti
