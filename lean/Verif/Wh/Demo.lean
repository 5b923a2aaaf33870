import Verif.Wh.Claims
import Verif.Curl.Demo
/-!
# A WinHTTP that meets the contract of `Honours`, and runs of the code on it

The theorems about histories are not vacuous; the runs at the end show what the partial theorems leave out.
-/
set_option linter.unusedSimpArgs false
set_option linter.unusedVariables false
namespace Verif.Wh
open Verif.Headers (Hdrs HTTPHeaders_AddHeaderNameValuePair HTTPHeaders_GetHeader)
open Verif.Buffer (Content)
open Verif.Curl (Args peel freshAt strchrF strchrF_eq strchr)
open Verif.Sas (text)
open Verif.Map (okText)

/-! ## The conversions -/

def wideText (t : Text) : Wide := t.map UInt8.toNat
/-- texts with an exclamation mark cannot be converted -/
def demoW : Codec where
  widen t := if 0 ∉ t ∧ 33 ∉ t ∧ t.length + 1 < 2 ^ 31 then some (wideText t) else none
  narrow w := if 0 ∉ w ∧ (∀ c ∈ w, c < 256) ∧ w.length + 1 < 2 ^ 31 then some (w.map UInt8.ofNat) else none

/-- the wide text at the beginning of a list of slots -/
def takeWide : List Val → Wide
  | .int n :: vs => if n = 0 then [] else n :: takeWide vs
  | _ => []

theorem takeWide_text : ∀ {w : Wide} {rest : List Val}, 0 ∉ w → takeWide (wideV w ++ .int 0 :: rest) = w
  | [], _, _ => rfl
  | c :: w, rest, h => by
    simp at h
    show takeWide (.int c :: (wideV w ++ .int 0 :: rest)) = _
    unfold takeWide
    rw [if_neg (Ne.symm h.1), takeWide_text h.2]

theorem demo_widen {t : Text} {w : Wide} (h : demoW.widen t = some w) : 0 ∉ w ∧ w.length + 1 < 2 ^ 31 := by
  simp only [demoW] at h
  split at h
  · rename_i hc
    cases h
    refine ⟨?_, by simpa [wideText] using hc.2.2⟩
    intro hm
    obtain ⟨c, hcm, hc0⟩ := List.mem_map.1 hm
    have : c = 0 := UInt8.toNat.inj (by simpa using hc0)
    exact hc.1 (this ▸ hcm)
  · cases h

theorem demo_narrow {w : Wide} {t : Text} (h : demoW.narrow w = some t) : 0 ∉ t ∧ t.length + 1 < 2 ^ 31 := by
  simp only [demoW] at h
  split at h
  · rename_i hc
    cases h
    refine ⟨?_, by simpa using hc.2.2⟩
    intro hm
    obtain ⟨c, hcm, hc0⟩ := List.mem_map.1 hm
    have h1 := hc.2.1 c hcm
    have h2 : c % 256 = 0 := by have := congrArg UInt8.toNat hc0; simpa using this
    have : c = 0 := by omega
    exact hc.1 (this ▸ hcm)
  · cases h

/-! ## The library -/

/-- what the demo answers: headers, `nb` times the bytes `body` when `ann` bytes are announced; whether it gives the headers, whether it takes the request -/
structure Plan where
  hdr : Text
  ann : Nat
  body : Text
  nb : Nat
  raw : Bool := true
  take : Bool := true

/-- a handle is the address of a block, which holds the number of pieces to come -/
def Hdl (h : Nat) : HProp := ∃∃ v : Val, h ↦ [v]
def DReq (q n : Nat) : HProp := q ↦ [.int n]

def newHandle (n : Nat) : M Nat := do
  let h ← mallocS 1
  if h = 0 then pure 0 else do
  store h 0 (.int n)
  pure h

def demoLib (d : Plan) : Lib where
  widen s dst n := if s = .null then pure 0 else do
    let t ← cstr s
    match demoW.widen t with
    | none => pure 0
    | some w => if dst = 0 then pure (w.length + 1) else do
      storeN dst 0 (wideV w ++ [.int 0])
      pure (w.length + 1)
  narrow p off dst n := do
    let b ← storage (.heap p off)
    match demoW.narrow (takeWide b) with
    | none => pure 0
    | some t => if dst = 0 then pure (t.length + 1) else do
      storeN dst 0 (bytesV t ++ [.byte 0])
      pure (t.length + 1)
  openSession := newHandle 0
  connect _ _ _ := newHandle 0
  openRequest _ _ _ := newHandle 0
  setTimeouts _ _ _ _ _ := pure true
  setSecurity _ _ := pure true
  sendRequest _ _ _ _ _ := pure d.take
  receiveResponse q := do
    store q 0 (.int d.nb)
    pure true
  queryStatus _ := pure (some 200)
  queryDataAvailable q := do
    let n ← loadInt q 0
    if n = 0 then pure (some 0) else do
    store q 0 (.int (n - 1))
    pure (some (d.ann % 2 ^ 32))
  readData _ p off n := do
    storeN p off (bytesV (d.body.take n))
    pure (some (d.body.take n).length)
  rawSize _ _ := pure (2 * (d.hdr.length + 1))
  rawHeaders _ p len := if d.raw ∧ 2 * (d.hdr.length + 1) ≤ len then do
      storeN p 0 (wideV (wideText d.hdr) ++ [.int 0])
      pure true
    else pure false
  closeHandle h := free h

theorem newHandle_spec {rel : Prop} {n : Nat} : Triple rel emp (newHandle n) (fun h => if h = 0 then emp else h ↦ [.int n]) := by
  unfold newHandle
  refine Triple.mallocS (by decide) (fun hb => ?_) (fun r hr => ?_)
  · rw [if_pos rfl]; refine Triple.pure ?_; rw [if_pos rfl]; exact entails_refl _
  · rw [if_neg hr]
    stepd (store_spec (p := r) ?_)
    refine Triple.pure ?_
    rw [if_neg hr]
    try simp only [sep_emp]
    exact entails_refl _

theorem wide_split {w : Wide} : wideV w ++ [.int 0] = wideV (w ++ [0]) := by simp [wideV]

theorem demo_honours {rel : Prop} (d : Plan) (hn : 0 ∉ d.hdr) (h1 : d.hdr.length ≤ 1000) :
    Honours rel (demoLib d) demoW (fun _ => emp) Hdl Hdl DReq where
  wide_ok t w := demo_widen
  narrow_ok w t := demo_narrow
  widenSize s o := by
    simp only [demoLib]
    cases o with
    | none =>
      rw [Arg_none]; hoist; rintro rfl
      rw [if_pos rfl]
      exact Triple.pure (entails_pand_r (entails_pand_r (entails_refl _) rfl) rfl)
    | some t =>
      rw [Arg_some]
      by_cases hs : s = .null
      · subst hs; unfold CStr; hoist; exact False.elim
      rw [if_neg hs]
      step cstr_spec
      simp only [Option.bind_some]
      cases hw : demoW.widen t with
      | none => exact Triple.pure (entails_pand_r (entails_refl _) rfl)
      | some w => dsimp only; rw [if_pos trivial]; exact Triple.pure (entails_pand_r (entails_refl _) rfl)
  widen s t w dst n b hw h2 h3 := by
    simp only [demoLib]
    by_cases hs : s = .null
    · subst hs; unfold CStr; hoist; exact False.elim
    rw [if_neg hs]
    refine Triple.know (know_pts (p := dst) (φ := dst ≠ 0) (by pick) fun h1 _ => h1) fun hd => ?_
    step cstr_spec
    rw [hw]
    dsimp only
    rw [if_neg hd]
    step (storeN_spec (p := dst) (off := 0) (b := b) (vs := wideV w ++ [Val.int 0]) (by simp [wideV]; omega))
    refine Triple.pure (entails_pand_r ?_ rfl)
    have e : List.take 0 b ++ (wideV w ++ [Val.int 0]) ++ List.drop (0 + (wideV w ++ [Val.int 0]).length) b = wideV w ++ .int 0 :: b.drop (w.length + 1) := by
      simp [wideV]
    rw [e]
    sep_cancel
  widenFails s t dst n b hw := by
    simp only [demoLib]
    by_cases hs : s = .null
    · subst hs; unfold CStr; hoist; exact False.elim
    rw [if_neg hs]
    step cstr_spec
    rw [hw]
    exact Triple.pure (entails_pand_r (entails_refl _) rfl)
  narrowSize p pre w rest hw := by
    simp only [demoLib]
    step (storage_pts (p := p) (off := pre.length) (vs := pre ++ (wideV w ++ .int 0 :: rest)) (by simp))
    rw [List.drop_left, takeWide_text hw]
    cases demoW.narrow w with
    | none => exact Triple.pure (entails_pand_r (entails_refl _) rfl)
    | some t => dsimp only; rw [if_pos trivial]; exact Triple.pure (entails_pand_r (entails_refl _) rfl)
  narrow p pre w rest t dst n b hw ht h2 h3 := by
    simp only [demoLib]
    refine Triple.know (know_pts (p := dst) (φ := dst ≠ 0) (by pick) fun h1 _ => h1) fun hd => ?_
    step (storage_pts (p := p) (off := pre.length) (vs := pre ++ (wideV w ++ .int 0 :: rest)) (by simp))
    rw [List.drop_left, takeWide_text hw, ht]
    dsimp only
    rw [if_neg hd]
    step (storeN_spec (p := dst) (off := 0) (b := b) (vs := bytesV t ++ [Val.byte 0]) (by simp [bytesV]; omega))
    refine Triple.pure (entails_pand_r ?_ rfl)
    have e : List.take 0 b ++ (bytesV t ++ [Val.byte 0]) ++ List.drop (0 + (bytesV t ++ [Val.byte 0]).length) b = bytesV t ++ .byte 0 :: b.drop (t.length + 1) := by
      simp [bytesV]
    rw [e]
    sep_cancel
  openSession tr := by
    simp only [demoLib, emp_sep]
    refine newHandle_spec.conseq (entails_refl _) fun h => ?_
    split
    · exact entails_refl _
    · exact entails_ex_r _ (entails_refl _)
  connect s p w port tr := by
    simp only [demoLib, emp_sep]
    refine (newHandle_spec.frame (Hdl s ∗ WStr p w)).conseq (by rw [emp_sep]; exact entails_refl _) fun h => ?_
    split
    · sep_cancel
    · refine entails_trans (Q := Hdl h ∗ Hdl s ∗ WStr p w) (sep_mono (entails_ex_r _ (entails_refl _)) (entails_refl _)) (by sep_cancel)
  openRequest c verb p w tr := by
    simp only [demoLib, emp_sep]
    refine (newHandle_spec.frame (Hdl c ∗ WStr p w)).conseq (by rw [emp_sep]; exact entails_refl _) fun h => ?_
    split
    · sep_cancel
    · refine entails_trans (Q := (∃∃ n, DReq h n) ∗ Hdl c ∗ WStr p w) (sep_mono (entails_ex_r 0 (entails_refl _)) (entails_refl _)) (by sep_cancel)
  setTimeouts q n t1 t2 t3 t4 tr := Triple.pure (sep_mono (entails_refl _) (entails_ex_r n (entails_refl _)))
  setSecurity q n f tr := Triple.pure (sep_mono (entails_refl _) (entails_ex_r n (entails_refl _)))
  sendRequest q n h w p bs len tr _ := Triple.pure (sep_mono (entails_refl _) (sep_mono (entails_ex_r n (entails_refl _)) (entails_refl _)))
  receiveResponse q n tr := by
    simp only [demoLib, emp_sep, DReq]
    stepd (store_spec (p := q) ?_)
    refine Triple.pure (entails_ex_r d.nb ?_)
    try simp only [sep_emp]
    exact entails_refl _
  queryStatus q n tr := Triple.pure (sep_mono (entails_refl _) (entails_ex_r n (entails_refl _)))
  queryDataAvailable q n tr := by
    simp only [demoLib, emp_sep, DReq]
    stepd (loadInt_spec (p := q) (n := n) ?_)
    by_cases h0 : n = 0
    · rw [if_pos h0]
      exact Triple.pure (entails_ex_r n (entails_pand_r (by (try simp only [sep_emp]); exact entails_refl _) (by intro a ha; cases ha; exact ⟨by decide, fun h => absurd rfl h⟩)))
    · rw [if_neg h0]
      stepd (store_spec (p := q) ?_)
      exact Triple.pure (entails_ex_r (n - 1) (entails_pand_r (by (try simp only [sep_emp]); exact entails_refl _)
        (by intro a ha; cases ha; exact ⟨Nat.mod_lt _ (by decide), fun _ => by omega⟩)))
  readData q n p k head hole tr hk := by
    simp only [demoLib, emp_sep]
    have hl : (d.body.take k).length ≤ k := by simp; omega
    step (storeN_spec (p := p) (off := head.length) (b := head ++ hole) (vs := bytesV (d.body.take k)) (by rw [bytesV_length, List.length_append]; omega))
    refine Triple.pure ?_
    unfold ReadR
    simp only [sep_hex, sep_pand, emp_sep]
    refine entails_ex_r (d.body.take k) (entails_pand_r ?_ ⟨rfl, hl⟩)
    have e : List.take head.length (head ++ hole) ++ bytesV (d.body.take k) ++ List.drop (head.length + (bytesV (d.body.take k)).length) (head ++ hole) =
        head ++ bytesV (d.body.take k) ++ hole.drop (d.body.take k).length := by
      rw [List.take_left, List.drop_append, bytesV_length]
      simp
    rw [e]
    sep_cancel
  rawSize q n len tr := Triple.pure (entails_pand_r (sep_mono (entails_refl _) (entails_ex_r n (entails_refl _))) (by omega))
  rawHeaders q n p b len tr hl := by
    simp only [demoLib, emp_sep]
    by_cases hc : d.raw = true ∧ 2 * (d.hdr.length + 1) ≤ len
    · rw [if_pos hc]
      step (storeN_spec (p := p) (off := 0) (b := b) (vs := wideV (wideText d.hdr) ++ [Val.int 0]) (by simp [wideV, wideText]; omega))
      refine Triple.pure ?_
      unfold RawR WStr
      rw [if_pos rfl]
      have hw : 0 ∉ wideText d.hdr := by
        intro hm
        obtain ⟨c, hcm, hc0⟩ := List.mem_map.1 hm
        have : c = 0 := UInt8.toNat.inj (by simpa using hc0)
        exact hn (this ▸ hcm)
      simp only [sep_hex, sep_pand, emp_sep, hex_sep, pand_sep]
      refine entails_ex_r (wideText d.hdr) (entails_ex_r (b.drop (d.hdr.length + 1)) (entails_pand_r (entails_ex_r n ?_) hw))
      have e : List.take 0 b ++ (wideV (wideText d.hdr) ++ [Val.int 0]) ++ List.drop (0 + (wideV (wideText d.hdr) ++ [Val.int 0]).length) b =
          wideV (wideText d.hdr) ++ .int 0 :: b.drop (d.hdr.length + 1) := by simp [wideV, wideText]
      rw [e]
      sep_cancel
    · rw [if_neg hc]
      refine Triple.pure ?_
      unfold RawR
      rw [if_neg (by decide)]
      simp only [sep_hex, emp_sep, hex_sep]
      exact entails_ex_r b (entails_ex_r n (entails_refl _))
  closeSession s tr := by
    simp only [demoLib, emp_sep, Hdl]; hoist; intro v; exact free_spec
  closeConnection s tr := by
    simp only [demoLib, emp_sep, Hdl]; hoist; intro v; exact free_spec
  closeRequest q n tr := by
    simp only [demoLib, emp_sep, DReq]; exact free_spec

/-! ## Runs of the code on the demo -/

/-- memory of the demo: the static variables (1003); allocation number `t` is refused if `refuse t` -/
noncomputable def demoSt (refuse : Nat → Bool) : St :=
  { heap := fun p => if p = 1003 then some [.int 0, .ptr 0, .int 0] else none,
    alloc := fun t h _ => if refuse t then 0 else freshAt t h, tick := 0 }

theorem demoSt_fin {f : Nat → Bool} : (demoSt f).heap.fin := ⟨1004, fun p hp => by
  have h4 : p ≠ 1003 := by omega
  simp [demoSt, h4]⟩

theorem demoSt_reliable : Reliable (demoSt fun _ => false).alloc := Curl.demoSt_reliable

theorem demoSt_net {Net : List Ev → HProp} (hN : Net [] = emp) {Sess Con : Nat → HProp} {f : Nat → Bool} : NetL Net Sess Con 1003 [] (demoSt f).heap := by
  have key : (1003 ↦ [.int 0, .ptr 0, .int 0] ∗ emp) (demoSt f).heap := by
    refine peel rfl ⟨by decide, by decide, rfl⟩ ?_
    funext p
    simp only [demoSt]
    by_cases h4 : p = 1003
    · subst h4; rfl
    simp [h4, Heap.empty]
  refine (?_ : _ ⊢ₕ _) _ key
  rw [NetL_eq]
  have e1 : trace [] = [] := rfl
  have e2 : lost [] = 0 := rfl
  have e3 : held [] = 0 := rfl
  have e4 : users [] = 0 := rfl
  have e5 : left [] = [] := rfl
  rw [e1, e2, e3, e4, e5, hN, Ti.Lost_zero, Glob_zero, Left]
  simp only [sep_emp, emp_sep, eq_self, true_pand]
  exact entails_refl _

/-- what a run returns -/
noncomputable def report (ex : Op → List Nat → M (Option Out × List Nat)) (refuse : Nat → Bool) (ops : List Op) : Option (List (Option Out)) :=
  match runOps ex ops [] (demoSt refuse) with
  | some (.ok ((outs, _), _)) => some outs
  | _ => none

/-- `log` is the record of a run of the code on a WinHTTP that meets the contract -/
def Recorded (rel : Prop) (W : Codec) (ops : List Op) (outs : List (Option Out)) (as : List (Option Obj)) (log : Log) : Prop :=
  ∃ (lib : Lib) (Net : List Ev → HProp) (Sess Con : Nat → HProp) (Req : Nat → Nat → HProp) (g : Ptr) (s : St) (env : List Nat) (s' : St),
    Honours rel lib W Net Sess Con Req ∧ s.heap.fin ∧ (rel → Reliable s.alloc) ∧ NetL Net Sess Con g [] s.heap ∧ (∀ op ∈ ops, good op) ∧
    runOps (exec lib g) ops [] s = some (.ok ((outs, env), s')) ∧
    Runs (step rel W) ([], []) ops outs (as, log) ∧ (Own (OConn Con) env as ∗ NetL Net Sess Con g log) s'.heap

/-- from a computed run to its record -/
theorem read_report {rel : Prop} {d : Plan} {refuse : Nat → Bool} (hn : 0 ∉ d.hdr) (h1 : d.hdr.length ≤ 1000)
    (hf : rel → refuse = fun _ => false) {ops : List Op} {outs : List (Option Out)} (hops : ∀ op ∈ ops, good op) (hl : ops.length < szMod)
    (h : report (exec (demoLib d) 1003) refuse ops = some outs) : ∃ as log, Recorded rel demoW ops outs as log := by
  have hrel : rel → Reliable (demoSt refuse).alloc := fun k => by rw [hf k]; exact demoSt_reliable
  have H := demo_honours (rel := rel) d hn h1
  obtain ⟨outs', env, as, log, s', k1, k2, k3⟩ := histories_run H (g := 1003) ops hops hl (demoSt refuse) demoSt_fin hrel (demoSt_net rfl)
  unfold report at h
  rw [k1] at h
  obtain rfl : outs' = outs := by simpa using h
  exact ⟨as, log, _, _, _, _, _, _, _, env, s', H, demoSt_fin, hrel, demoSt_net rfl, hops, k1, k2, k3⟩

/-! ### The code with `m` steps of every loop unfolded, so that runs can be computed -/

section
variable (lib : Lib)

def skipDelimsF : Nat → Ptr → Nat → M Nat
  | 0, p, i => skipDelims p i
  | n + 1, p, i => do
    let c ← loadInt p i
    if c = 13 ∨ c = 10 then skipDelimsF n p (i + 1) else pure i
theorem skipDelimsF_eq : ∀ n p i, skipDelimsF n p i = skipDelims p i
  | 0, _, _ => rfl
  | n + 1, p, i => by rw [skipDelims]; unfold skipDelimsF; simp only [skipDelimsF_eq n]

def tokenEndF : Nat → Ptr → Nat → M Nat
  | 0, p, i => tokenEnd p i
  | n + 1, p, i => do
    let c ← loadInt p i
    if c = 0 ∨ c = 13 ∨ c = 10 then pure i else tokenEndF n p (i + 1)
theorem tokenEndF_eq : ∀ n p i, tokenEndF n p i = tokenEnd p i
  | 0, _, _ => rfl
  | n + 1, p, i => by rw [tokenEnd]; unfold tokenEndF; simp only [tokenEndF_eq n]

def wcstokF (m : Nat) (p : Ptr) (i : Nat) : M (Option Nat × Nat) := do
  let b ← skipDelimsF m p i
  let c ← loadInt p b
  if c = 0 then pure (none, b)
  else do
    let e ← tokenEndF m p b
    let c ← loadInt p e
    if c = 0 then pure (some b, e)
    else do
      store p e (.int 0)
      pure (some b, e + 1)
theorem wcstokF_eq (m : Nat) : wcstokF m = wcstok := by
  funext p i; unfold wcstokF wcstok; simp only [skipDelimsF_eq, tokenEndF_eq]

def addLineF (m responseHeaders p token tokenTemp size : Nat) : M Bool := do
  let k ← lib.narrow p token tokenTemp size
  if k > 0 then do
    let w ← strchrF m tokenTemp 58 0
    match w with
    | some i => do
      store tokenTemp i (.byte 0)
      let r ← HTTPHeaders_AddHeaderNameValuePair responseHeaders (.heap tokenTemp 0) (.heap tokenTemp (i + 1))
      if r ≠ .ok then pure false else do
      free tokenTemp
      pure true
    | none => do
      free tokenTemp
      pure true
  else do
    free tokenTemp
    pure true
theorem addLineF_eq (m : Nat) : addLineF lib m = addLine lib := by
  funext a b c d e; unfold addLineF addLine; simp only [strchrF_eq]; rfl

def takeLineF (m responseHeaders p token : Nat) : M Bool := do
  let size ← lib.narrow p token 0 0
  if size = 0 then pure true else do
  let tokenTemp ← malloc size
  if tokenTemp = 0 then pure true else
  addLineF lib m responseHeaders p token tokenTemp size
theorem takeLineF_eq (m : Nat) : takeLineF lib m = takeLine lib := by
  funext a b c; unfold takeLineF takeLine; simp only [addLineF_eq]

def lineLoopF (m : Nat) : Nat → Ptr → Ptr → Option Nat × Nat → M Res
  | 0, responseHeaders, p, t => lineLoop lib responseHeaders p t
  | n + 1, responseHeaders, p, t => do
    match t.1 with
    | none => pure .ok
    | some token => do
      let c ← loadInt p token
      if c = 0 then pure .ok else do
      let go ← takeLineF lib m responseHeaders p token
      if go then do
        let t ← wcstokF m p t.2
        lineLoopF m n responseHeaders p t
      else pure .httpHeadersFailed
theorem lineLoopF_eq (m : Nat) : ∀ n a b t, lineLoopF lib m n a b t = lineLoop lib a b t
  | 0, _, _, _ => rfl
  | n + 1, a, b, t => by rw [lineLoop]; unfold lineLoopF; simp only [takeLineF_eq, wcstokF_eq, lineLoopF_eq m n]; rfl

def readHeadersF (m q responseHeaders : Nat) : M Res := do
  let len ← lib.rawSize q 8
  let p ← mallocW ((len + 2) % 2 ^ 32) ((len + 2) % 2 ^ 32 / 2)
  if p = 0 then pure .allocFailed else do
  let good ← lib.rawHeaders q p len
  if good then do
    let t ← wcstokF m p 0
    let r ← lineLoopF lib m m responseHeaders p t
    free p
    pure r
  else do
    free p
    pure .ok
theorem readHeadersF_eq (m : Nat) : readHeadersF lib m = readHeaders lib := by
  funext a b; unfold readHeadersF readHeaders; simp only [wcstokF_eq, lineLoopF_eq]

def readLoopF : Nat → Nat → Nat → M Res
  | 0, q, buffer => readLoop lib q buffer
  | n + 1, q, buffer => do
    let a ← lib.queryDataAvailable q
    match a with
    | none => pure .queryDataAvailableFailed
    | some avail =>
      if avail = 0 then pure .ok else do
      let r ← readPiece lib q buffer avail
      match r with
      | some e => pure e
      | none => readLoopF n q buffer
theorem readLoopF_eq : ∀ n q b, readLoopF lib n q b = readLoop lib q b
  | 0, _, _ => rfl
  | n + 1, q, b => by rw [readLoop]; unfold readLoopF; simp only [readLoopF_eq n]; rfl

end

theorem readLoop_at (n : Nat) (lib : Lib) : readLoop lib = readLoopF lib n := by funext q b; rw [readLoopF_eq]
theorem readHeaders_at (n : Nat) (lib : Lib) : readHeaders lib = readHeadersF lib n := by rw [readHeadersF_eq]

/-! ### A run -/

def samplePlan : Plan := { hdr := text "X\r\nE: f", ann := 2, body := text "ab", nb := 2 }

def sample : List Op :=
  [.create (some (text "h")), .init, .create (some (text "h")), .setOption 1 (some (text "timeout")) (some 5), .clone (some (text "timeout")) (some 5) true,
   .request 1 1 (some (text "/p")) (some [(text "A", text "b")]) (some (text "xyz")) (some .undef) (some []) (some (text "old")),
   .request 1 7 (some (text "/p")) (some []) none none none none, .close 1, .deinit]

def sampleOuts : List (Option Out) :=
  [some .null, some (.result .ok), some .handle, some (.result .ok), some (.result .ok), some (.result .ok), some (.result .invalidArg), some .done, some .done]

theorem sample_good : ∀ op ∈ sample, good op := by
  simp [sample, good, okText, Ex.okPairs, Ex.okBytes, text, NoNul, maxObj]

theorem sample_run : report (exec (demoLib samplePlan) 1003) (fun _ => false) sample = some sampleOuts := by
  unfold exec requestOne HTTPAPI_ExecuteRequest request withPath withHeaders onRequest receive readBody readBody.finish
  rw [readHeaders_at 9, readLoop_at 4]
  decide +kernel

theorem sample_recorded : ∃ as log, Recorded True demoW sample sampleOuts as log :=
  read_report (d := samplePlan) (by decide) (by decide) (fun _ => rfl) sample_good (by decide) sample_run

/-! ### What the code does wrong -/

/-- a request for which the buffer holds `old` before: the result, the number of response headers, and what the buffer holds afterwards -/
def fetch (lib : Lib) (old : Text) : M (Res × Option Nat × Option Block) := do
  let _ ← HTTPAPI_Init lib 1003
  let h ← HTTPAPI_CreateConnection lib 1003 (.str (text "h"))
  let q ← Headers.HTTPHeaders_Alloc
  let rh ← Headers.HTTPHeaders_Alloc
  let b ← Buffer.BUFFER_create (.lit old) old.length
  let r ← HTTPAPI_ExecuteRequest lib 1003 h 0 (.str (text "/")) q .null 0 0 rh b
  let n ← Buffer.BUFFER_length b
  let p ← Buffer.BUFFER_u_char b
  let t ← loadN p 0 n
  let c ← Headers.HTTPHeaders_GetHeaderCount rh true
  pure (r, c.2, t)

/-- the tactic that computes `fetch` -/
macro "run_fetch" : tactic => `(tactic| (
  unfold fetch HTTPAPI_ExecuteRequest request withPath withHeaders onRequest receive readBody readBody.finish
  rw [readHeaders_at 9, readLoop_at 4]
  decide +kernel))

/-- C105: two pieces of the body and a header are received; what was in the buffer stays before the body. -/
theorem stale_body : outcome (fetch (demoLib samplePlan) (text "old")) (demoSt fun _ => false) =
    some (.ok (.ok, some 1, some (bytesV (text "oldabab")))) := by run_fetch

/-- C105: A piece that is shorter than announced leaves bytes behind it that were never written. -/
theorem hole_left : outcome (fetch (demoLib { samplePlan with ann := 3 }) (text "o")) (demoSt fun _ => false) =
    some (.ok (.ok, some 1, some (bytesV (text "oab") ++ [.undef] ++ bytesV (text "ab") ++ [.undef]))) := by run_fetch

/-- C105: If WinHTTP does not give the headers of the response, the result still is `HTTPAPI_OK`, without a header. -/
theorem headers_missed : outcome (fetch (demoLib { samplePlan with raw := false }) (text "o")) (demoSt fun _ => false) =
    some (.ok (.ok, some 0, some (bytesV (text "oabab")))) := by run_fetch

/-- C105: If there is no memory for a line of the headers, it is left out, and the result is `HTTPAPI_OK`. -/
theorem header_skipped : outcome (fetch (demoLib samplePlan) (text "o")) (demoSt (· = 18)) =
    some (.ok (.ok, some 0, some (bytesV (text "oabab")))) := by run_fetch

def nullOps : List Op := [.init, .create none]

theorem null_run : report (exec (demoLib samplePlan) 1003) (fun _ => false) nullOps = some [some (.result .ok), some .lost] := by
  decide +kernel

/-- C107: `HTTPAPI_CreateConnection` for `NULL` (or for a host name that cannot be converted) gives a handle that is not `NULL` and not a connection; … -/
theorem null_host : ∃ as log, Recorded True demoW nullOps [some (.result .ok), some .lost] as log :=
  read_report (d := samplePlan) (by decide) (by decide) (fun _ => rfl) (by simp [nullOps, good, okText]) (by decide) null_run

/-- … to close it is undefined behaviour. -/
theorem null_host_close : outcome (do
    let _ ← HTTPAPI_Init (demoLib samplePlan) 1003
    let h ← HTTPAPI_CreateConnection (demoLib samplePlan) 1003 .null
    HTTPAPI_CloseConnection (demoLib samplePlan) 1003 h) (demoSt fun _ => false) = some (.error (.ub "pointer read of a slot that holds no pointer")) := by
  decide +kernel

def leftOps : List Op := [.init, .create (some (text "h")), .deinit, .close 0]

theorem left_run : report (exec (demoLib samplePlan) 1003) (fun _ => false) leftOps = some [some (.result .ok), some .handle, some .done, some .done] := by
  decide +kernel

theorem left_recorded : ∃ as log, Recorded True demoW leftOps [some (.result .ok), some .handle, some .done, some .done] as log :=
  read_report (d := samplePlan) (by decide) (by decide) (fun _ => rfl) (by simp [leftOps, good, okText, text, NoNul, maxObj]) (by decide) left_run

theorem left_inv {as : List (Option Obj)} {log : Log} (h : Runs (step True demoW) ([], []) leftOps [some (.result .ok), some .handle, some .done, some .done] (as, log)) :
    as = [none] ∧ users log = 0 ∧ ∃ o, left log = [o] ∧ o.con ≠ 0 := by
  unfold leftOps at h
  cases h with | cons h1 h =>
  cases h with | cons h2 h =>
  cases h with | cons h3 h =>
  cases h with | cons h4 h =>
  cases h with | nil =>
  obtain ⟨b, w1, hb, ⟨r, n', s', evs, _, rfl, rfl⟩, rfl⟩ := h1
  cases hb
  obtain ⟨b, a', w2, hb, ⟨c, evs2, hc, rfl, rfl, rfl⟩, rfl⟩ := h2
  cases c with
  | none => cases hb
  | broken => cases hb
  | good o =>
    obtain ⟨b, w3, hb, ⟨n3, s3, evs3, _, _, rfl⟩, rfl⟩ := h3
    rcases h4 with ⟨_, h, _⟩ | ⟨a, r4, a4, w4, hi, _, ⟨_, rfl, evs4, _, rfl⟩, he⟩
    · cases h
    · simp at hi
      subst hi
      cases he
      refine ⟨rfl, rfl, o, rfl, ?_⟩
      unfold CreateE at hc
      rw [if_neg (by simp [users, usersStep])] at hc
      rcases hc with ⟨h, _⟩ | ⟨h, _⟩ | ⟨w, d, _, _, h⟩
      · cases h
      · cases h
      · split at h
        · cases h
        · rename_i hd; cases h; exact hd

/-- C106, C107: `HTTPAPI_CloseConnection` after `HTTPAPI_Deinit` does nothing: the connection is never closed, and its memory is lost. -/
theorem left_open : ∃ as log, Recorded True demoW leftOps [some (.result .ok), some .handle, some .done, some .done] as log ∧ (∀ a ∈ as, a = none) ∧ users log = 0 ∧
    ∃ h, h ≠ 0 ∧ closed h (trace log) < opened h (trace log) := by
  obtain ⟨as, log, hR⟩ := left_recorded
  obtain ⟨_, _, _, _, _, _, _, _, _, _, _, _, _, _, _, hr, _⟩ := id hR
  obtain ⟨rfl, hu, o, hl, ho⟩ := left_inv hr
  refine ⟨_, log, hR, by simp, hu, o.con, ho, ?_⟩
  have hb := handles_balance hr ho
  rw [hl] at hb
  have : leftWith o.con [o] = 1 := by simp [leftWith]
  omega

def lineOps : List Op := [.init, .create (some (text "h")), .request 0 0 (some (text "/")) (some []) none none (some []) none]

theorem line_run : report (exec (demoLib { samplePlan with hdr := text "a b:x" }) 1003) (fun _ => false) lineOps =
    some [some (.result .ok), some .handle, some (.result .httpHeadersFailed)] := by
  unfold exec requestOne HTTPAPI_ExecuteRequest request withPath withHeaders onRequest receive readBody readBody.finish
  rw [readHeaders_at 9, readLoop_at 4]
  decide +kernel

/-- C107: If a header of the response is refused (a name with a space), the memory of the line is lost. -/
theorem line_lost : ∃ as log, Recorded True demoW lineOps [some (.result .ok), some .handle, some (.result .httpHeadersFailed)] as log ∧ lost log = 1 := by
  obtain ⟨as, log, hR⟩ := read_report (rel := True) (d := { samplePlan with hdr := text "a b:x" }) (by decide) (by decide) (fun _ => rfl) (ops := lineOps)
    (by simp [lineOps, good, okText, Ex.okPairs, Ex.okBytes, text, NoNul, maxObj]) (by decide) line_run
  obtain ⟨_, _, _, _, _, _, _, _, _, _, _, _, _, _, _, hr, _⟩ := id hR
  refine ⟨as, log, hR, ?_⟩
  have hall := fun p x r x' k evs he => lost_by_request (p := p) (x := x) (r := r) (x' := x') (k := k) (evs := evs) hr he
  unfold lineOps at hr
  cases hr with | cons h1 h =>
  cases h with | cons h2 h =>
  cases h with | cons h3 h =>
  cases h with | nil =>
  obtain ⟨b, w1, hb, ⟨r, n', s', evs, _, rfl, rfl⟩, rfl⟩ := h1
  obtain ⟨b, a', w2, hb2, ⟨c, evs2, hc, rfl, rfl, rfl⟩, rfl⟩ := h2
  cases c with
  | none => cases hb2
  | broken => cases hb2
  | good o =>
    rcases h3 with ⟨_, h, _⟩ | ⟨a, r4, a4, w4, hi, hr4, ⟨y, r, y', evs3, k, _, _, _, rfl, rfl⟩, he⟩
    · cases h
    · cases he
      cases hr4
      have := hall _ _ _ _ _ _ (show _ ∈ _ from List.mem_append_right _ (by simp; exact ⟨rfl, ⟨rfl, rfl, rfl, rfl⟩, rfl⟩))
      rw [if_pos rfl] at this
      subst this
      simp [lost, Entry.lost]

/-! ### A body of more than 2³² bytes -/

/-- a WinHTTP that is always successful and gives empty responses -/
def fineLib : Lib :=
  { demoLib samplePlan with
    openSession := pure 1
    connect := fun _ _ _ => pure 2
    openRequest := fun _ _ _ => pure 3
    receiveResponse := fun _ => pure true
    queryDataAvailable := fun _ => pure (some 0)
    readData := fun _ _ _ _ => pure none
    rawHeaders := fun _ _ _ => pure false
    closeHandle := fun _ => pure () }

def Ev.fine : Ev → Prop
  | .session s => s ≠ 0
  | .connect _ _ _ c => c ≠ 0
  | .openRequest _ _ _ q => q ≠ 0
  | .timeouts _ _ _ _ _ r | .security _ _ r | .send _ _ _ r | .receive _ r => r = true
  | .status _ x => x ≠ none
  | .avail _ x => x = some 0
  | _ => True

def fineNet (tr : List Ev) : HProp := (∀ e ∈ tr, e.fine) ⋏ emp

theorem fine_snoc {tr : List Ev} {e : Ev} (he : e.fine) : fineNet tr ⊢ₕ fineNet (tr ++ [e]) := by
  unfold fineNet
  refine entails_pand_l fun h => entails_pand_r (entails_refl _) ?_
  intro d hd
  rcases List.mem_append.1 hd with hd | hd
  · exact h d hd
  · simp at hd; subst hd; exact he

theorem fine_honours {rel : Prop} : Honours rel fineLib demoW fineNet (fun _ => emp) (fun _ => emp) (fun _ _ => emp) where
  wide_ok t w := demo_widen
  narrow_ok w t := demo_narrow
  widenSize := (demo_honours samplePlan (by decide) (by decide)).widenSize
  widen := (demo_honours samplePlan (by decide) (by decide)).widen
  widenFails := (demo_honours samplePlan (by decide) (by decide)).widenFails
  narrowSize := (demo_honours samplePlan (by decide) (by decide)).narrowSize
  narrow := (demo_honours samplePlan (by decide) (by decide)).narrow
  openSession tr := Triple.pure (by rw [if_neg (by decide), sep_emp]; exact fine_snoc (by simp [Ev.fine]))
  connect s p w port tr := Triple.pure (by rw [if_neg (by decide)]; simp only [sep_emp, emp_sep]; exact sep_mono (fine_snoc (by simp [Ev.fine])) (entails_refl _))
  openRequest c verb p w tr := Triple.pure (by
    rw [if_neg (by decide)]; simp only [emp_sep]; exact sep_mono (fine_snoc (by simp [Ev.fine])) (by
      refine entails_trans (entails_of_eq (sep_emp _).symm) (sep_mono (entails_refl _) (entails_ex_r 0 (entails_refl _)))))
  setTimeouts q n t1 t2 t3 t4 tr := Triple.pure (sep_mono (fine_snoc rfl) (entails_ex_r n (entails_refl _)))
  setSecurity q n f tr := Triple.pure (sep_mono (fine_snoc rfl) (entails_ex_r n (entails_refl _)))
  sendRequest q n h w p bs len tr _ := Triple.pure (sep_mono (fine_snoc rfl) (sep_mono (entails_ex_r n (entails_refl _)) (entails_refl _)))
  receiveResponse q n tr := Triple.pure (sep_mono (fine_snoc rfl) (entails_ex_r n (entails_refl _)))
  queryStatus q n tr := Triple.pure (sep_mono (fine_snoc (by simp [Ev.fine])) (entails_ex_r n (entails_refl _)))
  queryDataAvailable q n tr := Triple.pure (entails_ex_r n (entails_pand_r (sep_mono (fine_snoc rfl) (entails_refl _))
    (by intro a ha; cases ha; exact ⟨by decide, fun h => absurd rfl h⟩)))
  readData q n p k head hole tr hk := Triple.pure (by
    unfold ReadR
    simp only [emp_sep]
    exact entails_ex_r hole (entails_pand_r (sep_mono (fine_snoc trivial) (entails_refl _)) hk))
  rawSize q n len tr := Triple.pure (entails_pand_r (sep_mono (fine_snoc trivial) (entails_ex_r n (entails_refl _))) (by decide))
  rawHeaders q n p b len tr hl := Triple.pure (by
    unfold RawR
    rw [if_neg (by decide)]
    simp only [emp_sep, hex_sep, sep_hex]
    exact entails_ex_r b (entails_ex_r n (sep_mono (fine_snoc trivial) (entails_refl _))))
  closeSession s tr := Triple.pure (by rw [sep_emp]; exact fine_snoc trivial)
  closeConnection s tr := Triple.pure (by rw [sep_emp]; exact fine_snoc trivial)
  closeRequest s n tr := Triple.pure (by rw [sep_emp]; exact fine_snoc trivial)

end Verif.Wh
