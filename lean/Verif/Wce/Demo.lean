import Verif.Wce.Ledger
import Verif.Mb.Demo
/-!
# A Winsock that meets the contract of `Honours`, and runs of the code on it

The theorems about histories are not vacuous; the runs at the end show what the theorems leave out.
-/
set_option linter.unusedSimpArgs false
set_option linter.unusedVariables false
namespace Verif.Wce
open Verif.Headers (Hdrs HTTPHeaders_GetHeaderCount HTTPHeaders_Alloc HTTPHeaders_Free)
open Verif.Buffer
open Verif.Curl (Args peel freshAt)
open Verif.Sas (text)
open Verif.Map (okText)
open Verif.Mb (Wire Op Out Called Served Answers Plan demoCon demoPeer demoLib Idle Idle_eq Busy Busy_eq Arr Arr_eq Cell Cell_eq blank blank_length echo Whole Even echo_served answer answer_whole answer_read
  receiveF receiveF_eq mkBody methodName total headerLine get_text once sample)

/-- the demo: the peer, whether names are known, sockets can be made secure, connections are accepted; what a variable that was not set holds -/
structure Net0 where
  plan : Plan
  named : Bool := true
  secure : Bool := true
  accepts : Bool := true
  junk : Res := .error

/-- A socket: whether it is connected, how many line feeds were sent, how many bytes were received. -/
def wsa (d : Net0) : Lib where
  startup := pure (0, 2, 2)
  cleanup := pure ()
  socket := do
    let p ← malloc 8
    if p = 0 then pure INVALID else
    if p = INVALID then do
      free p
      pure INVALID
    else do
    storeN p 0 (List.replicate 8 (.int 0))
    pure p
  resolve _ := pure (if d.named then some 7 else none)
  secure fd := pure (if fd = INVALID then -1 else if d.secure then 0 else -1)
  hook _ := pure 0
  tls _ := pure 0
  lastError := pure 1
  connect fd _ _ := if d.accepts then do
      storeN fd 0 [.int 1, .int 0, .int 0]
      pure 0
    else pure (-1)
  close fd := free fd
  send fd p n := do
    let f ← loadInt fd 0
    if f = 1 then (demoLib d.plan).sendAll fd p n else pure (-1)
  recv := (demoLib d.plan).receive
  junk := pure d.junk

def demoNet (_ : List Ev) : HProp := emp
def demoAt (a : Nat) (_ : Text) : Prop := a = 7

theorem wsa_honours {rel : Prop} (d : Net0) (hc : 0 < d.plan.cap) {g : Ptr} :
    Honours rel (wsa d) g demoNet (demoCon d.plan) demoAt (demoPeer d.plan) True (· = d.junk) where
  sendAll c w V p bs hb hr := by
    have H := (Mb.demo_honours (rel := rel) d.plan hc).sendAll c w V p bs hb hr
    simp only [Lib.stream, wsa]
    refine Triple.pre (?_ : Triple rel (Busy d.plan c w ∗ V) _ _) (entails_refl _)
    rw [Busy_eq]
    hoist; intro l hp hl
    step (loadInt_spec (p := c) (b := .int 1 :: .int (w.out.count 10) :: .int w.pos :: l) (off := 0) (n := 1) rfl)
    rw [if_pos rfl]
    refine H.pre ?_
    rw [demoCon, Busy_eq]; simp only [hex_sep, pand_sep]
    exact entails_ex_r l (entails_pand_r (by sep_cancel) ⟨hp, hl⟩)
  receive := (Mb.demo_honours (rel := rel) d.plan hc).receive
  startup tr := Triple.pure (entails_refl _)
  cleanup tr := Triple.pure (entails_refl _)
  dead fd V p bs hb hr := by
    simp only [wsa]
    simp only [demoCon]
    conv => arg 2; rw [Idle_eq]
    hoist; intro l hl
    step (loadInt_spec (p := fd) (b := .int 0 :: l) (off := 0) (n := 0) rfl)
    rw [if_neg (by decide)]
    refine Triple.pure (entails_pand_r ?_ (by decide))
    rw [Idle_eq]; simp only [hex_sep, pand_sep]
    exact entails_ex_r l (entails_pand_r (by sep_cancel) hl)
  socket tr := by
    simp only [wsa]
    refine Triple.pre (?_ : Triple rel emp _ _) (entails_refl _)
    refine Triple.malloc (fun _ => ?_) fun r h0 hm => ?_
    · rw [if_pos rfl]
      exact Triple.pure (by rw [if_pos rfl]; exact entails_refl _)
    · rw [if_neg h0]
      refine Triple.ite (fun h => ?_) fun h => ?_
      · step (free_spec (p := r))
        exact Triple.pure (by rw [if_pos rfl]; exact entails_refl _)
      · step (storeN_spec' (p := r) (b := List.replicate 8 .undef) (off := 0) (vs := List.replicate 8 (Val.int 0)) (by simp))
        refine Triple.pure ?_
        rw [if_neg h, patch_full (by simp), demoNet, emp_sep, demoCon, Idle_eq]
        exact entails_ex_r (List.replicate 7 (.int 0)) (entails_pand_r (by sep_cancel) (by simp))
  resolve V s t hr := by
    simp only [wsa]
    refine Triple.pure (entails_pand_r (entails_refl _) ?_)
    intro x h
    split at h
    · cases h; rfl
    · cases h
  secure fd tr := Triple.pure (entails_refl _)
  notSocket := Triple.pure (entails_pand_r (entails_refl _) (if_pos rfl))
  hook fd tr := Triple.pure (entails_refl _)
  tls fd tr := Triple.pure (entails_refl _)
  lastError := Triple.pure (entails_pand_r (entails_refl _) (by decide))
  connect fd a t port opt tr ha := by
    simp only [wsa]
    refine Triple.ite (fun h => ?_) fun h => ?_
    · simp only [demoNet, demoCon, emp_sep]
      conv => arg 2; rw [Idle_eq]
      hoist; intro l hl
      obtain ⟨a, b, l', rfl⟩ : ∃ a b l', l = a :: b :: l' := by
        match l, hl with
        | a :: b :: l', _ => exact ⟨a, b, l', rfl⟩
      step (storeN_spec' (p := fd) (b := .int 0 :: a :: b :: l') (off := 0) (vs := [.int 1, .int 0, .int 0]) (by simp))
      refine Triple.pure (entails_ex_r (some ⟨fun t => d.plan.S (t.count 10), [], 0, d.plan.fin⟩) (entails_pand_r ?_ (.inr ⟨by decide, _, rfl, ⟨rfl, rfl⟩, rfl, rfl⟩)))
      simp only [demoCon, Busy_eq, hex_sep, pand_sep]
      exact entails_ex_r l' (entails_pand_r (by simp [patch]; exact entails_refl _) ⟨⟨rfl, rfl⟩, by simpa using hl⟩)
    · refine Triple.pure (entails_ex_r none (entails_pand_r (entails_refl _) (.inl ⟨by decide, rfl⟩)))
  close fd o tr := by
    simp only [wsa, demoNet, emp_sep]
    cases o with
    | none =>
      rw [demoCon, Idle_eq]; hoist; intro l hl
      last (free_spec (p := fd)); simp only [emp_sep, sep_emp]; exact entails_refl _
    | some w =>
      rw [demoCon, Busy_eq]; hoist; intro l hl _
      last (free_spec (p := fd)); simp only [emp_sep, sep_emp]; exact entails_refl _
  junk := Triple.pure (entails_pand_r (entails_refl _) rfl)

/-! ### The code with `m` steps of every loop unfolded, so that runs can be computed -/
section
variable (m : Nat) (lib : Lib)

def exchangeF (fd : Nat) (buf cp : Ptr) (requestType : Nat) (relativePath : CharPtr) (httpHeadersHandle : Ptr) (headersCount : Nat) (content : CharPtr)
    (contentLength : Nat) (statusCode responseHeadersHandle responseContent : Ptr) : M Res := do
  let r ← Mb.send lib.stream fd buf (Mb.methodName requestType) relativePath httpHeadersHandle headersCount content contentLength
  if r ≠ .ok then pure r else
  receiveF m lib.stream fd buf cp statusCode responseHeadersHandle responseContent
theorem exchangeF_eq : exchangeF m = exchange := by
  funext lib _ _ _ _ _ _ _ _ _ _ _ _; unfold exchangeF exchange; simp only [receiveF_eq]; first | done | rfl

def HTTPAPI_ExecuteRequestF (g buf cp : Ptr) (handle : Ptr) (requestType : Nat) (relativePath : CharPtr) (httpHeadersHandle : Ptr) (content : CharPtr)
    (contentLength : Nat) (statusCode responseHeadersHandle responseContent : Ptr) : M Res := do
  if handle = 0 ∨ relativePath = .null ∨ httpHeadersHandle = 0 ∨ Mb.methodName requestType = .null then pure .invalidArg else do
  let x ← HTTPHeaders_GetHeaderCount httpHeadersHandle true
  match x with
  | (.ok, some headersCount) => do
    let e ← ensureConnected lib g handle
    match e with
    | some r => pure r
    | none => do
      let fd ← loadInt handle fFd
      exchangeF m lib fd buf cp requestType relativePath httpHeadersHandle headersCount content contentLength statusCode responseHeadersHandle responseContent
  | _ => pure .invalidArg
theorem HTTPAPI_ExecuteRequestF_eq : HTTPAPI_ExecuteRequestF m = HTTPAPI_ExecuteRequest := by
  funext lib _ _ _ _ _ _ _ _ _ _ _ _; unfold HTTPAPI_ExecuteRequestF HTTPAPI_ExecuteRequest; simp only [exchangeF_eq]; first | done | rfl

def requestOneF (g buf cp h : Ptr) (type : Nat) (path : Option Text) (hdrs : Option (List (Text × Text))) (content : Option Text) (len : Nat)
    (status : Option Val) (rhdrs : Option (List (Text × Text))) (rcontent : Bool) : M Res := do
  let hq ← Ex.mkHeaders hdrs
  let st ← Ex.mkStatus status
  let hr ← Ex.mkHeaders rhdrs
  let cr ← mkBody rcontent
  let r ← HTTPAPI_ExecuteRequestF m lib g buf cp h type (Map.lit path) hq (Curl.dat content) (match content with | some bs => bs.length | none => len) st hr cr
  Headers.HTTPHeaders_Free hq
  free st
  Headers.HTTPHeaders_Free hr
  Buffer.BUFFER_delete cr
  pure r
theorem requestOneF_eq : requestOneF m = requestOne := by
  funext lib _ _ _ _ _ _ _ _ _ _ _ _; unfold requestOneF requestOne; simp only [HTTPAPI_ExecuteRequestF_eq]; first | done | rfl

def execF (g buf cp : Ptr) (op : Op) (env : List Nat) : M (Option Out × List Nat) :=
  match op with
  | .request i type path hdrs content len status rhdrs rcontent => on1 env i fun h => do
    let r ← requestOneF m lib g buf cp h type path hdrs content len status rhdrs rcontent
    pure (some (.result r), env)
  | op => exec lib g buf cp op env
theorem execF_eq : execF m = exec := by
  funext lib g buf cp op env; unfold execF; simp only [requestOneF_eq]; cases op <;> rfl
end

/-! ### Runs of the code on the demo -/

/-- memory of the demo: the automatic arrays (1000, 1001) and the option (1002) -/
noncomputable def demoSt (refuse : Nat → Bool) : St :=
  { heap := fun p => if p = 1000 then some blank else if p = 1001 then some [.undef] else if p = 1002 then some [.int 2] else none,
    alloc := fun t h _ => if refuse t then 0 else freshAt t h, tick := 0 }

theorem demoSt_fin {f : Nat → Bool} : (demoSt f).heap.fin := ⟨1003, fun p hp => by
  have h1 : p ≠ 1000 := by omega
  have h2 : p ≠ 1001 := by omega
  have h3 : p ≠ 1002 := by omega
  simp [demoSt, h1, h2, h3]⟩

theorem demoSt_reliable : Reliable (demoSt fun _ => false).alloc := Curl.demoSt_reliable

theorem demoSt_net {f : Nat → Bool} : NetL demoNet 1002 1000 1001 [] (demoSt f).heap := by
  have key : (1000 ↦ blank ∗ 1001 ↦ [.undef] ∗ 1002 ↦ [.int 2] ∗ emp) (demoSt f).heap := by
    refine peel rfl ⟨by decide, by rw [blank_length]; decide, rfl⟩ (peel rfl ⟨by decide, by decide, rfl⟩ (peel rfl ⟨by decide, by decide, rfl⟩ ?_))
    funext p
    simp only [demoSt]
    by_cases h1 : p = 1000
    · subst h1; rfl
    by_cases h2 : p = 1001
    · subst h2; rfl
    by_cases h3 : p = 1002
    · subst h3; rfl
    simp [h1, h2, h3, Heap.empty]
  refine (?_ : _ ⊢ₕ _) _ key
  rw [NetL_eq, demoNet, emp_sep, sep_emp, Arr_eq, Cell_eq]
  simp only [hex_sep, pand_sep, sep_hex, sep_pand]
  refine entails_ex_r Val.undef (entails_ex_r blank (entails_pand_r ?_ blank_length))
  rw [Opt]
  sep_cancel

/-- what a run returns -/
noncomputable def report (ex : Op → List Nat → M (Option Out × List Nat)) (refuse : Nat → Bool) (ops : List Op) : Option (List (Option Out)) :=
  match runOps ex ops [] (demoSt refuse) with
  | some (.ok ((outs, _), _)) => some outs
  | _ => none

/-- `log` is the record of a run of the code on a Winsock that meets the contract -/
def Recorded (Peer : Text → Wire → Prop) (J : Res → Prop) (ops : List Op) (outs : List (Option Out)) (as : List (Option Obj)) (log : Log) : Prop :=
  ∃ (lib : Lib) (g : Ptr) (Net : List Ev → HProp) (Sk : Nat → Option Wire → HProp) (At : Nat → Text → Prop) (P : Text → Wire → Prop) (buf cp : Ptr) (s : St) (env : List Nat) (s' : St),
    Honours True lib g Net Sk At Peer True J ∧ Served True True Peer P ∧ s.heap.fin ∧ Reliable s.alloc ∧ NetL Net g buf cp [] s.heap ∧ (∀ op ∈ ops, good op) ∧
    runOps (exec lib g buf cp) ops [] s = some (.ok ((outs, env), s')) ∧
    Runs (step True True J Peer) ([], []) ops outs (as, log) ∧ (Own (ORep (ServedR P Sk)) env as ∗ NetL Net g buf cp log) s'.heap

/-- from a computed run to its record -/
theorem read_report {d : Net0} {resp : Text} (hd : d.plan = echo resp) (hr : Whole resp) {ops : List Op} {outs : List (Option Out)} (hops : ∀ op ∈ ops, good op)
    (h : report (exec (wsa d) 1002 1000 1001) (fun _ => false) ops = some outs) : ∃ as log, Recorded (demoPeer (echo resp)) (· = d.junk) ops outs as log := by
  have H := wsa_honours (rel := True) d (by rw [hd]; exact Nat.one_pos) (g := 1002)
  rw [hd] at H
  have S := echo_served (rel := True) hr
  obtain ⟨outs', env, as, log, s', k1, k2, k3⟩ := histories_run H S trivial ops hops (demoSt fun _ => false) demoSt_fin demoSt_reliable demoSt_net
  unfold report at h
  rw [k1] at h
  obtain rfl : outs' = outs := by simpa using h
  exact ⟨as, log, _, _, _, _, _, _, _, _, _, env, s', H, S, demoSt_fin, demoSt_reliable, demoSt_net, hops, k1, k2, k3⟩

def sampleOuts : List (Option Out) :=
  [some .handle, some (.result .invalidArg), some .handle, some (.result .ok), some (.result .ok), some (.result .ok), some .done, some (.result .invalidArg)]

theorem sample_run : report (exec (wsa { plan := echo answer }) 1002 1000 1001) (fun _ => false) sample = some sampleOuts := by
  rw [← execF_eq 40]; decide +kernel

theorem sample_good : ∀ op ∈ sample, good op := by
  intro op hop
  simp only [sample, List.mem_cons, List.not_mem_nil, or_false] at hop
  rcases hop with rfl | rfl | rfl | rfl | rfl | rfl | rfl | rfl <;>
    simp [good, okText, Ex.okPairs, Ex.okBytes, text, NoNul, maxObj, total, headerLine] <;> decide +kernel

/-- the hypotheses of the theorems about histories, and `hJ`, are met by a run in which requests succeed -/
theorem sample_recorded : ∃ as log, Recorded (demoPeer (echo answer)) (· = .error) sample sampleOuts as log := read_report (d := { plan := echo answer }) rfl answer_whole sample_good sample_run
example : ∀ r, r = Curl.Res.error → Mute r := by rintro r rfl; simp [Mute]

/-- a request -/
def get : Op := .request 0 0 (some (text "/q")) (some []) none 0 none none true

theorem get_good : ∀ op ∈ [.create (some (text "h")), get, get], good op := by
  intro op hop
  simp only [List.mem_cons, List.not_mem_nil, or_false] at hop
  rcases hop with rfl | rfl | rfl <;> simp [get, good, okText, Ex.okPairs, Ex.okBytes, text, NoNul, maxObj, total, headerLine] <;> decide +kernel

/-- two requests for which the name is not known -/
theorem unknown_run : report (exec (wsa { plan := echo answer, named := false }) 1002 1000 1001) (fun _ => false) [.create (some (text "h")), get, get] =
    some [some .handle, some (.result .error), some (.result .sendRequestFailed)] := by
  rw [← execF_eq 40]; decide +kernel

/-- two requests on a handle that stays open -/
abbrev gets : List Op := Mb.gets

theorem gets_good : ∀ op ∈ gets, good op := by
  intro op hop
  simp only [gets, Mb.gets, List.mem_cons, List.not_mem_nil, or_false] at hop
  rcases hop with rfl | rfl | rfl <;> simp [good, okText, Ex.okPairs, Ex.okBytes, text, NoNul, maxObj, total, headerLine] <;> decide +kernel

theorem gets_run : report (exec (wsa { plan := echo answer }) 1002 1000 1001) (fun _ => false) gets = some [some .handle, some (.result .ok), some (.result .ok)] := by
  rw [← execF_eq 40]; decide +kernel

/-- an answered request of `gets` -/
theorem get_step {Peer : Text → Wire → Prop} {path : Text} {o : Obj} {log : Log} {as : List (Option Obj)} {log' : Log}
    (h : step True True (· = .error) Peer ([some o], log) (.request 0 0 (some path) (some []) none 0 none none true) (some (.result .ok)) (as, log')) :
    ∃ o' fd w x x' evs, as = [some o'] ∧ o'.sock = some (fd, some w) ∧ log' = log ++ [⟨0, .request x .ok x', evs⟩] ∧ x.type = 0 ∧ x.path = some path ∧ x.hdrs = some [] ∧ x.content = none ∧
      (x.rcontent = none ∨ x.rcontent = some none) := by
  rcases h with ⟨h, _⟩ | ⟨a, r, a', w', h1, ho, ⟨y, r', y', evs, hm, h4, h5, rfl⟩, h6⟩
  · simp at h
  cases h1
  cases ho
  cases h5
  cases h6
  obtain ⟨m1, m2, m3, m4, m5, m6, m7, m8⟩ := hm
  unfold ExecE at h4
  rw [m2] at h4
  cases hh : y.hdrs with
  | none => rw [hh] at h4; cases h4.1
  | some hs =>
    rw [hh] at h4
    dsimp only at h4
    obtain ⟨ps, hp, hb⟩ := m3.1 hs hh
    cases hp
    have e : hs = [] := hb
    subst e
    have hc : y.rcontent = none ∨ y.rcontent = some none := by
      rcases m8 with h | h
      · exact .inr h
      · exact .inl h.2
    rw [if_neg (by rw [m1]; omega)] at h4
    obtain ⟨r1, s1, hE, ⟨rfl, _, _⟩ | ⟨rfl, fd, rfl, h, _⟩ | ⟨rfl, fd, w, w', rfl, _, rfl⟩⟩ := h4
    · cases hE <;> contradiction
    · split at h <;> cases h
    · exact ⟨_, fd, w', y, y', evs, rfl, rfl, rfl, m1, m2, hh, m4, hc⟩

/-- C112, C114: the hypotheses of `requests_sent_partial` and `answers_matched_partial` are met by a run of two requests, whose answers say more than nothing -/
theorem gets_matched : ∃ as log o fd w, Recorded (demoPeer (echo answer)) (· = .error) gets [some .handle, some (.result .ok), some (.result .ok)] as log ∧ as[0]? = some (some o) ∧
    o.sock = some (fd, some w) ∧ (∀ c ∈ callsOf 0 log, c.broken = false) ∧ (exchanges 0 log).length = 2 ∧
    ∀ host w0, demoPeer (echo answer) host w0 → ∃ ys, Answers w0.srv w0.fin (exchanges 0 log) ys := by
  obtain ⟨as, log, hR⟩ := read_report (d := { plan := echo answer }) rfl answer_whole gets_good gets_run
  obtain ⟨lib, g, Net, Sk, At, P, buf, cp, s, env, s', _, _, _, _, _, _, _, hr, _⟩ := id hR
  obtain _ | ⟨h1, hr⟩ := hr
  obtain _ | ⟨h2, hr⟩ := hr
  obtain _ | ⟨h3, hr⟩ := hr
  obtain _ | _ := hr
  obtain ⟨r, a', w', ho, ⟨hc, hr1, rfl⟩, rfl⟩ := h1
  cases ho
  cases a' with
  | none => rw [if_pos rfl] at hr1; cases hr1
  | some o =>
    rename_i x2
    obtain ⟨as2, log2⟩ := x2
    obtain ⟨o1, fd1, w1, x1, x1', evs1, rfl, _, rfl, q1, q2, q3, q4, q5⟩ := get_step h2
    obtain ⟨o2, fd2, w2, x2, x2', evs2, rfl, hw, rfl, p1, p2, p3, p4, p5⟩ := get_step h3
    refine ⟨_, _, o2, fd2, w2, hR, rfl, hw, ?_, rfl, ?_⟩
    · intro c hc
      simp [callsOf, ofPos] at hc
      rcases hc with rfl | rfl | rfl <;> rfl
    · intro host w0 hp
      have t1 := get_text (r := .ok) (x' := x1') q1 q2 q3 q4
      have t2 := get_text (r := .ok) (x' := x2') p1 p2 p3 p4
      refine ⟨[(answer, ⟨some 200, [(text "E", text " f"), (text "Content-Length", text " 2")], ⟨text "ab", .ok, false, []⟩⟩),
        (answer, ⟨some 200, [(text "E", text " f"), (text "Content-Length", text " 2")], ⟨text "ab", .ok, false, []⟩⟩)], rfl, ?_, ?_⟩
      · intro k hk
        rw [hp.1]
        match k with
        | 0 => show (echo answer).S (List.count 10 ([] : Text)) = []; decide +kernel
        | 1 => show (echo answer).S (List.count 10 ((Called.request x1 .ok x1').text ++ [])) = _; rw [t1]; decide +kernel
        | 2 => show (echo answer).S (List.count 10 ((Called.request x1 .ok x1').text ++ ((Called.request x2 .ok x2').text ++ []))) = _; rw [t1, t2]; decide +kernel
        | k + 3 => exact absurd hk (by show ¬ k + 3 ≤ 2; omega)
      · intro k x r x' t y e1 e2
        match k with
        | 0 => cases e1; cases e2; exact ⟨by have := answer_read (fin := w0.fin) q5 (rest := []); rwa [List.append_nil] at this, rfl⟩
        | 1 => cases e1; cases e2; exact ⟨by have := answer_read (fin := w0.fin) p5 (rest := []); rwa [List.append_nil] at this, rfl⟩
        | k + 2 => cases e1

/-- C112: a handle whose host was not known; `unknown_run` shows that the code does the same -/
theorem unknown_dead {Peer : Text → Wire → Prop} : ∃ log, Runs (step True True (· = .error) Peer) ([], []) [.create (some (text "h")), get] [some .handle, some (.result .error)]
    ([some ⟨text "h", some (5, none)⟩], log) :=
  ⟨_, .cons (x1 := ([some ⟨text "h", none⟩], [⟨0, .create (some (text "h")), []⟩])) ⟨_, some ⟨text "h", none⟩, _, rfl, ⟨by simp [CreateE, text], rfl, rfl⟩, rfl⟩
    (.cons (.inr ⟨some ⟨text "h", none⟩, _, some ⟨text "h", some (5, none)⟩, _, rfl, rfl, ⟨⟨0, some (text "/q"), some [], none, 0, none, none, some none⟩, .error,
      ⟨0, some (text "/q"), some [], none, 0, none, none, some none⟩, [.socket 5], ⟨rfl, rfl, ⟨fun hs h => ⟨[], rfl, by cases h; rfl⟩, fun _ => by simp⟩, rfl, rfl, .inl rfl, ⟨by simp, by simp⟩, .inl rfl⟩,
      ⟨some .error, some (5, none), .noName rfl rfl, .inl ⟨rfl, rfl, rfl⟩⟩, rfl, rfl⟩, rfl⟩) (.nil _))⟩

/-! ### what the code does wrong -/

/-- C112: When no connection can be made the result is a variable that was not set.  If it holds 0, that is HTTPAPI_OK, the requests succeed although every connection is refused. -/
theorem success_unsent : report (exec (wsa { plan := echo answer, accepts := false, junk := .ok }) 1002 1000 1001) (fun _ => false) [.create (some (text "h")), get, get] =
    some [some .handle, some (.result .ok), some (.result .ok)] := by
  rw [← execF_eq 40]; decide +kernel

/-- a request on a handle for `host`: `none`: there is no handle; the result, what the buffer holds afterwards -/
noncomputable def fetch (ex : Lib → Ptr → Ptr → Ptr → Ptr → Nat → CharPtr → Ptr → CharPtr → Nat → Ptr → Ptr → Ptr → M Res) (d : Net0) (host : String) : M (Option (Res × Block)) := do
  let h ← HTTPAPI_CreateConnection (.str (text host))
  if h = 0 then pure none else
  let q ← Headers.HTTPHeaders_Alloc
  let b ← Buffer.BUFFER_new
  let r ← ex (wsa d) 1002 1000 1001 h 0 (.str (text "/")) q .null 0 0 0 b
  let n ← Buffer.BUFFER_length b
  let p ← Buffer.BUFFER_u_char b
  let t ← if n = 0 then pure [] else loadN p 0 n
  pure (some (r, t))

theorem ExecuteRequestF_eq (m : Nat) : HTTPAPI_ExecuteRequestF m = HTTPAPI_ExecuteRequest := by
  rw [HTTPAPI_ExecuteRequestF_eq]

/-- C115: a response whose length is given -/
example : outcome (fetch HTTPAPI_ExecuteRequest { plan := once "HTTP/1.1 200 OK\r\nA: b\r\nContent-Length: 3\r\n\r\nabc" } "10.2") (demoSt fun _ => false) =
    some (.ok (some (.ok, bytesV (text "abc")))) := by
  rw [← ExecuteRequestF_eq 40]; decide +kernel

/-- C115: If the host is an address in numbers, `sscanf` stores behind the end of `address`. -/
theorem dotted_overflow : outcome (fetch HTTPAPI_ExecuteRequest { plan := echo answer } "10.0.0.1") (demoSt fun _ => false) = some (.error (.ub "store out of bounds")) := by
  rw [← ExecuteRequestF_eq 40]; decide +kernel

/-- C115: so does every host whose name begins with three numbers and points between them -/
theorem dotted_name : outcome (fetch HTTPAPI_ExecuteRequest { plan := echo answer } "1.2.3x.net") (demoSt fun _ => false) = some (.error (.ub "store out of bounds")) := by
  rw [← ExecuteRequestF_eq 40]; decide +kernel

/-- C112: If the stream ends before the body is complete, the result still is `HTTPAPI_OK`, and the rest of the buffer was never written. -/
theorem cut_short : outcome (fetch HTTPAPI_ExecuteRequest { plan := once "HTTP/1.1 200 OK\r\nContent-Length: 3\r\n\r\na" } "h") (demoSt fun _ => false) =
    some (.ok (some (.ok, [.byte 97, .undef, .undef]))) := by
  rw [← ExecuteRequestF_eq 40]; decide +kernel

/-- C115: If the peer closes the connection before it answers, a byte is used that was never written. -/
theorem no_answer : outcome (fetch HTTPAPI_ExecuteRequest { plan := once "" } "h") (demoSt fun _ => false) = some (.error (.ub "byte read of a slot that holds no byte")) := by
  rw [← ExecuteRequestF_eq 40]; decide +kernel

end Verif.Wce
