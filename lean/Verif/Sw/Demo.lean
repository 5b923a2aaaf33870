import Verif.Sw.History
import Verif.Sw.Ledger
import Verif.Sock.Demo
/-!
# A Winsock that meets the contract, and what the code does on it

The history theorems are not vacuous, and the parts of C96 and C97 that are missing are false: each counterexample is
a run of the model on this system, with what the sockets and the callbacks have seen read back from the system's memory.
-/
namespace Verif.Sw
open Verif.Headers
open Verif.Sock (Obj Pend HostArg Target CreateE opened Act SockR code code_append code_inj clip clip_ok i32 opening remove_eq last_eq)

/-- what is kept of a call: the sockets made (100 + number) and the sockets that took bytes -/
def Ev.mark : Ev → List UInt8
  | .socket fd => [UInt8.ofNat (100 + fd.toNat)]
  | .send fd _ r => if 0 < r then [UInt8.ofNat fd.toNat] else []
  | _ => []

def Ev.isDone : Ev → Bool | .completed .. => true | _ => false
def Ev.isErr : Ev → Bool | .error .. => true | _ => false

/-- The system keeps one block at address 1000: the number of calls received, the bytes taken by the sockets, the marks (both written in base 256 after a
leading 1), and the numbers of completions and of errors reported. -/
def note (taken marks : List UInt8) (d e : Nat) : M Nat := do
  let n ← loadInt 1000 0
  let c ← loadInt 1000 1
  let m ← loadInt 1000 2
  let x ← loadInt 1000 3
  let y ← loadInt 1000 4
  store 1000 0 (.int (n + 1))
  store 1000 1 (.int (taken.foldl (fun a b => 256 * a + b.toNat) c))
  store 1000 2 (.int (marks.foldl (fun a b => 256 * a + b.toNat) m))
  store 1000 3 (.int (x + d))
  store 1000 4 (.int (y + e))
  pure n

/-- `plan n`: what call number `n` should return, if that is possible -/
def demoOs (plan : Nat → Int) : Os where
  socket := do
    let n ← loadInt 1000 0
    let _ ← note [] [UInt8.ofNat (100 + (clip (plan n) (2 ^ 31)).toNat)] 0 0
    pure (clip (plan n) (2 ^ 31))
  getaddrinfo _ _ := do let n ← note [] [] 0 0; pure (plan n, n)
  connect _ _ := do let n ← note [] [] 0 0; pure (plan n)
  freeaddrinfo _ := do let _ ← note [] [] 0 0; pure ()
  ioctl _ := do let n ← note [] [] 0 0; pure (plan n)
  close _ := do let n ← note [] [] 0 0; pure (plan n)
  send fd bs := do
    let n ← loadInt 1000 0
    let _ ← note (bs.take (clip (plan n) bs.length).toNat) (if 0 < clip (plan n) bs.length then [UInt8.ofNat fd.toNat] else []) 0 0
    pure (clip (plan n) bs.length)
  recv _ := do let n ← note [] [] 0 0; pure (clip (plan n) 1, 7)
  lastError := do let n ← note [] [] 0 0; pure (plan n)
  on_io_open_complete _ _ _ := do let _ ← note [] [] 0 0; pure ()
  on_io_close_complete _ _ := do let _ ← note [] [] 0 0; pure ()
  on_send_complete _ _ _ := do let _ ← note [] [] 1 0; pure ()
  on_bytes_received _ _ _ := do let _ ← note [] [] 0 0; pure ()
  on_io_error _ _ := do let _ ← note [] [] 0 1; pure ()

def demoNet (tr : List Ev) : HProp := 1000 ↦ [.int tr.length, .int (code (tr.flatMap Ev.taken)), .int (code (tr.flatMap Ev.mark)), .int (tr.countP Ev.isDone), .int (tr.countP Ev.isErr)]

theorem note_spec {rel : Prop} (tr : List Ev) (t m : List UInt8) (d e : Nat) : Triple rel (demoNet tr) (note t m d e)
    (fun r => (r = tr.length) ⋏ 1000 ↦ [.int (tr.length + 1), .int (code (tr.flatMap Ev.taken ++ t)), .int (code (tr.flatMap Ev.mark ++ m)), .int (tr.countP Ev.isDone + d), .int (tr.countP Ev.isErr + e)]) := by
  unfold note demoNet
  stepd (loadInt_spec (n := tr.length) ?_)
  stepd (loadInt_spec (n := code (tr.flatMap Ev.taken)) ?_)
  stepd (loadInt_spec (n := code (tr.flatMap Ev.mark)) ?_)
  stepd (loadInt_spec (n := tr.countP Ev.isDone) ?_)
  stepd (loadInt_spec (n := tr.countP Ev.isErr) ?_)
  stepd (store_spec ?_)
  stepd (store_spec ?_)
  stepd (store_spec ?_)
  stepd (store_spec ?_)
  stepd (store_spec ?_)
  refine Triple.pure (entails_pand_r ?_ rfl)
  rw [code_append, code_append]
  exact entails_refl _

theorem demo_honours {rel : Prop} (plan : Nat → Int) : Honours rel (demoOs plan) demoNet (fun _ => emp) (fun _ => emp) := by
  have net : ∀ (tr : List Ev) (e : Ev) (t m : List UInt8) (d n : Nat), e.taken = t → e.mark = m → (if e.isDone then 1 else 0) = d → (if e.isErr then 1 else 0) = n →
      1000 ↦ [.int (tr.length + 1), .int (code (tr.flatMap Ev.taken ++ t)), .int (code (tr.flatMap Ev.mark ++ m)), .int (tr.countP Ev.isDone + d), .int (tr.countP Ev.isErr + n)] ⊢ₕ demoNet (tr ++ [e]) := by
    rintro tr e _ _ _ _ rfl rfl rfl rfl
    unfold demoNet
    rw [List.length_append, List.flatMap_append, List.flatMap_append, List.countP_append, List.countP_append]
    simp [List.countP_cons]
    exact entails_refl _
  have hl : ∀ tr, Triple rel (demoNet tr) (loadInt 1000 0) (fun n => (n = tr.length) ⋏ demoNet tr) := by
    intro tr
    unfold demoNet
    exact loadInt_spec rfl
  constructor
  case socket =>
    intro tr
    unfold demoOs
    step (hl tr)
    step (note_spec tr _ _ _ _)
    refine Triple.pure (entails_pand_r ?_ ⟨(clip_ok _ _).1, (clip_ok _ _).2.2⟩)
    simp only [ite_self, sep_emp]
    exact net _ _ _ _ _ _ rfl rfl rfl rfl
  case getaddrinfo =>
    intro s h port tr
    unfold demoOs
    step (note_spec tr [] [] 0 0)
    refine Triple.pure ?_
    simp only [ite_self, sep_emp]
    exact sep_mono (net _ _ _ _ _ _ rfl rfl rfl rfl) (entails_refl _)
  case send =>
    intro fd bs tr
    rw [sep_emp]
    unfold demoOs
    step (hl tr)
    step (note_spec tr _ _ _ _)
    refine Triple.pure (entails_pand_r ?_ (clip_ok _ _))
    rw [sep_emp]
    exact net _ _ _ _ _ _ rfl rfl rfl rfl
  case recv =>
    intro fd tr
    rw [sep_emp]
    unfold demoOs
    step (note_spec tr [] [] 0 0)
    refine Triple.pure (entails_pand_r ?_ ⟨(clip_ok _ _).1, (clip_ok _ _).2.1⟩)
    rw [sep_emp]
    exact net _ _ _ _ _ _ rfl rfl rfl rfl
  all_goals
    intros
    try rw [sep_emp]
    try rw [sep_emp]
    try simp only [sep_emp]
    unfold demoOs
    step (note_spec _ _ _ _ _)
    exact Triple.pure (net _ _ _ _ _ _ rfl rfl rfl rfl)

/-- memory of the demo: the system's block; allocation number `t` is at `2000 + t`, except the refused ones -/
def demoSt (refuse : Nat → Bool) : St :=
  { heap := fun p => if p = 1000 then some [.int 0, .int 1, .int 1, .int 0, .int 0] else none, alloc := fun t _ _ => if refuse t then 0 else 2000 + t, tick := 0 }

theorem demoSt_fin {f : Nat → Bool} : (demoSt f).heap.fin := ⟨1001, fun p hp => by
  have : p ≠ 1000 := by omega
  simp [demoSt, this]⟩

theorem demoSt_net {f : Nat → Bool} : demoNet [] (demoSt f).heap := by
  refine ⟨by decide, by decide, ?_⟩
  funext p
  simp [demoSt, Heap.single]
  rfl

/-- the history theorem applies -/
theorem demo_run (plan : Nat → Int) (refuse : Nat → Bool) (ops : List Op) (hops : ∀ op ∈ ops, good op) :
    ∃ outs env as log s', runOps (exec (demoOs plan)) ops [] (demoSt refuse) = some (.ok ((outs, env), s')) ∧
      Runs (step True) ([], []) ops outs (as, log) ∧ (Own (ORep (SockR fun _ => emp)) env as ∗ demoNet (trace log)) s'.heap :=
  histories_run (demo_honours plan) ops hops _ demoSt_fin demoSt_net

/-- the calls of the record are the operations and the results -/
theorem log_outs {oom : Prop} {x x' : World} {ops : List Op} {outs : List (Option Int)} (h : Runs (step oom) x ops outs x') :
    x'.2.map (fun e => (e.op, e.r)) = x.2.map (fun e => (e.op, e.r)) ++ (ops.zip outs).filterMap (fun y => y.2.map fun r => (y.1, r)) := by
  induction h with
  | nil => simp
  | cons h1 _ ih =>
    rw [ih, List.zip_cons_cons, List.filterMap_cons]
    rcases step_cases h1 with ⟨rfl, rfl⟩ | ⟨r, a', evs, hN, rfl, rfl⟩ | ⟨j, a, r, a', evs, hj, hE, rfl, rfl⟩ <;> simp

/-- all calls were made on the only handle -/
theorem one_handle {oom : Prop} {ops : List Op} {outs : List (Option Int)} {as : List (Option Obj)} {log : Log}
    (h : Runs (step oom) ([], []) ops outs (as, log)) (h1 : as.length = 1) : ofPos 0 log = log := by
  have hp := at_pos (Inv := fun _ _ => True) (by intros; trivial) (by intros; trivial) h
  unfold ofPos
  rw [List.filter_eq_self]
  intro e he
  simp only [decide_eq_true_eq]
  by_cases h0 : e.pos = 0
  · exact h0
  · have := (hp e.pos).1 (by omega)
    unfold ofPos at this
    rw [List.filter_eq_nil_iff] at this
    exact absurd (decide_eq_true rfl) (this e he)

/-- what a client with one handle knows to be accepted: the buffers of the sends that returned 0 -/
def acceptedOf (ops : List Op) (outs : List (Option Int)) : List UInt8 :=
  (ops.zip outs).flatMap fun y =>
    match y.1 with
    | .send _ (some bs) _ _ => if y.2 = some 0 then bs else []
    | _ => []

theorem acceptedBytes_of {oom : Prop} {ops : List Op} {outs : List (Option Int)} {as : List (Option Obj)} {log : Log}
    (h : Runs (step oom) ([], []) ops outs (as, log)) (h1 : as.length = 1) : acceptedBytes 0 log = acceptedOf ops outs := by
  have hl := log_outs h
  simp only [List.map_nil, List.nil_append] at hl
  have e1 : acceptedBytes 0 log = ((log.map fun e => (e.op, e.r)).filterMap fun x => Entry.sent ⟨0, x.1, x.2, []⟩).flatMap (·.1) := by
    unfold acceptedBytes accepted
    rw [one_handle h h1, List.filterMap_map]
    rfl
  rw [e1, hl, List.filterMap_filterMap]
  unfold acceptedOf
  generalize ops.zip outs = z
  induction z with
  | nil => rfl
  | cons y z ih =>
    rw [List.filterMap_cons, List.flatMap_cons, ← ih]
    obtain ⟨op, o⟩ := y
    cases o with
    | none => cases op <;> simp <;> split <;> simp
    | some r =>
      cases op with
      | send i bs cb ctx =>
        cases bs with
        | none => simp [Entry.sent]
        | some bs => by_cases hr : r = 0 <;> simp [hr, Entry.sent]
      | _ => simp [Entry.sent]

/-- The results of a run, the number of handles, and the system's block: the number of calls received, and the bytes
taken by the sockets. -/
def report (plan : Nat → Int) (refuse : Nat → Bool) (ops : List Op) : Option (List (Option Int) × Nat × Option Block) :=
  match runOps (exec (demoOs plan)) ops [] (demoSt refuse) with
  | some (.ok ((outs, env), s')) => some (outs, env.length, s'.heap 1000)
  | _ => none

/-- `log` is the record of a run of the code on a system that meets the contract: the results are `outs`, and the
system's memory is that after the calls of the record. -/
def Recorded (ops : List Op) (outs : List (Option Int)) (log : Log) : Prop :=
  ∃ (os : Os) (Net : List Ev → HProp) (Fd : Int → HProp) (Ai : Nat → HProp) (s : St) (env : List Nat) (as : List (Option Obj)) (s' : St),
    Honours False os Net Fd Ai ∧ s.heap.fin ∧ Net [] s.heap ∧ (∀ op ∈ ops, good op) ∧
    runOps (exec os) ops [] s = some (.ok ((outs, env), s')) ∧
    Runs (step True) ([], []) ops outs (as, log) ∧ (Own (ORep (SockR Fd)) env as ∗ Net (trace log)) s'.heap

/-- from a computed run to the record of calls -/
theorem read_report {plan : Nat → Int} {refuse : Nat → Bool} {ops : List Op} (hops : ∀ op ∈ ops, good op) {outs : List (Option Int)} {bs ms : List UInt8} {n d e : Nat}
    (h : report plan refuse ops = some (outs, 1, some [.int n, .int (code bs), .int (code ms), .int d, .int e])) :
    ∃ log, Recorded ops outs log ∧ stream 0 log = bs ∧ acceptedBytes 0 log = acceptedOf ops outs ∧ (trace log).length = n ∧
      (trace log).flatMap Ev.mark = ms ∧ (trace log).countP Ev.isDone = d ∧ (trace log).countP Ev.isErr = e := by
  obtain ⟨outs', env, as, log, s', h1, h2, h3⟩ := demo_run plan refuse ops hops
  unfold report at h
  rw [h1] at h
  simp only [Option.some.injEq, Prod.mk.injEq] at h
  obtain ⟨rfl, h4, h5⟩ := h
  have hl : as.length = 1 := by
    obtain ⟨_, _, _, _, ho, _⟩ := h3
    rw [← h4]; exact (Own_len _ ho).symm
  have key : (trace log).length = n ∧ code ((trace log).flatMap Ev.taken) = code bs ∧ code ((trace log).flatMap Ev.mark) = code ms ∧
      (trace log).countP Ev.isDone = d ∧ (trace log).countP Ev.isErr = e := by
    obtain ⟨a, b, hd, hu, _, _, _, hb⟩ := h3
    have ha : a 1000 = none := by
      cases ha : a 1000 with
      | none => rfl
      | some x => exact absurd hd (by
          intro hd
          have := hd 1000
          simp [hb, Heap.single, ha] at this)
    rw [hu, hb] at h5
    simpa [Heap.union, ha, Heap.single] using h5
  refine ⟨log, ⟨_, _, _, _, _, env, as, s', demo_honours plan, demoSt_fin, demoSt_net, hops, h1, h2, h3⟩, ?_, acceptedBytes_of h2 hl, key.1, code_inj key.2.2.1, key.2.2.2⟩
  unfold stream
  rw [one_handle h2 hl]
  exact code_inj key.2.1

/-! ## C96, C97: counterexamples -/

/-- the open (calls 0 to 5) succeeds, then the results of the calls -/
def thenR (rs : List Int) (n : Nat) : Int := if n ≤ 5 then 0 else rs.getD (n - 6) (-1)

theorem good_opening {ops : List Op} (h : ∀ op ∈ ops, good op) : ∀ op ∈ opening ++ ops, good op := by
  intro op hop
  rcases List.mem_append.1 hop with hm | hm
  · simp [opening] at hm
    rcases hm with rfl | rfl
    · refine ⟨?_, by simp [maxObj], by simp [i32]⟩
      simp [NoNul]
    · trivial
  · exact h op hm

def dupOps : List Op := opening ++ [.send 0 (some [1, 2]) 9 5, .dowork 0 3 1]

theorem dup_report : report (thenR [1, 10035, 2, 0, -1, 10035]) (fun _ => false) dupOps =
    some ([some 1, some 0, some 0, some 1], 1, some [.int 12, .int (code [1, 1, 2]), .int (code [100, 0, 0]), .int 1, .int 0]) := by
  unfold report exec socketio_dowork sendLoop sendLoop sendRound finishPending List.list_remove
  rw [remove_eq]
  decide +kernel

/-- C96 fails: bytes are sent again.  The socket takes a part, `WSAGetLastError` still says that a call would have blocked, and the whole buffer is queued. -/
theorem duplicates_bytes : ∃ ops outs log, Recorded ops outs log ∧ acceptedBytes 0 log = [1, 2] ∧ stream 0 log = [1, 1, 2] := by
  obtain ⟨log, h1, h2, h3, _⟩ := read_report (good_opening (by simp [good])) dup_report
  exact ⟨_, _, log, h1, h3, h2⟩

def refOps : List Op := opening ++ [.send 0 (some [1, 2]) 9 5]

theorem ref_report : report (thenR [1, 0]) (fun _ => false) refOps =
    some ([some 1, some 0, some 394], 1, some [.int 9, .int (code [1]), .int (code [100, 0]), .int 0, .int 1]) := by
  decide +kernel

/-- C96 fails: a send that is reported as failed has sent a part of the buffer. -/
theorem refused_bytes : ∃ ops outs log, Recorded ops outs log ∧ acceptedBytes 0 log = [] ∧ stream 0 log = [1] := by
  obtain ⟨log, h1, h2, h3, _⟩ := read_report (good_opening (by simp [good])) ref_report
  exact ⟨_, _, log, h1, h3, h2⟩

def holeOps : List Op := opening ++ [.send 0 (some [1]) 9 5, .send 0 (some [2]) 9 6, .dowork 0 3 1]

theorem hole_report : report (thenR [-1, 10035, -1, 10054, 1, 0, -1, 10035]) (fun _ => false) holeOps =
    some ([some 1, some 0, some 0, some 0, some 1], 1, some [.int 14, .int (code [2]), .int (code [100, 0]), .int 1, .int 0]) := by
  unfold report exec socketio_send Sock.add_pending_io List.list_add
  rw [last_eq]
  unfold socketio_dowork sendLoop sendLoop sendLoop sendRound finishPending List.list_remove
  rw [remove_eq]
  decide +kernel

/-- C96 fails: a queued buffer on which the socket fails is left out, and the next one is sent. -/
theorem skips_bytes : ∃ ops outs log, Recorded ops outs log ∧ acceptedBytes 0 log = [1, 2] ∧ stream 0 log = [2] := by
  obtain ⟨log, h1, h2, h3, _⟩ := read_report (good_opening (by simp [good])) hole_report
  exact ⟨_, _, log, h1, h3, h2⟩

def silentOps : List Op := opening ++ [.send 0 (some [1]) 9 5, .dowork 0 3 1]

theorem silent_report : report (thenR [-1, 10035, -1, 10054, -1, 10035]) (fun _ => false) silentOps =
    some ([some 1, some 0, some 0, some 1], 1, some [.int 12, .int (code []), .int (code [100]), .int 0, .int 0]) := by
  unfold report exec socketio_dowork sendLoop sendLoop sendRound finishPending List.list_remove
  rw [remove_eq]
  decide +kernel

/-- C97 fails: an accepted send whose bytes are thrown away is reported neither as completed nor as failed, and no error is indicated. -/
theorem silent_loss : ∃ outs log, Recorded silentOps outs log ∧ outs = [some 1, some 0, some 0, some 1] ∧ acceptedBytes 0 log = [1] ∧ stream 0 log = [] ∧
    (∀ f c ok, Ev.completed f c ok ∉ trace log) ∧ ∀ f c, Ev.error f c ∉ trace log := by
  obtain ⟨log, h1, h2, h3, _, _, h4, h5⟩ := read_report (good_opening (by simp [good])) silent_report
  refine ⟨_, log, h1, rfl, h3, h2, fun f c ok hm => ?_, fun f c hm => ?_⟩
  · exact List.countP_eq_zero.1 h4 _ hm rfl
  · exact List.countP_eq_zero.1 h5 _ hm rfl

def staleOps : List Op := opening ++ [.send 0 (some [1]) 9 5, .close 0 7 1, .opn 0 1 0 2 0 3 0, .dowork 0 3 1]

theorem stale_report : report (thenR [-1, 10035, 0, 0, 5, 0, 0, 0, 0, 0, 1, 0, -1, 10035]) (fun _ => false) staleOps =
    some ([some 1, some 0, some 0, some 0, some 0, some 1], 1, some [.int 20, .int (code [1]), .int (code [100, 105, 5]), .int 1, .int 0]) := by
  unfold report exec socketio_dowork sendLoop sendLoop sendRound finishPending List.list_remove
  rw [remove_eq]
  decide +kernel

/-- C96 fails: bytes accepted on one connection (socket 0) are sent on the next (socket 5): closing does not empty the queue. -/
theorem wrong_connection : ∃ outs log, Recorded staleOps outs log ∧ outs = [some 1, some 0, some 0, some 0, some 0, some 1] ∧ stream 0 log = [1] ∧
    (trace log).flatMap Ev.mark = [100, 105, 5] := by
  obtain ⟨log, h1, h2, _, _, h3, _⟩ := read_report (good_opening (by simp [good])) stale_report
  exact ⟨_, log, h1, rfl, h2, h3⟩

/-! ## C99: `socketio_dowork` need not return -/

/-- a system whose sockets are always busy -/
def busyOs : Os where
  socket := pure 0
  getaddrinfo _ _ := pure (0, 1)
  connect _ _ := pure 0
  freeaddrinfo _ := pure ()
  ioctl _ := pure 0
  close _ := pure 0
  send _ _ := pure (-1)
  recv _ := pure (-1, 0)
  lastError := pure WSAEWOULDBLOCK
  on_io_open_complete _ _ _ := pure ()
  on_io_close_complete _ _ := pure ()
  on_send_complete _ _ _ := pure ()
  on_bytes_received _ _ _ := pure ()
  on_io_error _ _ := pure ()

/-- what such a system answers -/
def Ev.busyOk : Ev → Prop
  | .socket fd => fd = 0
  | .getaddrinfo _ _ err _ => err = 0
  | .connect _ _ err => err = 0
  | .ioctl _ r => r = 0
  | .send _ _ r => r = -1
  | .recv _ r _ => r = -1
  | .lastError e => e = WSAEWOULDBLOCK
  | _ => True

def busyNet (tr : List Ev) : HProp := (∀ e ∈ tr, e.busyOk) ⋏ emp

theorem busy_snoc {tr : List Ev} {e : Ev} (he : e.busyOk) : busyNet tr ⊢ₕ busyNet (tr ++ [e]) := by
  unfold busyNet
  refine entails_pand_l fun h => entails_pand_r (entails_refl _) fun x hx => ?_
  rcases List.mem_append.1 hx with h1 | h1
  · exact h x h1
  · simp at h1; subst h1; exact he

theorem busy_honours {rel : Prop} : Honours rel busyOs busyNet (fun _ => emp) (fun _ => emp) := by
  constructor <;> intros <;> (try simp only [sep_emp, ite_self]) <;> unfold busyOs <;> refine Triple.pure ?_
  case send => exact entails_pand_r (busy_snoc rfl) ⟨by omega, by omega, by omega⟩
  case recv => exact entails_pand_r (busy_snoc rfl) ⟨by omega, by omega⟩
  case socket => exact entails_pand_r (busy_snoc rfl) ⟨by omega, by omega⟩
  case getaddrinfo => exact sep_mono (busy_snoc rfl) (entails_refl _)
  all_goals first | exact busy_snoc rfl | exact busy_snoc trivial

/-- a busy socket never empties the queue -/
theorem busy_loop {o o' : Obj} {fin : Bool} {k : Nat} {evs : List Ev} (h : SendLoop k o fin o' evs) (hp : o.pending ≠ []) (hb : ∀ e ∈ evs, e.busyOk) :
    fin = false := by
  induction h with
  | done h => exact absurd h hp
  | cut => rfl
  | @whole k o p ps fin o' evs h1 _ _ =>
    have : (p.bytes.length : Int) = -1 := hb (.send o.socket p.bytes p.bytes.length) (by simp)
    omega
  | fail n e _ _ _ he _ _ => exact absurd (hb (.lastError e) (by simp)) he
  | again n _ _ _ _ ih => exact ih hp fun e he => hb e (by simp [he])

/-- memory: nothing allocated yet, and there is always room -/
noncomputable def emptySt : St := { heap := fun _ => none, alloc := fun _ h _ => Classical.epsilon fun p => p ≠ 0 ∧ h p = none, tick := 0 }

theorem emptySt_reliable : Reliable emptySt.alloc := by
  rintro t h n ⟨N, hN⟩ _
  exact Classical.epsilon_spec (p := fun p => p ≠ 0 ∧ h p = none) ⟨N + 1, by omega, hN _ (by omega)⟩

def busyOps (n m : Nat) : List Op := opening ++ [.send 0 (some [1]) 9 5, .dowork 0 n m]

theorem busy_send {oom : Prop} {o : Obj} {bs : List UInt8} {cb ctx : Nat} {r : Int} {a' : Option Obj} {evs : List Ev} (h1 : o.state = .opn) (h2 : o.pending = []) (h3 : bs ≠ [])
    (h : SendE oom (some bs) cb ctx (some o) r a' evs) :
    (r = 0 ∧ a' = some o ∧ evs = .send o.socket bs bs.length :: evCompleted cb ctx) ∨
      ∃ n e : Int, -1 ≤ n ∧ n < bs.length ∧
        ((e ≠ WSAEWOULDBLOCK ∧ r ≠ 0 ∧ a' = some o ∧ evs = .send o.socket bs n :: .lastError e :: evError o) ∨
         (e = WSAEWOULDBLOCK ∧ evs = [.send o.socket bs n, .lastError e] ∧
            ((r = 0 ∧ a' = some { o with pending := [⟨bs, cb, ctx⟩] }) ∨ (r ≠ 0 ∧ oom ∧ a' = some o)))) := by
  simp only [SendE] at h
  rw [if_neg (by simp [h1, h3]), if_neg (by simp [h2])] at h
  exact h

theorem busy_work {o : Obj} {n m : Nat} {fin : Bool} {a' : Option Obj} {evs : List Ev} (h1 : o.state = .opn) (h : DoworkE n m (some o) fin a' evs) :
    ∃ o', a' = some o' ∧ ((fin = false ∧ SendLoop n o false o' evs) ∨ ∃ e1 e2, evs = e1 ++ e2 ∧ SendLoop n o true o' e1 ∧ RecvLoop o' m fin e2) := by
  simp only [DoworkE] at h
  rw [if_neg (by simp [h1])] at h
  exact h

theorem busy_results {n m : Nat} {outs : List (Option Int)} {x : World} (h : Runs (step (¬ True)) ([], []) (busyOps n m) outs x)
    (hb : ∀ e ∈ trace x.2, e.busyOk) : outs = [some 1, some 0, some 0, some 0] := by
  simp only [busyOps, opening, List.cons_append, List.nil_append] at h
  cases h with | cons h1 h => ?_
  cases h with | cons h2 h => ?_
  cases h with | cons h3 h => ?_
  cases h with | cons h4 h => ?_
  cases h
  obtain ⟨b, a', w', rfl, ⟨ok, hc, rfl, rfl⟩, rfl⟩ := h1
  rcases hc with ⟨_, _, h0 | ⟨h0, _⟩⟩ | ⟨rfl, _, rfl⟩
  · simp at h0
  · simp at h0
  rcases h2 with ⟨h0, _⟩ | ⟨a2, r2, a2', w2, ha, rfl, ⟨evs2, hE2, rfl⟩, rfl⟩
  · simp at h0
  simp at ha; subst ha
  rcases h3 with ⟨h0, _⟩ | ⟨a3, r3, a3', w3, ha, rfl, ⟨evs3, hE3, rfl⟩, rfl⟩
  · simp at h0
  simp at ha; subst ha
  rcases h4 with ⟨h0, _⟩ | ⟨a4, r4, a4', w4, ha, rfl, ⟨fin, evs4, hE4, rfl, rfl⟩, rfl⟩
  · simp at h0
  simp at ha; subst ha
  have t : ∀ e ∈ evs2 ++ (evs3 ++ evs4), e.busyOk := fun e he => hb e (by simpa [trace] using he)
  have hE2' : r2 = 0 ∧ a2' = some (opened ⟨-1, 0, 0, 0, 0, 0, some [104], 80, .closed, []⟩ 0 2 0 3 0) := by
    simp only [OpenE] at hE2
    rw [if_neg (by simp), if_neg (by simp)] at hE2
    rcases hE2 with ⟨_, _, rfl⟩ | ⟨fd, _, _, ⟨err, ai, h0, _, _, rfl⟩ | ⟨ai, ⟨err, h0, _, _, rfl⟩ | ⟨err, h0, _, _, rfl⟩ | ⟨h0, h1, rfl⟩⟩⟩
    · have := t (.socket (-1)) (by simp); simp [Ev.busyOk] at this
    · exact absurd (t (.getaddrinfo (some [104]) 80 err ai) (by simp)) h0
    · exact absurd (t (.connect fd ai err) (by simp)) h0
    · exact absurd (t (.ioctl fd err) (by simp)) h0
    · have : fd = 0 := t (.socket fd) (by simp)
      subst this
      exact ⟨h0, by simpa using h1⟩
  obtain ⟨rfl, rfl⟩ := hE2'
  have hE3' : r3 = 0 ∧ a3' = some { opened ⟨-1, 0, 0, 0, 0, 0, some [104], 80, .closed, []⟩ 0 2 0 3 0 with pending := [⟨[1], 9, 5⟩] } := by
    replace hE3 := busy_send (o := opened ⟨-1, 0, 0, 0, 0, 0, some [104], 80, .closed, []⟩ 0 2 0 3 0) rfl rfl (by simp) hE3
    rcases hE3 with ⟨_, _, rfl⟩ | ⟨n, e, _, _, ⟨he, _, _, rfl⟩ | ⟨_, _, h0 | ⟨_, h0, _⟩⟩⟩
    · have : (1 : Int) = -1 := t (.send 0 [1] 1) (by simp [opened])
      simp at this
    · exact absurd (t (.lastError e) (by simp)) he
    · exact h0
    · simp at h0
  obtain ⟨rfl, rfl⟩ := hE3'
  have : fin = false := by
    obtain ⟨o', _, ⟨h, _⟩ | ⟨e1, e2, rfl, hl, _⟩⟩ := busy_work rfl hE4
    · exact h
    · have := busy_loop hl (by simp) (fun e he => t e (by simp [he]))
      simp at this
  subst this
  rfl

/-- C99 fails: on a socket that stays busy, `socketio_dowork` with a queued buffer is still running after any number of rounds. -/
theorem never_returns (n m : Nat) : ∃ log, Recorded (busyOps n m) [some 1, some 0, some 0, some 0] log := by
  have hg : ∀ op ∈ busyOps n m, good op := good_opening (by simp [good])
  have hf : emptySt.heap.fin := ⟨0, fun _ _ => rfl⟩
  have h0 : busyNet [] emptySt.heap := by
    refine ⟨by simp, ?_⟩
    funext p
    rfl
  have t := histories (busy_honours (rel := True)) (busyOps n m) hg [] ([], [])
  have t : Triple True (busyNet []) _ _ := t.pre (entails_of_eq (by rw [OwnW, Own_nil, emp_sep]; rfl))
  obtain ⟨r, s', h1, ⟨x', hx, hh⟩⟩ := t.run emptySt hf (fun _ => emptySt_reliable) h0
  have hb : ∀ e ∈ trace x'.2, e.busyOk := by
    obtain ⟨_, _, _, _, _, hb, _⟩ := hh
    exact hb
  have ho := busy_results hx hb
  obtain ⟨outs, env, as, log, s2, k1, k2, k3⟩ := histories_run (busy_honours (rel := False)) (busyOps n m) hg emptySt hf h0
  rw [h1] at k1
  obtain ⟨rfl, rfl⟩ := k1
  rw [← ho]
  exact ⟨log, _, _, _, _, _, env, as, s', busy_honours, hf, h0, hg, h1, k2, k3⟩

/-! ## What a successful history looks like -/

/-- direct send, busy socket, the queued buffer is sent by `socketio_dowork`, received byte, close, close again, send -/
def fineOps : List Op := opening ++ [.send 0 (some [1, 2]) 9 5, .send 0 (some [3, 4]) 9 6, .dowork 0 4 4, .close 0 7 1, .close 0 7 1, .send 0 (some [1]) 9 7]

theorem fine_report : report (thenR [2, 0, -1, 10035, -1, 10035, 2, 0, 1, 0, -1, 10035, 0]) (fun _ => false) fineOps =
    some ([some 1, some 0, some 0, some 0, some 1, some 0, some 329, some 367], 1, some [.int 20, .int (code [1, 2, 3, 4]), .int (code [100, 0, 0]), .int 2, .int 0]) := by
  unfold report exec socketio_dowork sendLoop sendLoop sendLoop sendRound finishPending List.list_remove
  rw [remove_eq]
  decide +kernel

/-- the hypotheses of the theorems of the ledger are met by a run in which bytes are sent directly, queued and completed -/
example : ∃ outs log, Recorded fineOps outs log ∧ stream 0 log = [1, 2, 3, 4] ∧ acceptedBytes 0 log = [1, 2, 3, 4] ∧ (trace log).length = 20 := by
  obtain ⟨log, h1, h2, h3, h4, _⟩ := read_report (good_opening (by simp [good])) fine_report
  exact ⟨_, log, h1, h2, h3, h4⟩

end Verif.Sw
