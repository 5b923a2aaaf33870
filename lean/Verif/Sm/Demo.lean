import Verif.Sm.History
import Verif.Sm.Ledger
import Verif.Sock.Demo
/-!
# Connection objects that meet the contract, and what the code does on them

The history theorems are not vacuous, and the parts of C100 to C103 that are missing are false: each counterexample is
a run of the model on this system, with what the connections and the callbacks have seen read back from the system's memory.
-/
namespace Verif.Sm
open Verif.Headers
open Verif.Sock (Obj Pend HostArg opened shift Act SockR code code_append code_inj clip clip_ok i32 opening remove_eq last_eq)

/-- what is kept of a call: the connections made (100 + number) and the connections that took bytes -/
def Ev.mark : Ev → List UInt8
  | .create c => [UInt8.ofNat (100 + c.toNat)]
  | .send c _ r => if 0 < r then [UInt8.ofNat c.toNat] else []
  | _ => []

def Ev.isDone : Ev → Bool | .completed .. => true | _ => false
def Ev.isErr : Ev → Bool | .error .. => true | _ => false
def Ev.isMade : Ev → Bool | .create c => 0 ≤ c | _ => false
def Ev.isDel : Ev → Bool | .delete _ => true | _ => false
def Ev.isBad : Ev → Bool | .send _ _ r => r < -2 | _ => false

def one (b : Bool) : Nat := if b then 1 else 0

/-- The system keeps one block at address 1000: the number of calls received, the bytes taken by the connections, the marks (both written in base 256 after a
leading 1), and the numbers of completions and of errors reported, of objects made and deleted, and of sends that returned less than -2. -/
def note (ev : Ev) : M Unit := do
  let n ← loadInt 1000 0
  let c ← loadInt 1000 1
  let m ← loadInt 1000 2
  let x ← loadInt 1000 3
  let y ← loadInt 1000 4
  let u ← loadInt 1000 5
  let v ← loadInt 1000 6
  let w ← loadInt 1000 7
  store 1000 0 (.int (n + 1))
  store 1000 1 (.int (ev.taken.foldl (fun a b => 256 * a + b.toNat) c))
  store 1000 2 (.int (ev.mark.foldl (fun a b => 256 * a + b.toNat) m))
  store 1000 3 (.int (x + one ev.isDone))
  store 1000 4 (.int (y + one ev.isErr))
  store 1000 5 (.int (u + one ev.isMade))
  store 1000 6 (.int (v + one ev.isDel))
  store 1000 7 (.int (w + one ev.isBad))

/-- a possible result of `send` -/
def clipN (r : Int) (len : Nat) : Int := if -100 ≤ r ∧ r < 0 then r else clip r len

theorem clipN_ok (r : Int) (len : Nat) : -(2 ^ 31) ≤ clipN r len ∧ clipN r len ≤ len ∧ clipN r len < 2 ^ 31 := by
  unfold clipN
  have := clip_ok r len
  split <;> omega

/-- `plan n`: what call number `n` should return, if that is possible -/
def demoOs (plan : Nat → Int) : Os where
  create := do let n ← loadInt 1000 0; note (.create (clip (plan n) (2 ^ 31))); pure (clip (plan n) (2 ^ 31))
  connect c _ port := do let n ← loadInt 1000 0; note (.connect c none port (plan n)); pure (plan n)
  set_nonblocking c := note (.nonblocking c)
  close c := note (.close c)
  delete c := note (.delete c)
  send c bs := do let n ← loadInt 1000 0; note (.send c bs (clipN (plan n) bs.length)); pure (clipN (plan n) bs.length)
  receive c k := do
    let n ← loadInt 1000 0
    note (.receive c (clip (plan n) k) (List.replicate (clip (plan n) k).toNat 7))
    pure (clip (plan n) k, List.replicate (clip (plan n) k).toNat 7)
  on_io_open_complete f c ok := note (.opened f c ok)
  on_io_close_complete f c := note (.closed f c)
  on_send_complete f c ok := note (.completed f c ok)
  on_bytes_received f c bs := note (.received f c bs)
  on_io_error f c := note (.error f c)

def demoNet (tr : List Ev) : HProp := 1000 ↦ [.int tr.length, .int (code (tr.flatMap Ev.taken)), .int (code (tr.flatMap Ev.mark)), .int (tr.countP Ev.isDone),
  .int (tr.countP Ev.isErr), .int (tr.countP Ev.isMade), .int (tr.countP Ev.isDel), .int (tr.countP Ev.isBad)]

theorem note_spec {rel : Prop} (tr : List Ev) (e : Ev) : Triple rel (demoNet tr) (note e) (fun _ => demoNet (tr ++ [e])) := by
  unfold note demoNet
  stepd (loadInt_spec (n := tr.length) ?_)
  stepd (loadInt_spec (n := code (tr.flatMap Ev.taken)) ?_)
  stepd (loadInt_spec (n := code (tr.flatMap Ev.mark)) ?_)
  stepd (loadInt_spec (n := tr.countP Ev.isDone) ?_)
  stepd (loadInt_spec (n := tr.countP Ev.isErr) ?_)
  stepd (loadInt_spec (n := tr.countP Ev.isMade) ?_)
  stepd (loadInt_spec (n := tr.countP Ev.isDel) ?_)
  stepd (loadInt_spec (n := tr.countP Ev.isBad) ?_)
  stepd (store_spec ?_)
  stepd (store_spec ?_)
  stepd (store_spec ?_)
  stepd (store_spec ?_)
  stepd (store_spec ?_)
  stepd (store_spec ?_)
  stepd (store_spec ?_)
  lastd (store_spec ?_)
  simp only [sep_emp, List.set_cons_succ, List.set_cons_zero, List.length_append, List.length_cons, List.length_nil, List.flatMap_append, List.flatMap_cons, List.flatMap_nil, List.append_nil,
    List.countP_append, List.countP_cons, List.countP_nil, Nat.zero_add, code_append]
  exact entails_refl _

theorem demo_honours {rel : Prop} (plan : Nat → Int) : Honours rel (demoOs plan) demoNet (fun _ => emp) := by
  have hl : ∀ tr, Triple rel (demoNet tr) (loadInt 1000 0) (fun n => (n = tr.length) ⋏ demoNet tr) := by
    intro tr
    unfold demoNet
    exact loadInt_spec rfl
  constructor
  case create =>
    intro tr
    unfold demoOs
    step (hl tr)
    step (note_spec tr _)
    refine Triple.pure (entails_pand_r ?_ ⟨(clip_ok _ _).1, (clip_ok _ _).2.2⟩)
    simp only [ite_self, sep_emp]
    exact entails_refl _
  case connect =>
    intro c s h port tr
    simp only [sep_emp, emp_sep]
    unfold demoOs
    step (hl tr)
    step (note_spec tr _)
    refine Triple.pure (sep_mono ?_ (entails_refl _))
    unfold demoNet
    simp only [List.length_append, List.length_cons, List.length_nil, List.flatMap_append, List.flatMap_cons, List.flatMap_nil, List.append_nil,
      List.countP_append, List.countP_cons, List.countP_nil]
    exact entails_refl _
  case send =>
    intro fd bs tr
    rw [sep_emp]
    unfold demoOs
    step (hl tr)
    step (note_spec tr _)
    refine Triple.pure (entails_pand_r ?_ (clipN_ok _ _))
    rw [sep_emp]
    exact entails_refl _
  case receive =>
    intro fd n tr
    rw [sep_emp]
    unfold demoOs
    step (hl tr)
    step (note_spec tr _)
    refine Triple.pure (entails_pand_r ?_ ⟨(clip_ok _ _).2.1, by simp⟩)
    rw [sep_emp]
    exact entails_refl _
  all_goals
    intros
    try simp only [sep_emp]
    exact note_spec _ _

/-- memory of the demo: the system's block; allocation number `t` is at `2000 + t`, except the refused ones -/
def demoSt (refuse : Nat → Bool) : St :=
  { heap := fun p => if p = 1000 then some [.int 0, .int 1, .int 1, .int 0, .int 0, .int 0, .int 0, .int 0] else none, alloc := fun t _ _ => if refuse t then 0 else 2000 + t, tick := 0 }

theorem demoSt_fin {f : Nat → Bool} : (demoSt f).heap.fin := ⟨1001, fun p hp => by
  have : p ≠ 1000 := by omega
  simp [demoSt, this]⟩

theorem demoSt_net {f : Nat → Bool} : demoNet [] (demoSt f).heap := by
  refine ⟨by decide, by decide, ?_⟩
  funext p
  simp [demoSt, Heap.single]
  rfl

/-- the history theorem applies -/
theorem demo_run (plan : Nat → Int) (refuse : Nat → Bool) (ops : List Op) (hops : ∀ op ∈ ops, good op) :
    ∃ outs env as log s', runOps (exec (demoOs plan)) ops ([], []) (demoSt refuse) = some (.ok ((outs, env), s')) ∧
      Runs (step True) ([], []) ops outs (as, log) ∧ (Own (ORep (SockR fun _ => emp)) env.1 as ∗ demoNet (trace log) ∗ Lost (fun _ => emp) (lostAll log)) s'.heap :=
  histories_run (demo_honours plan) ops hops _ demoSt_fin demoSt_net

/-- the calls of the record are the operations and the results -/
theorem log_outs {oom : Prop} {x x' : World} {ops : List Op} {outs : List (Option Int)} (h : Runs (step oom) x ops outs x') :
    x'.2.map (fun e => (e.op, e.r)) = x.2.map (fun e => (e.op, e.r)) ++ (ops.zip outs).filterMap (fun y => y.2.map fun r => (y.1, r)) := by
  induction h with
  | nil => simp
  | cons h1 _ ih =>
    rw [ih, List.zip_cons_cons, List.filterMap_cons]
    rcases step_cases h1 with ⟨rfl, rfl⟩ | ⟨r, a', evs, hN, rfl, rfl⟩ | ⟨j, a, r, a', evs, ls, hj, hE, rfl, rfl⟩ <;> simp

/-- all calls were made on the only handle -/
theorem one_handle {oom : Prop} {ops : List Op} {outs : List (Option Int)} {as : List (Option Obj)} {log : Log}
    (h : Runs (step oom) ([], []) ops outs (as, log)) (h1 : as.length = 1) : ofPos 0 log = log := by
  have hp := at_pos (Inv := fun _ _ => True) (by intros; trivial) (by intros; trivial) h
  unfold ofPos
  rw [List.filter_eq_self]
  intro e he
  simp only [decide_eq_true_eq]
  by_cases h0 : e.pos = 0
  · exact h0
  · have := (hp e.pos).1 (by omega)
    unfold ofPos at this
    rw [List.filter_eq_nil_iff] at this
    exact absurd (decide_eq_true rfl) (this e he)

/-- what a client with one handle knows to be accepted: the buffers of the sends that returned 0 -/
def acceptedOf (ops : List Op) (outs : List (Option Int)) : List UInt8 :=
  (ops.zip outs).flatMap fun y =>
    match y.1 with
    | .send _ (some bs) _ _ => if y.2 = some 0 then bs else []
    | _ => []

theorem acceptedBytes_of {oom : Prop} {ops : List Op} {outs : List (Option Int)} {as : List (Option Obj)} {log : Log}
    (h : Runs (step oom) ([], []) ops outs (as, log)) (h1 : as.length = 1) : acceptedBytes 0 log = acceptedOf ops outs := by
  have hl := log_outs h
  simp only [List.map_nil, List.nil_append] at hl
  have e1 : acceptedBytes 0 log = ((log.map fun e => (e.op, e.r)).filterMap fun x => Entry.sent ⟨0, x.1, x.2, [], []⟩).flatMap (·.1) := by
    unfold acceptedBytes accepted
    rw [one_handle h h1, List.filterMap_map]
    rfl
  rw [e1, hl, List.filterMap_filterMap]
  unfold acceptedOf
  generalize ops.zip outs = z
  induction z with
  | nil => rfl
  | cons y z ih =>
    rw [List.filterMap_cons, List.flatMap_cons, ← ih]
    obtain ⟨op, o⟩ := y
    cases o with
    | none => cases op <;> simp <;> split <;> simp
    | some r =>
      cases op with
      | send i bs cb ctx =>
        cases bs with
        | none => simp [Entry.sent]
        | some bs => by_cases hr : r = 0 <;> simp [hr, Entry.sent]
      | _ => simp [Entry.sent]

/-- The results of a run, the number of handles, and the system's block. -/
def report (plan : Nat → Int) (refuse : Nat → Bool) (ops : List Op) : Option (List (Option Int) × Nat × Option Block) :=
  match runOps (exec (demoOs plan)) ops ([], []) (demoSt refuse) with
  | some (.ok ((outs, env), s')) => some (outs, env.1.length, s'.heap 1000)
  | _ => none

/-- `log` is the record of a run of the code on a system that meets the contract: the results are `outs`, the handles are `as` at the end, and the
system's memory is that after the calls of the record. -/
def RecordedAt (ops : List Op) (outs : List (Option Int)) (log : Log) (as : List (Option Obj)) : Prop :=
  ∃ (os : Os) (Net : List Ev → HProp) (Conn : Int → HProp) (s : St) (env : List Nat × List Bool) (s' : St),
    Honours False os Net Conn ∧ s.heap.fin ∧ Net [] s.heap ∧ (∀ op ∈ ops, good op) ∧
    runOps (exec os) ops ([], []) s = some (.ok ((outs, env), s')) ∧
    Runs (step True) ([], []) ops outs (as, log) ∧ (Own (ORep (SockR Conn)) env.1 as ∗ Net (trace log) ∗ Lost Conn (lostAll log)) s'.heap

def Recorded (ops : List Op) (outs : List (Option Int)) (log : Log) : Prop := ∃ as, RecordedAt ops outs log as

theorem Lost_emp (l : List Int) : Lost (fun _ => emp) l = emp := by
  induction l with
  | nil => rw [Lost_nil]
  | cons c l ih => rw [show c :: l = [c] ++ l from rfl, Lost_append, ih, sep_emp]; simp [Lost, sep_emp]

/-- from a computed run to the record of calls -/
theorem read_report {plan : Nat → Int} {refuse : Nat → Bool} {ops : List Op} (hops : ∀ op ∈ ops, good op) {outs : List (Option Int)} {bs ms : List UInt8} {n d e u v w : Nat}
    (h : report plan refuse ops = some (outs, 1, some [.int n, .int (code bs), .int (code ms), .int d, .int e, .int u, .int v, .int w])) :
    ∃ log as, RecordedAt ops outs log as ∧ as.length = 1 ∧ stream 0 log = bs ∧ acceptedBytes 0 log = acceptedOf ops outs ∧ (trace log).length = n ∧
      (trace log).flatMap Ev.mark = ms ∧ (trace log).countP Ev.isDone = d ∧ (trace log).countP Ev.isErr = e ∧
      (trace log).countP Ev.isMade = u ∧ (trace log).countP Ev.isDel = v ∧ (trace log).countP Ev.isBad = w := by
  obtain ⟨outs', env, as, log, s', h1, h2, h3⟩ := demo_run plan refuse ops hops
  unfold report at h
  rw [h1] at h
  simp only [Option.some.injEq, Prod.mk.injEq] at h
  obtain ⟨rfl, h4, h5⟩ := h
  have hl : as.length = 1 := by
    obtain ⟨_, _, _, _, ho, _⟩ := h3
    rw [← h4]; exact (Own_len _ ho).symm
  have key : (trace log).length = n ∧ code ((trace log).flatMap Ev.taken) = code bs ∧ code ((trace log).flatMap Ev.mark) = code ms ∧
      (trace log).countP Ev.isDone = d ∧ (trace log).countP Ev.isErr = e ∧ (trace log).countP Ev.isMade = u ∧ (trace log).countP Ev.isDel = v ∧ (trace log).countP Ev.isBad = w := by
    have h3 := h3
    rw [Lost_emp, sep_emp] at h3
    obtain ⟨a, b, hd, hu, _, _, _, hb⟩ := h3
    have ha : a 1000 = none := by
      cases ha : a 1000 with
      | none => rfl
      | some x => exact absurd hd (by
          intro hd
          have := hd 1000
          simp [hb, Heap.single, ha] at this)
    rw [hu, hb] at h5
    simpa [Heap.union, ha, Heap.single] using h5
  refine ⟨log, as, ⟨_, _, _, _, env, s', demo_honours plan, demoSt_fin, demoSt_net, hops, h1, h2, h3⟩, hl, ?_, acceptedBytes_of h2 hl, key.1, code_inj key.2.2.1, key.2.2.2⟩
  unfold stream
  rw [one_handle h2 hl]
  exact code_inj key.2.1

/-! ## C100, C101: counterexamples -/

/-- the open (calls 0 to 3) succeeds, then the results of the calls -/
def thenR (rs : List Int) (n : Nat) : Int := if n ≤ 3 then 0 else rs.getD (n - 4) (-1)

theorem good_opening {ops : List Op} (h : ∀ op ∈ ops, good op) : ∀ op ∈ opening ++ ops, good op := by
  intro op hop
  rcases List.mem_append.1 hop with hm | hm
  · simp [opening] at hm
    rcases hm with rfl | rfl
    · refine ⟨?_, by simp [maxObj], by simp [i32]⟩
      simp [NoNul]
    · trivial
  · exact h op hm

def dupOps : List Op := opening ++ [.send 0 (some [1, 2, 3]) 9 5, .dowork 0 3 1]

theorem dup_report : report (thenR [1, 1, 2]) (fun _ => false) dupOps =
    some ([some 1, some 0, some 0, some 1], 1, some [.int 9, .int (code [1, 2, 3, 3]), .int (code [100, 0, 0, 0]), .int 1, .int 0, .int 1, .int 0, .int 0]) := by
  unfold report exec call socketio_dowork sendLoop sendLoop sendLoop sendRound finishPending List.list_remove
  rw [remove_eq]
  decide +kernel

/-- C100 fails: a byte is sent twice.  The connection takes a part of a queued buffer, the rest is moved to the front, and the size stays the same. -/
theorem duplicates_bytes : ∃ ops outs log, Recorded ops outs log ∧ acceptedBytes 0 log = [1, 2, 3] ∧ stream 0 log = [1, 2, 3, 3] := by
  obtain ⟨log, as, h1, _, h2, h3, _⟩ := read_report (good_opening (by simp [good])) dup_report
  exact ⟨_, _, log, ⟨as, h1⟩, h3, h2⟩

def refOps : List Op := opening ++ [.send 0 (some [1, 2]) 9 5]

theorem ref_report : report (thenR [1]) (· ≥ 3) refOps =
    some ([some 1, some 0, some 315], 1, some [.int 5, .int (code [1]), .int (code [100, 0]), .int 0, .int 0, .int 1, .int 0, .int 0]) := by
  decide +kernel

/-- C100 fails: a send that is refused (no memory to queue the rest) has sent a part of the buffer. -/
theorem refused_bytes : ∃ ops outs log, Recorded ops outs log ∧ acceptedBytes 0 log = [] ∧ stream 0 log = [1] := by
  obtain ⟨log, as, h1, _, h2, h3, _⟩ := read_report (good_opening (by simp [good])) ref_report
  exact ⟨_, _, log, ⟨as, h1⟩, h3, h2⟩

def staleOps : List Op := opening ++ [.send 0 (some [1]) 9 5, .close 0 7 1, .opn 0 1 0 2 0 3 0, .dowork 0 3 1]

theorem stale_report : report (thenR [-1, 0, 0, 5, 0, 0, 0, 1]) (fun _ => false) staleOps =
    some ([some 1, some 0, some 0, some 0, some 0, some 1], 1, some [.int 14, .int (code [1]), .int (code [100, 105, 5]), .int 1, .int 0, .int 2, .int 0, .int 0]) := by
  unfold report exec call socketio_dowork sendLoop sendLoop sendRound finishPending List.list_remove
  rw [remove_eq]
  decide +kernel

/-- C100 fails: bytes accepted on one connection (object 0) are sent on the next (object 5): closing does not empty the queue. -/
theorem wrong_connection : ∃ outs log, Recorded staleOps outs log ∧ outs = [some 1, some 0, some 0, some 0, some 0, some 1] ∧ stream 0 log = [1] ∧
    (trace log).flatMap Ev.mark = [100, 105, 5] := by
  obtain ⟨log, as, h1, _, h2, _, _, h3, _⟩ := read_report (good_opening (by simp [good])) stale_report
  exact ⟨_, log, ⟨as, h1⟩, rfl, h2, h3⟩

def hidOps : List Op := opening ++ [.send 0 (some [1]) 9 5]

theorem hid_report : report (thenR [-5]) (fun _ => false) hidOps =
    some ([some 1, some 0, some 0], 1, some [.int 5, .int (code []), .int (code [100]), .int 0, .int 0, .int 1, .int 0, .int 1]) := by
  decide +kernel

/-- C101 fails: a send on a broken connection succeeds; the error is not reported. -/
theorem failure_hidden : ∃ outs log, Recorded hidOps outs log ∧ outs = [some 1, some 0, some 0] ∧ broken (trace log) ∧ acceptedBytes 0 log = [1] ∧
    ∀ f c, Ev.error f c ∉ trace log := by
  obtain ⟨log, as, h1, _, _, h3, _, _, _, h5, _, _, h6⟩ := read_report (good_opening (by simp [good])) hid_report
  refine ⟨_, log, ⟨as, h1⟩, rfl, ?_, h3, fun f c hm => List.countP_eq_zero.1 h5 _ hm rfl⟩
  have : 0 < (trace log).countP Ev.isBad := by omega
  obtain ⟨e, he, hb⟩ := List.countP_pos_iff.1 this
  cases e with
  | send c bs r => exact ⟨c, bs, r, he, by simpa [Ev.isBad] using hb⟩
  | _ => simp [Ev.isBad] at hb

/-! ## C102: counterexamples -/

def clearBody (rec : Ptr → Ptr → M Unit) (s : Ptr) (first_pending_io : Ptr) : M Unit := do
  if first_pending_io ≠ 0 then do
    let p ← List.list_item_get_value first_pending_io
    if p ≠ 0 then do
      let b ← loadPtr p Sock.gBytes
      free b
      free p
      let l ← loadPtr s Sock.fList
      let _ ← List.list_remove l first_pending_io
      let first ← List.list_get_head_item l
      rec s first
    else do
      let l ← loadPtr s Sock.fList
      let _ ← List.list_remove l first_pending_io
      let first ← List.list_get_head_item l
      rec s first
  else pure ()

def freeBody (rec : Ptr → M Unit) (list : Ptr) : M Unit := do
  let current_item ← loadPtr list List.fHead
  if current_item ≠ 0 then
    let next ← loadPtr current_item List.fNext
    store list List.fHead (.ptr next)
    free current_item
    rec list
  else pure ()

theorem clear_eq : Sock.clearLoop = clearBody Sock.clearLoop := by funext a b; rw [Sock.clearLoop]; rfl
theorem free_eq : List.destroyLoop = freeBody List.destroyLoop := by funext a; rw [List.destroyLoop]; rfl

def leakOps : List Op := opening ++ [.close 0 7 1, .destroy 0]

theorem leak_report : report (thenR []) (fun _ => false) leakOps =
    some ([some 1, some 0, some 0, some 0], 1, some [.int 6, .int (code []), .int (code [100]), .int 0, .int 0, .int 1, .int 0, .int 0]) := by
  unfold report exec call socketio_destroy
  rw [clear_eq]
  unfold List.list_destroy
  rw [free_eq]
  decide +kernel

/-- C102 fails: a connection object is made and never deleted, although the handle was closed and destroyed. -/
theorem never_deleted : ∃ outs log as, RecordedAt leakOps outs log as ∧ outs = [some 1, some 0, some 0, some 0] ∧ (∀ a ∈ as, a = none) ∧
    ∃ c, 0 ≤ c ∧ 0 < made c (trace log) ∧ deleted c (trace log) = 0 := by
  obtain ⟨log, as, h1, hl, _, _, _, _, _, _, h5, h6, _⟩ := read_report (good_opening (by simp [good])) leak_report
  refine ⟨_, log, as, h1, rfl, ?_, ?_⟩
  · obtain ⟨_, _, _, _, _, _, _, _, _, _, _, hr, _⟩ := h1
    simp only [leakOps, opening, List.cons_append, List.nil_append] at hr
    cases hr with | cons k1 hr => ?_
    cases hr with | cons k2 hr => ?_
    cases hr with | cons k3 hr => ?_
    cases hr with | cons k4 hr => ?_
    cases hr
    rcases k4 with ⟨_, h0, _⟩ | ⟨a, r, a', w', ha, _, ⟨_, rfl, _⟩, he⟩
    · simp at h0
    · simp only [Prod.mk.injEq] at he
      obtain ⟨rfl, _⟩ := he
      intro b hb
      obtain ⟨j, hj⟩ := List.mem_iff_getElem?.1 hb
      have hj0 : j = 0 := by
        have := (List.getElem?_eq_some_iff.1 hj).1
        omega
      subst hj0
      rw [List.getElem?_set] at hj
      simp only [if_true] at hj
      split at hj
      · simpa using hj.symm
      · cases hj
  · have : 0 < (trace log).countP Ev.isMade := by omega
    obtain ⟨e, he, hb⟩ := List.countP_pos_iff.1 this
    cases e with
    | create c =>
      refine ⟨c, by simpa [Ev.isMade] using hb, List.count_pos_iff.2 he, List.count_eq_zero.2 fun hm => ?_⟩
      exact List.countP_eq_zero.1 h6 _ hm rfl
    | _ => simp [Ev.isMade] at hb

/-- a client that opens an open handle -/
def again (second : Int) : Option (Except Err (List (Option Int))) :=
  outcome (do let r ← runOps (call (demoOs (thenR [5, second]))) (opening ++ [.opn 0 1 0 2 0 3 0, .send 0 (some [1]) 9 5, .destroy 0]) []; pure r.1) (demoSt fun _ => false)

/-- C102 fails for a client that opens a handle twice: if the second attempt fails, the handle is still open, without a connection, and `socketio_send` calls a method
of `NULL`. -/
theorem reopened : again 1 = some (.error (.ub "method of NULL")) := by decide +kernel

/-- C102 fails: a configuration without host name. -/
theorem null_host : outcome (socketio_create (some ⟨.null, 80⟩) 0) (demoSt fun _ => false) = some (.error (.ub "dereference of NULL")) := by decide +kernel

/-! ## C103: `socketio_dowork` need not return -/

/-- a system whose connections take nothing -/
def fullOs : Os where
  create := pure 0
  connect _ _ _ := pure 0
  set_nonblocking _ := pure ()
  close _ := pure ()
  delete _ := pure ()
  send _ _ := pure 0
  receive _ _ := pure (-1, [])
  on_io_open_complete _ _ _ := pure ()
  on_io_close_complete _ _ := pure ()
  on_send_complete _ _ _ := pure ()
  on_bytes_received _ _ _ := pure ()
  on_io_error _ _ := pure ()

/-- what such a system answers -/
def Ev.fullOk : Ev → Prop
  | .create c => c = 0
  | .connect _ _ _ err => err = 0
  | .send _ _ r => r = 0
  | _ => True

def fullNet (tr : List Ev) : HProp := (∀ e ∈ tr, e.fullOk) ⋏ emp

theorem full_snoc {tr : List Ev} {e : Ev} (he : e.fullOk) : fullNet tr ⊢ₕ fullNet (tr ++ [e]) := by
  unfold fullNet
  refine entails_pand_l fun h => entails_pand_r (entails_refl _) fun x hx => ?_
  rcases List.mem_append.1 hx with h1 | h1
  · exact h x h1
  · simp at h1; subst h1; exact he

theorem full_honours {rel : Prop} : Honours rel fullOs fullNet (fun _ => emp) := by
  constructor <;> intros <;> (try simp only [sep_emp, emp_sep, ite_self]) <;> unfold fullOs <;> refine Triple.pure ?_
  case create => exact entails_pand_r (full_snoc rfl) ⟨by omega, by omega⟩
  case send => exact entails_pand_r (full_snoc rfl) ⟨by omega, by omega, by omega⟩
  case receive => exact entails_pand_r (full_snoc trivial) ⟨by omega, by simp⟩
  case connect => exact sep_mono (full_snoc rfl) (entails_refl _)
  all_goals exact full_snoc trivial

/-- a connection that takes nothing never empties the queue -/
theorem full_loop {o o' : Obj} {fin : Bool} {k : Nat} {evs : List Ev} (h : SendLoop k o fin o' evs) {p : Pend} (hp : o.pending = [p]) (hq : p.bytes ≠ [])
    (hb : ∀ e ∈ evs, e.fullOk) : fin = false := by
  induction h with
  | done h => rw [hp] at h; cases h
  | cut => rfl
  | @whole k o p' ps fin o' evs h1 _ _ =>
    have : (p'.bytes.length : Int) = 0 := hb (.send o.socket p'.bytes p'.bytes.length) (by simp)
    rw [hp] at h1
    simp only [List.cons.injEq] at h1
    obtain ⟨rfl, _⟩ := h1
    exact absurd (List.length_eq_zero_iff.1 (by omega)) hq
  | wait n h1 _ h2 => have : n = 0 := hb _ (List.mem_cons_self ..); omega
  | fail n h1 h2 => have : n = 0 := hb _ (List.mem_cons_self ..); omega
  | @part k o p' ps fin o' evs n h1 h2 _ ih =>
    have h0 : (n : Int) = 0 := hb _ (List.mem_cons_self ..)
    have h0 : n = 0 := by omega
    subst h0
    rw [hp] at h1
    simp only [List.cons.injEq] at h1
    obtain ⟨rfl, rfl⟩ := h1
    exact ih (by simp [shift_zero]) fun e he => hb e (by simp [he])

/-- memory: nothing allocated yet, and there is always room -/
noncomputable def emptySt : St := { heap := fun _ => none, alloc := fun _ h _ => Classical.epsilon fun p => p ≠ 0 ∧ h p = none, tick := 0 }

theorem emptySt_reliable : Reliable emptySt.alloc := by
  rintro t h n ⟨N, hN⟩ _
  exact Classical.epsilon_spec (p := fun p => p ≠ 0 ∧ h p = none) ⟨N + 1, by omega, hN _ (by omega)⟩

def fullOps (n m : Nat) : List Op := opening ++ [.send 0 (some [1]) 9 5, .dowork 0 n m]

theorem full_send {oom : Prop} {o : Obj} {bs : List UInt8} {cb ctx : Nat} {r : Int} {a' : Option Obj} {evs : List Ev} (h1 : o.state = .opn) (h2 : o.pending = []) (h3 : bs ≠ [])
    (h : SendE oom (some bs) cb ctx (some o) r a' evs) :
    (r = 0 ∧ a' = some o ∧ evs = .send o.socket bs bs.length :: evCompleted cb ctx) ∨
      ∃ n : Int, n < bs.length ∧ evs = [.send o.socket bs n] ∧
        ((r = 0 ∧ a' = some { o with pending := [⟨bs.drop n.toNat, cb, ctx⟩] }) ∨ (r ≠ 0 ∧ oom ∧ a' = some o)) := by
  simp only [SendE] at h
  rw [if_neg (by simp [h1, h3]), if_neg (by simp [h2])] at h
  exact h

theorem full_work {o : Obj} {n m : Nat} {fin : Bool} {a' : Option Obj} {evs : List Ev} (h1 : o.state = .opn) (h : DoworkE n m (some o) fin a' evs) :
    ∃ o', a' = some o' ∧ ((fin = false ∧ SendLoop n o false o' evs) ∨ ∃ e1 e2, evs = e1 ++ e2 ∧ SendLoop n o true o' e1 ∧ RecvLoop o' m fin e2) := by
  simp only [DoworkE] at h
  rw [if_neg (by simp [h1])] at h
  exact h

theorem full_results {n m : Nat} {outs : List (Option Int)} {x : World} (h : Runs (step (¬ True)) ([], []) (fullOps n m) outs x)
    (hb : ∀ e ∈ trace x.2, e.fullOk) : outs = [some 1, some 0, some 0, some 0] := by
  simp only [fullOps, opening, List.cons_append, List.nil_append] at h
  cases h with | cons h1 h => ?_
  cases h with | cons h2 h => ?_
  cases h with | cons h3 h => ?_
  cases h with | cons h4 h => ?_
  cases h
  obtain ⟨b, a', w', rfl, ⟨ok, hc, rfl, rfl⟩, rfl⟩ := h1
  rcases hc with ⟨_, _, h0⟩ | ⟨rfl, rfl⟩
  · simp at h0
  rcases h2 with ⟨⟨o, h0, h0'⟩, _⟩ | ⟨_, ⟨h0, _⟩ | ⟨a2, r2, a2', w2, ha, rfl, ⟨evs2, hE2, rfl⟩, rfl⟩⟩
  · simp at h0; subst h0; simp at h0'
  · simp at h0
  simp at ha; subst ha
  rcases h3 with ⟨h0, _⟩ | ⟨a3, r3, a3', w3, ha, rfl, ⟨evs3, hE3, rfl⟩, rfl⟩
  · simp at h0
  simp at ha; subst ha
  rcases h4 with ⟨h0, _⟩ | ⟨a4, r4, a4', w4, ha, rfl, ⟨fin, evs4, hE4, rfl, rfl⟩, rfl⟩
  · simp at h0
  simp at ha; subst ha
  have t : ∀ e ∈ evs2 ++ (evs3 ++ evs4), e.fullOk := fun e he => hb e (by simpa [trace] using he)
  have hE2' : r2 = 0 ∧ a2' = some (opened ⟨-1, 0, 0, 0, 0, 0, some [104], 80, .closed, []⟩ 0 2 0 3 0) := by
    rcases hE2 with ⟨_, _, rfl⟩ | ⟨c, _, _, ⟨err, h0, _, _, rfl⟩ | ⟨h0, h1, rfl⟩⟩
    · have := t (.create (-1)) (by simp); simp [Ev.fullOk] at this
    · exact absurd (t (.connect c (some [104]) 80 err) (by simp)) h0
    · have : c = 0 := t (.create c) (by simp)
      subst this
      exact ⟨h0, by simpa using h1⟩
  obtain ⟨rfl, rfl⟩ := hE2'
  have hE3' : r3 = 0 ∧ a3' = some { opened ⟨-1, 0, 0, 0, 0, 0, some [104], 80, .closed, []⟩ 0 2 0 3 0 with pending := [⟨[1], 9, 5⟩] } := by
    replace hE3 := full_send (o := opened ⟨-1, 0, 0, 0, 0, 0, some [104], 80, .closed, []⟩ 0 2 0 3 0) rfl rfl (by simp) hE3
    rcases hE3 with ⟨_, _, rfl⟩ | ⟨k, _, rfl, h0 | ⟨_, h0, _⟩⟩
    · have : (1 : Int) = 0 := t (.send 0 [1] 1) (by simp [opened])
      simp at this
    · have : k = 0 := t (.send 0 [1] k) (by simp [opened])
      subst this
      exact h0
    · simp at h0
  obtain ⟨rfl, rfl⟩ := hE3'
  have : fin = false := by
    obtain ⟨o', _, ⟨h, _⟩ | ⟨e1, e2, rfl, hl, _⟩⟩ := full_work rfl hE4
    · exact h
    · have := full_loop hl rfl (by simp) (fun e he => t e (by simp [he]))
      simp at this
  subst this
  rfl

/-- C103 fails: on a connection that takes nothing, `socketio_dowork` with a queued buffer is still running after any number of rounds. -/
theorem never_returns (n m : Nat) : ∃ log, Recorded (fullOps n m) [some 1, some 0, some 0, some 0] log := by
  have hg : ∀ op ∈ fullOps n m, good op := good_opening (by simp [good])
  have hf : emptySt.heap.fin := ⟨0, fun _ _ => rfl⟩
  have h0 : fullNet [] emptySt.heap := by
    refine ⟨by simp, ?_⟩
    funext p
    rfl
  have t := histories (full_honours (rel := True)) (fullOps n m) hg ([], []) ([], [])
  have t : Triple True (fullNet []) _ _ := t.pre (entails_pand_r (entails_of_eq (by rw [OwnW, Own_nil, emp_sep]; simp [NetL, trace, lostAll, Lost_nil, sep_emp]))
    ⟨fun o h => by simp at h, rfl⟩)
  obtain ⟨r, s', h1, ⟨x', hx, _, hh⟩⟩ := t.run emptySt hf (fun _ => emptySt_reliable) h0
  have hb : ∀ e ∈ trace x'.2, e.fullOk := by
    have hh : (Own (ORep (SockR fun _ => emp)) r.2.1 x'.1 ∗ fullNet (trace x'.2) ∗ Lost (fun _ => emp) (lostAll x'.2)) s'.heap := hh
    rw [Lost_emp, sep_emp] at hh
    obtain ⟨_, _, _, _, _, hb, _⟩ := hh
    exact hb
  have ho := full_results (by simpa using hx) hb
  obtain ⟨outs, env, as, log, s2, k1, k2, k3⟩ := histories_run (full_honours (rel := False)) (fullOps n m) hg emptySt hf h0
  rw [h1] at k1
  obtain ⟨rfl, rfl⟩ := k1
  rw [← ho]
  exact ⟨log, as, _, _, _, _, env, s', full_honours, hf, h0, hg, h1, k2, k3⟩

/-! ## What histories look like -/

/-- direct send, an attempt that fails for now, the queued buffer is sent by `socketio_dowork`, received bytes, close, close again, send -/
def fineOps : List Op := opening ++ [.send 0 (some [1, 2]) 9 5, .send 0 (some [3, 4]) 9 6, .dowork 0 4 4, .close 0 7 1, .close 0 7 1, .send 0 (some [1]) 9 7]

theorem fine_report : report (thenR [2, 0, -1, 2, 0, 3, 0, -1, 0]) (fun _ => false) fineOps =
    some ([some 1, some 0, some 0, some 0, some 1, some 0, some 250, some 286], 1, some [.int 14, .int (code [1, 2, 3, 4]), .int (code [100, 0, 0]), .int 2, .int 0, .int 1, .int 0, .int 0]) := by
  unfold report exec call socketio_dowork sendLoop sendLoop sendLoop sendRound finishPending List.list_remove
  rw [remove_eq]
  decide +kernel

/-- the hypotheses of the theorems of the ledger are met by a run in which bytes are sent directly, queued and completed -/
example : ∃ outs log, Recorded fineOps outs log ∧ stream 0 log = [1, 2, 3, 4] ∧ acceptedBytes 0 log = [1, 2, 3, 4] ∧ (trace log).length = 14 := by
  obtain ⟨log, as, h1, _, h2, h3, h4, _⟩ := read_report (good_opening (by simp [good])) fine_report
  exact ⟨_, log, ⟨as, h1⟩, h2, h3, h4⟩

/-- the connection breaks under `socketio_dowork`; after that a send is refused -/
def brokenOps : List Op := opening ++ [.send 0 (some [1]) 9 5, .dowork 0 4 4, .send 0 (some [2]) 9 6, .dowork 0 4 4]

theorem broken_report : report (thenR [-1, -5]) (fun _ => false) brokenOps =
    some ([some 1, some 0, some 0, some 1, some 286, some 1], 1, some [.int 8, .int (code []), .int (code [100]), .int 0, .int 1, .int 1, .int 0, .int 1]) := by
  unfold report exec call socketio_dowork sendLoop sendLoop sendLoop sendRound finishPending List.list_remove
  rw [remove_eq]
  decide +kernel

/-- the hypothesis of `failure_reported` is met -/
example : ∃ outs log, Recorded brokenOps outs log ∧ broken (trace log) := by
  obtain ⟨log, as, h1, _, _, _, _, _, _, _, _, _, h6⟩ := read_report (good_opening (by simp [good])) broken_report
  refine ⟨_, log, ⟨as, h1⟩, ?_⟩
  have : 0 < (trace log).countP Ev.isBad := by omega
  obtain ⟨e, he, hb⟩ := List.countP_pos_iff.1 this
  cases e with
  | send c bs r => exact ⟨c, bs, r, he, by simpa [Ev.isBad] using hb⟩
  | _ => simp [Ev.isBad] at hb

end Verif.Sm
