import Verif.Sock.History
import Verif.Sock.Ledger
/-!
# An operating system that meets the contract, and what the code does on it

The history theorems are not vacuous, and the parts of C47 and C57 that are missing are false: each counterexample is
a run of the model on this system, with the bytes the socket has taken read back from the system's memory.
-/
namespace Verif.Sock
open Verif.List Verif.Headers

/-- The system keeps one block at address 1000: the number of calls received, and the bytes taken by the sockets, written
in base 256 after a leading 1. -/
def code (bs : List UInt8) : Nat := bs.foldl (fun a b => 256 * a + b.toNat) 1

def tickOf (taken : List UInt8) : M Nat := do
  let n ← loadInt 1000 0
  let c ← loadInt 1000 1
  store 1000 0 (.int (n + 1))
  store 1000 1 (.int (taken.foldl (fun a b => 256 * a + b.toNat) c))
  pure n

def clip (r : Int) (len : Nat) : Int := if -1 ≤ r ∧ r ≤ len ∧ r < 2 ^ 31 then r else -1

/-- `plan n`: what call number `n` should return, if that is possible -/
def demoOs (plan : Nat → Int) : Os where
  socket := do let n ← tickOf []; pure (clip (plan n) (2 ^ 31))
  getaddrinfo _ _ := do let n ← tickOf []; pure (plan n, n)
  connect _ _ := do let n ← tickOf []; pure (plan n)
  freeaddrinfo _ := do let _ ← tickOf []; pure ()
  getfl _ := do let n ← tickOf []; pure (plan n)
  setfl _ _ := do let n ← tickOf []; pure (plan n)
  shutdown _ := do let n ← tickOf []; pure (plan n)
  close _ := do let n ← tickOf []; pure (plan n)
  send _ bs := do
    let n ← loadInt 1000 0
    let _ ← tickOf (bs.take (clip (plan n) bs.length).toNat)
    pure (clip (plan n) bs.length)
  recv _ := do let n ← tickOf []; pure (clip (plan n) 1, 7)
  on_io_open_complete _ _ _ := do let _ ← tickOf []; pure ()
  on_io_close_complete _ _ := do let _ ← tickOf []; pure ()
  on_send_complete _ _ _ := do let _ ← tickOf []; pure ()
  on_bytes_received _ _ _ := do let _ ← tickOf []; pure ()
  on_io_error _ _ := do let _ ← tickOf []; pure ()

def demoNet (tr : List Ev) : HProp := 1000 ↦ [.int tr.length, .int (code (tr.flatMap Ev.taken))]

theorem code_append (a b : List UInt8) : code (a ++ b) = b.foldl (fun a b => 256 * a + b.toNat) (code a) := by
  simp [code]

theorem tickOf_spec {rel : Prop} (tr : List Ev) (t : List UInt8) : Triple rel (demoNet tr) (tickOf t)
    (fun r => (r = tr.length) ⋏ 1000 ↦ [.int (tr.length + 1), .int (code (tr.flatMap Ev.taken ++ t))]) := by
  unfold tickOf demoNet
  stepd (loadInt_spec (n := tr.length) ?_)
  stepd (loadInt_spec (n := code (tr.flatMap Ev.taken)) ?_)
  stepd (store_spec ?_)
  stepd (store_spec ?_)
  refine Triple.pure (entails_pand_r ?_ rfl)
  rw [code_append]
  exact entails_refl _

theorem clip_ok (r : Int) (len : Nat) : -1 ≤ clip r len ∧ clip r len ≤ len ∧ clip r len < 2 ^ 31 := by
  unfold clip
  split
  · assumption
  · refine ⟨by omega, by omega, by omega⟩

theorem demo_honours {rel : Prop} (plan : Nat → Int) : Honours rel (demoOs plan) demoNet (fun _ => emp) (fun _ => emp) := by
  have net : ∀ (tr : List Ev) (e : Ev) (t : List UInt8), e.taken = t → 1000 ↦ [.int (tr.length + 1), .int (code (tr.flatMap Ev.taken ++ t))] ⊢ₕ demoNet (tr ++ [e]) := by
    intro tr e t h; unfold demoNet; rw [List.length_append, List.flatMap_append]; subst h; simp; exact entails_refl _
  constructor
  case socket =>
    intro tr
    unfold demoOs
    step (tickOf_spec tr [])
    refine Triple.pure (entails_pand_r ?_ ⟨(clip_ok _ _).1, (clip_ok _ _).2.2⟩)
    simp only [ite_self, sep_emp]
    exact net _ _ _ rfl
  case getaddrinfo =>
    intro s h port tr
    unfold demoOs
    step (tickOf_spec tr [])
    refine Triple.pure ?_
    simp only [ite_self, sep_emp]
    exact sep_mono (net _ _ _ rfl) (entails_refl _)
  case send =>
    intro fd bs tr
    rw [sep_emp]
    unfold demoOs
    have hl : Triple rel (demoNet tr) (loadInt 1000 0) (fun n => (n = tr.length) ⋏ demoNet tr) := by
      unfold demoNet
      exact loadInt_spec rfl
    step hl
    step (tickOf_spec tr _)
    refine Triple.pure (entails_pand_r ?_ (clip_ok _ _))
    rw [sep_emp]
    exact net _ _ _ rfl
  case recv =>
    intro fd tr
    rw [sep_emp]
    unfold demoOs
    step (tickOf_spec tr [])
    refine Triple.pure (entails_pand_r ?_ ⟨(clip_ok _ _).1, (clip_ok _ _).2.1⟩)
    rw [sep_emp]
    exact net _ _ _ rfl
  all_goals
    intros
    try rw [sep_emp]
    try rw [sep_emp]
    try simp only [sep_emp]
    unfold demoOs
    step (tickOf_spec _ [])
    exact Triple.pure (net _ _ _ rfl)

/-- memory of the demo: the system's block; allocation number `t` is at `2000 + t`, except the refused ones -/
def demoSt (refuse : Nat → Bool) : St :=
  { heap := fun p => if p = 1000 then some [.int 0, .int 1] else none, alloc := fun t _ _ => if refuse t then 0 else 2000 + t, tick := 0 }

theorem demoSt_fin {f : Nat → Bool} : (demoSt f).heap.fin := ⟨1001, fun p hp => by
  have : p ≠ 1000 := by omega
  simp [demoSt, this]⟩

theorem demoSt_net {f : Nat → Bool} : demoNet [] (demoSt f).heap := by
  refine ⟨by decide, by decide, ?_⟩
  funext p
  simp [demoSt, Heap.single]
  rfl

/-- the history theorem applies -/
theorem demo_run (plan : Nat → Int) (refuse : Nat → Bool) (ops : List Op) (hops : ∀ op ∈ ops, good op) :
    ∃ outs env as log s', runOps (exec (demoOs plan)) ops [] (demoSt refuse) = some (.ok ((outs, env), s')) ∧
      Runs (step True) ([], []) ops outs (as, log) ∧ (Own (ORep (SockR fun _ => emp)) env as ∗ demoNet (trace log)) s'.heap :=
  histories_run (demo_honours plan) ops hops _ demoSt_fin demoSt_net

/-! ## Reading results off a run -/

theorem UInt8_eq {a b : UInt8} (h : a.toNat = b.toNat) : a = b := UInt8.toNat_inj.1 h

theorem code_inj : ∀ {a b : List UInt8}, code a = code b → a = b := by
  have snoc : ∀ (a : List UInt8) x, code (a ++ [x]) = 256 * code a + x.toNat := by intro a x; rw [code_append]; rfl
  have pos : ∀ a : List UInt8, 0 < code a := by
    have : ∀ (a : List UInt8) (c : Nat), 0 < c → 0 < a.foldl (fun a b => 256 * a + b.toNat) c := by
      intro a
      induction a with
      | nil => exact fun c h => h
      | cons x a ih => intro c h; exact ih _ (by have := x.toNat_lt; show 0 < 256 * c + x.toNat; omega)
    exact fun a => this a 1 (by decide)
  have main : ∀ n (a b : List UInt8), a.length = n → code a = code b → a = b := by
    intro n
    induction n with
    | zero =>
      intro a b ha h
      rw [List.length_eq_zero_iff] at ha
      subst ha
      rcases List.eq_nil_or_concat b with rfl | ⟨l, x, rfl⟩
      · rfl
      · rw [List.concat_eq_append, snoc] at h
        have := pos l
        simp [code] at h
        unfold code at this
        omega
    | succ n ih =>
      intro a b ha h
      rcases List.eq_nil_or_concat a with rfl | ⟨l, x, rfl⟩
      · simp at ha
      rcases List.eq_nil_or_concat b with rfl | ⟨k, y, rfl⟩
      · rw [List.concat_eq_append, snoc] at h
        have := pos l
        simp [code] at h
        unfold code at this
        omega
      · rw [List.concat_eq_append, List.concat_eq_append, snoc, snoc] at h
        have h1 := UInt8.toNat_lt x
        have h2 := UInt8.toNat_lt y
        have e1 : code l = code k := by omega
        have e2 : x = y := UInt8_eq (by omega)
        rw [ih l k (by simpa using ha) e1, e2]
  intro a b h
  exact main _ a b rfl h

/-- the calls of the record are the operations and the results -/
theorem log_outs {oom : Prop} {x x' : World} {ops : List Op} {outs : List (Option Int)} (h : Runs (step oom) x ops outs x') :
    x'.2.map (fun e => (e.op, e.r)) = x.2.map (fun e => (e.op, e.r)) ++ (ops.zip outs).filterMap (fun y => y.2.map fun r => (y.1, r)) := by
  induction h with
  | nil => simp
  | cons h1 _ ih =>
    rw [ih, List.zip_cons_cons, List.filterMap_cons]
    rcases step_cases h1 with ⟨rfl, rfl⟩ | ⟨r, a', evs, hN, rfl, rfl⟩ | ⟨j, a, r, a', evs, hj, hE, rfl, rfl⟩ <;> simp

/-- all calls were made on the only handle -/
theorem one_handle {oom : Prop} {ops : List Op} {outs : List (Option Int)} {as : List (Option Obj)} {log : Log}
    (h : Runs (step oom) ([], []) ops outs (as, log)) (h1 : as.length = 1) : ofPos 0 log = log := by
  have hp := at_pos (Inv := fun _ _ => True) (by intros; trivial) (by intros; trivial) h
  unfold ofPos
  rw [List.filter_eq_self]
  intro e he
  simp only [decide_eq_true_eq]
  by_cases h0 : e.pos = 0
  · exact h0
  · have := (hp e.pos).1 (by omega)
    unfold ofPos at this
    rw [List.filter_eq_nil_iff] at this
    exact absurd (decide_eq_true rfl) (this e he)

/-- what a client with one handle knows to be accepted: the buffers of the sends that returned 0 -/
def acceptedOf (ops : List Op) (outs : List (Option Int)) : List UInt8 :=
  (ops.zip outs).flatMap fun y =>
    match y.1 with
    | .send _ (some bs) _ _ => if y.2 = some 0 then bs else []
    | _ => []

theorem acceptedBytes_of {oom : Prop} {ops : List Op} {outs : List (Option Int)} {as : List (Option Obj)} {log : Log}
    (h : Runs (step oom) ([], []) ops outs (as, log)) (h1 : as.length = 1) : acceptedBytes 0 log = acceptedOf ops outs := by
  have hl := log_outs h
  simp only [List.map_nil, List.nil_append] at hl
  have e1 : acceptedBytes 0 log = ((log.map fun e => (e.op, e.r)).filterMap fun x => Entry.sent ⟨0, x.1, x.2, []⟩).flatMap (·.1) := by
    unfold acceptedBytes accepted
    rw [one_handle h h1, List.filterMap_map]
    rfl
  rw [e1, hl, List.filterMap_filterMap]
  unfold acceptedOf
  generalize ops.zip outs = z
  induction z with
  | nil => rfl
  | cons y z ih =>
    rw [List.filterMap_cons, List.flatMap_cons, ← ih]
    obtain ⟨op, o⟩ := y
    cases o with
    | none => cases op <;> simp <;> split <;> simp
    | some r =>
      cases op with
      | send i bs cb ctx =>
        cases bs with
        | none => simp [Entry.sent]
        | some bs => by_cases hr : r = 0 <;> simp [hr, Entry.sent]
      | _ => simp [Entry.sent]

/-- The results of a run, the number of handles, and the system's block: the number of calls received, and the bytes
taken by the sockets. -/
def report (plan : Nat → Int) (refuse : Nat → Bool) (ops : List Op) : Option (List (Option Int) × Nat × Option Block) :=
  match runOps (exec (demoOs plan)) ops [] (demoSt refuse) with
  | some (.ok ((outs, env), s')) => some (outs, env.length, s'.heap 1000)
  | _ => none

/-- `log` is the record of a run of the code on a system that meets the contract: the results are `outs`, and the
system's memory is that after the calls of the record. -/
def Recorded (ops : List Op) (outs : List (Option Int)) (log : Log) : Prop :=
  ∃ (os : Os) (Net : List Ev → HProp) (Fd : Int → HProp) (Ai : Nat → HProp) (s : St) (env : List Nat) (as : List (Option Obj)) (s' : St),
    Honours False os Net Fd Ai ∧ s.heap.fin ∧ Net [] s.heap ∧ (∀ op ∈ ops, good op) ∧
    runOps (exec os) ops [] s = some (.ok ((outs, env), s')) ∧
    Runs (step True) ([], []) ops outs (as, log) ∧ (Own (ORep (SockR Fd)) env as ∗ Net (trace log)) s'.heap

/-- from a computed run to the record of calls -/
theorem read_report {plan : Nat → Int} {refuse : Nat → Bool} {ops : List Op} (hops : ∀ op ∈ ops, good op) {outs : List (Option Int)} {bs : List UInt8} {n : Nat}
    (h : report plan refuse ops = some (outs, 1, some [.int n, .int (code bs)])) :
    ∃ log, Recorded ops outs log ∧ stream 0 log = bs ∧ acceptedBytes 0 log = acceptedOf ops outs ∧ (trace log).length = n := by
  obtain ⟨outs', env, as, log, s', h1, h2, h3⟩ := demo_run plan refuse ops hops
  unfold report at h
  rw [h1] at h
  simp only [Option.some.injEq, Prod.mk.injEq] at h
  obtain ⟨rfl, h4, h5⟩ := h
  have hl : as.length = 1 := by
    obtain ⟨_, _, _, _, ho, _⟩ := h3
    rw [← h4]; exact (Own_len _ ho).symm
  have key : (trace log).length = n ∧ code ((trace log).flatMap Ev.taken) = code bs := by
    obtain ⟨a, b, hd, hu, _, _, _, hb⟩ := h3
    have ha : a 1000 = none := by
      cases ha : a 1000 with
      | none => rfl
      | some x => exact absurd hd (by
          intro hd
          have := hd 1000
          simp [hb, Heap.single, ha] at this)
    rw [hu, hb] at h5
    simpa [Heap.union, ha, Heap.single] using h5
  refine ⟨log, ⟨_, _, _, _, _, env, as, s', demo_honours plan, demoSt_fin, demoSt_net, hops, h1, h2, h3⟩, ?_, acceptedBytes_of h2 hl, key.1⟩
  unfold stream
  rw [one_handle h2 hl]
  exact code_inj key.2

/-! ## C47: counterexamples -/

/-- open the only handle: calls 0 to 6 -/
def opening : List Op := [.create [104] 80 0, .opn 0 1 0 2 0 3 0]

/-- the open succeeds, then the results of the calls -/
def thenR (rs : List Int) (n : Nat) : Int := if n ≤ 6 then 0 else rs.getD (n - 7) (-1)

/-! loops of list.c with one step unfolded, so that the runs can be computed -/
def removeBody (rec : Ptr → Ptr → Ptr → Ptr → M Ptr) (list item : Ptr) (current_item previous_item : Ptr) : M Ptr := do
  if current_item ≠ 0 then
    if current_item = item then
      let next ← loadPtr current_item fNext
      if previous_item ≠ 0 then
        store previous_item fNext (.ptr next)
        free current_item
        pure current_item
      else
        store list fHead (.ptr next)
        free current_item
        pure current_item
    else
      let next ← loadPtr current_item fNext
      rec list item next current_item
  else pure 0

def lastBody (rec : Ptr → M Ptr) (current : Ptr) : M Ptr := do
  let next ← loadPtr current fNext
  if next ≠ 0 then rec next else pure current

theorem remove_eq : removeLoop = removeBody removeLoop := by
  funext a b c d; rw [removeLoop]; rfl

theorem last_eq : lastLoop = lastBody lastLoop := by
  funext a; rw [lastLoop]; rfl

def dupOps : List Op := opening ++ [.send 0 (some [1, 2, 3]) 9 5, .dowork 0 3 1]

theorem dup_report : report (thenR [1, 1, 1, 1]) (fun _ => false) dupOps = some ([some 1, some 0, some 0, some 0], 1, some [.int 11, .int (code [1, 2, 3, 3])]) := by
  decide +kernel

def lossOps : List Op := opening ++ [.send 0 (some [1, 2]) 9 5]

theorem loss_report : report (thenR [1]) (fun t => t = 3) lossOps = some ([some 1, some 0, some 415], 1, some [.int 8, .int (code [1])]) := by
  decide +kernel

def holeOps : List Op := opening ++ [.send 0 (some [1, 2, 3]) 9 5, .send 0 (some [4, 5]) 9 6, .dowork 0 3 1]

theorem hole_report : report (thenR [1, -1, 0, 2]) (fun _ => false) holeOps =
    some ([some 1, some 0, some 0, some 0, some 1], 1, some [.int 13, .int (code [1, 4, 5])]) := by
  unfold report exec socketio_dowork socketio_send add_pending_io list_add
  rw [last_eq]
  unfold sendLoop sendLoop sendLoop sendRound finishPending list_remove
  rw [remove_eq]
  decide +kernel

theorem good_opening {ops : List Op} (h : ∀ op ∈ ops, good op) : ∀ op ∈ opening ++ ops, good op := by
  intro op hop
  rcases List.mem_append.1 hop with hm | hm
  · simp [opening] at hm
    rcases hm with rfl | rfl
    · refine ⟨?_, by simp [maxObj], by simp [i32]⟩
      simp [NoNul]
    · trivial
  · exact h op hm

/-- C47 fails: bytes are sent again.  A queued buffer that is sent in parts keeps its size. -/
theorem duplicates_bytes : ∃ ops outs log, Recorded ops outs log ∧ acceptedBytes 0 log = [1, 2, 3] ∧ stream 0 log = [1, 2, 3, 3] := by
  obtain ⟨log, h1, h2, h3, _⟩ := read_report (good_opening (by simp [good, maxObj])) dup_report
  exact ⟨_, _, log, h1, h3, h2⟩

/-- C47 fails: a failing socket makes a hole in the stream.  The queued buffer is dropped, and the next one is sent. -/
theorem skips_bytes : ∃ ops outs log, Recorded ops outs log ∧ acceptedBytes 0 log = [1, 2, 3, 4, 5] ∧ stream 0 log = [1, 4, 5] := by
  obtain ⟨log, h1, h2, h3, _⟩ := read_report (good_opening (by simp [good, maxObj])) hole_report
  exact ⟨_, _, log, h1, h3, h2⟩

/-- C47 fails: a send that is refused for want of memory has sent a part of the buffer. -/
theorem refused_bytes : ∃ ops outs log, Recorded ops outs log ∧ acceptedBytes 0 log = [] ∧ stream 0 log = [1] := by
  obtain ⟨log, h1, h2, h3, _⟩ := read_report (good_opening (by simp [good, maxObj])) loss_report
  exact ⟨_, _, log, h1, h3, h2⟩

/-! ## C57: counterexample -/

theorem close_report : report (fun _ => 0) (fun _ => false) [.create [104] 80 0, .close 0 7 1] = some ([some 1, some 0], 1, some [.int 0, .int (code [])]) := by
  decide +kernel

/-- C57 fails: closing a handle that was never opened reports success, and the callback is never called. -/
theorem close_of_closed : ∃ log, Recorded [.create [104] 80 0, .close 0 7 1] [some 1, some 0] log ∧ trace log = [] := by
  obtain ⟨log, h1, _, _, h2⟩ := read_report (by simp [good, maxObj, i32, NoNul]) close_report
  exact ⟨log, h1, List.length_eq_zero_iff.1 h2⟩

/-! ## What a successful history looks like -/

/-- direct send, partial send completed by `socketio_dowork`, received byte, close -/
def fineOps : List Op := opening ++ [.send 0 (some [1, 2]) 9 5, .send 0 (some [3, 4]) 9 6, .dowork 0 4 4, .close 0 7 1, .send 0 (some [1]) 9 7]

theorem fine_report : report (thenR [2, 0, 1, 1, 0, 1, 0, 0]) (fun _ => false) fineOps =
    some ([some 1, some 0, some 0, some 0, some 1, some 0, some 381], 1, some [.int 18, .int (code [1, 2, 3, 4])]) := by
  unfold report exec socketio_dowork sendLoop sendLoop sendLoop sendRound finishPending list_remove
  rw [remove_eq]
  decide +kernel

/-- the hypotheses of the theorems of the ledger are met by a run in which bytes are sent directly, queued and completed -/
example : ∃ outs log, Recorded fineOps outs log ∧ stream 0 log = [1, 2, 3, 4] ∧ acceptedBytes 0 log = [1, 2, 3, 4] ∧ (trace log).length = 18 := by
  obtain ⟨log, h1, h2, h3, h4⟩ := read_report (good_opening (by simp [good, maxObj])) fine_report
  exact ⟨_, log, h1, h2, h3, h4⟩

end Verif.Sock
