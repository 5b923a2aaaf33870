import Verif.Sock.Demo
import Verif.Sock.Told
/-! # C108, C109 (socketio_berkeley.c): counterexamples, and that the theorems are not about nothing -/
namespace Verif.Sock
open Verif.List Verif.Headers

/-- what is kept of a call: the sockets made (100 + number), the sockets that took bytes, the end of received data (200: the peer closed the connection, 201: failure), and
the calls of the error callback (202) -/
def Ev.mark : Ev → List UInt8
  | .socket c => [UInt8.ofNat (100 + c.toNat)]
  | .send c _ r => if 0 < r then [UInt8.ofNat c.toNat] else []
  | .recv _ r _ => if r = 0 then [200] else if r < 0 then [201] else []
  | .error _ _ => [202]
  | _ => []

/-- The system keeps one block at address 1000: the number of calls received, the bytes taken by the sockets and the marks (both written in base 256 after a
leading 1). -/
def note (ev : Ev) : M Unit := do
  let n ← loadInt 1000 0
  let c ← loadInt 1000 1
  let m ← loadInt 1000 2
  store 1000 0 (.int (n + 1))
  store 1000 1 (.int (ev.taken.foldl (fun a b => 256 * a + b.toNat) c))
  store 1000 2 (.int (ev.mark.foldl (fun a b => 256 * a + b.toNat) m))

def markOs (plan : Nat → Int) : Os where
  socket := do let n ← loadInt 1000 0; note (.socket (clip (plan n) (2 ^ 31))); pure (clip (plan n) (2 ^ 31))
  getaddrinfo _ port := do let n ← loadInt 1000 0; note (.getaddrinfo none port (plan n) n); pure (plan n, n)
  connect fd ai := do let n ← loadInt 1000 0; note (.connect fd ai (plan n)); pure (plan n)
  freeaddrinfo ai := note (.freeaddrinfo ai)
  getfl fd := do let n ← loadInt 1000 0; note (.getfl fd (plan n)); pure (plan n)
  setfl fd fl := do let n ← loadInt 1000 0; note (.setfl fd fl (plan n)); pure (plan n)
  shutdown fd := do note (.shutdown fd); pure 0
  close fd := do note (.close fd); pure 0
  send c bs := do let n ← loadInt 1000 0; note (.send c bs (clip (plan n) bs.length)); pure (clip (plan n) bs.length)
  recv c := do let n ← loadInt 1000 0; note (.recv c (clip (plan n) 1) 7); pure (clip (plan n) 1, 7)
  on_io_open_complete f c ok := note (.opened f c ok)
  on_io_close_complete f c := note (.closed f c)
  on_send_complete f c ok := note (.completed f c ok)
  on_bytes_received f c bs := note (.received f c bs)
  on_io_error f c := note (.error f c)

def markNet (tr : List Ev) : HProp := 1000 ↦ [.int tr.length, .int (code (tr.flatMap Ev.taken)), .int (code (tr.flatMap Ev.mark))]

theorem note_spec {rel : Prop} (tr : List Ev) (e : Ev) : Triple rel (markNet tr) (note e) (fun _ => markNet (tr ++ [e])) := by
  unfold note markNet
  stepd (loadInt_spec (n := tr.length) ?_)
  stepd (loadInt_spec (n := code (tr.flatMap Ev.taken)) ?_)
  stepd (loadInt_spec (n := code (tr.flatMap Ev.mark)) ?_)
  stepd (store_spec ?_)
  stepd (store_spec ?_)
  lastd (store_spec ?_)
  simp only [sep_emp, List.set_cons_succ, List.set_cons_zero, List.length_append, List.length_cons, List.length_nil, List.flatMap_append, List.flatMap_cons, List.flatMap_nil, List.append_nil,
    Nat.zero_add, code_append]
  exact entails_refl _

theorem mark_honours {rel : Prop} (plan : Nat → Int) : Honours rel (markOs plan) markNet (fun _ => emp) (fun _ => emp) := by
  have hl : ∀ tr, Triple rel (markNet tr) (loadInt 1000 0) (fun n => (n = tr.length) ⋏ markNet tr) := by
    intro tr
    unfold markNet
    exact loadInt_spec rfl
  constructor
  case socket =>
    intro tr
    unfold markOs
    step (hl tr)
    step (note_spec tr _)
    refine Triple.pure (entails_pand_r ?_ ⟨(clip_ok _ _).1, (clip_ok _ _).2.2⟩)
    simp only [ite_self, sep_emp]
    exact entails_refl _
  case getaddrinfo =>
    intro s h port tr
    simp only [ite_self, sep_emp]
    unfold markOs
    step (hl tr)
    step (note_spec tr _)
    refine Triple.pure (sep_mono ?_ (entails_refl _))
    unfold markNet
    simp only [List.length_append, List.length_cons, List.length_nil, List.flatMap_append, List.flatMap_cons, List.flatMap_nil, List.append_nil]
    exact entails_refl _
  case send =>
    intro fd bs tr
    rw [sep_emp]
    unfold markOs
    step (hl tr)
    step (note_spec tr _)
    refine Triple.pure (entails_pand_r ?_ (clip_ok _ _))
    rw [sep_emp]
    exact entails_refl _
  case recv =>
    intro fd tr
    rw [sep_emp]
    unfold markOs
    step (hl tr)
    step (note_spec tr _)
    refine Triple.pure (entails_pand_r ?_ ⟨(clip_ok _ _).1, (clip_ok _ _).2.1⟩)
    rw [sep_emp]
    exact entails_refl _
  case connect => intros; simp only [sep_emp]; unfold markOs; step (hl _); step (note_spec _ _); exact Triple.pure (entails_refl _)
  case getfl => intros; simp only [sep_emp]; unfold markOs; step (hl _); step (note_spec _ _); exact Triple.pure (entails_refl _)
  case setfl => intros; simp only [sep_emp]; unfold markOs; step (hl _); step (note_spec _ _); exact Triple.pure (entails_refl _)
  case shutdown => intros; simp only [sep_emp]; unfold markOs; step (note_spec _ _); exact Triple.pure (entails_refl _)
  case close => intros; simp only [sep_emp]; unfold markOs; step (note_spec _ _); exact Triple.pure (entails_refl _)
  all_goals
    intros
    try simp only [sep_emp]
    exact note_spec _ _

/-- memory of the demo: the system's block; allocation number `t` is at `2000 + t` -/
def markSt : St :=
  { heap := fun p => if p = 1000 then some [.int 0, .int 1, .int 1] else none, alloc := fun t _ _ => 2000 + t, tick := 0 }

theorem markSt_fin : markSt.heap.fin := ⟨1001, fun p hp => by
  have : p ≠ 1000 := by omega
  simp [markSt, this]⟩

theorem markSt_net : markNet [] markSt.heap := by
  refine ⟨by decide, by decide, ?_⟩
  funext p
  simp [markSt, Heap.single]
  rfl

def markReport (plan : Nat → Int) (ops : List Op) : Option (List (Option Int) × Nat × Option Block) :=
  match runOps (exec (markOs plan)) ops [] markSt with
  | some (.ok ((outs, env), s')) => some (outs, env.length, s'.heap 1000)
  | _ => none

theorem read_marks {plan : Nat → Int} {ops : List Op} (hops : ∀ op ∈ ops, good op) {outs : List (Option Int)} {bs ms : List UInt8} {n : Nat}
    (h : markReport plan ops = some (outs, 1, some [.int n, .int (code bs), .int (code ms)])) :
    ∃ log, Recorded ops outs log ∧ stream 0 log = bs ∧ acceptedBytes 0 log = acceptedOf ops outs ∧ (trace log).flatMap Ev.mark = ms := by
  obtain ⟨outs', env, as, log, s', h1, h2, h3⟩ := histories_run (mark_honours plan) ops hops _ markSt_fin markSt_net
  unfold markReport at h
  rw [h1] at h
  simp only [Option.some.injEq, Prod.mk.injEq] at h
  obtain ⟨rfl, h4, h5⟩ := h
  have hl : as.length = 1 := by
    obtain ⟨_, _, _, _, ho, _⟩ := h3
    rw [← h4]; exact (Own_len _ ho).symm
  have key : (trace log).length = n ∧ code ((trace log).flatMap Ev.taken) = code bs ∧ code ((trace log).flatMap Ev.mark) = code ms := by
    obtain ⟨a, b, hd, hu, _, _, _, hb⟩ := h3
    have ha : a 1000 = none := by
      cases ha : a 1000 with
      | none => rfl
      | some x => exact absurd hd (by
          intro hd
          have := hd 1000
          simp [hb, Heap.single, ha] at this)
    rw [hu, hb] at h5
    simpa [Heap.union, ha, Heap.single] using h5
  refine ⟨log, ⟨_, _, _, _, _, env, as, s', mark_honours plan, markSt_fin, markSt_net, hops, h1, h2, h3⟩, ?_, acceptedBytes_of h2 hl, code_inj key.2.2⟩
  unfold stream
  rw [one_handle h2 hl]
  exact code_inj key.2.1

/-! ## C47, C108: counterexamples -/

def staleOps : List Op := opening ++ [.send 0 (some [1]) 9 5, .close 0 7 1, .opn 0 1 0 2 0 3 0, .dowork 0 3 1]

theorem stale_report : markReport (thenR [0, 0, 0, 0, 5, 0, 0, 0, 0, 0, 0, 1, 0, 0]) staleOps =
    some ([some 1, some 0, some 0, some 0, some 0, some 1], 1, some [.int 21, .int (code [1]), .int (code [100, 105, 5, 200])]) := by
  unfold markReport exec socketio_dowork sendLoop sendLoop sendRound finishPending list_remove
  rw [remove_eq]
  decide +kernel

/-- C47 fails: bytes accepted on one connection (socket 0) are sent on the next (socket 5): closing does not empty the queue. -/
theorem wrong_connection : ∃ outs log, Recorded staleOps outs log ∧ outs = [some 1, some 0, some 0, some 0, some 0, some 1] ∧ stream 0 log = [1] ∧
    (trace log).flatMap Ev.mark = [100, 105, 5, 200] := by
  obtain ⟨log, h1, h2, _, h3⟩ := read_marks (good_opening (by simp [good, maxObj])) stale_report
  exact ⟨_, log, h1, rfl, h2, h3⟩

def hangOps : List Op := opening ++ [.dowork 0 1 1, .send 0 (some [1]) 9 5]

theorem hang_report (r : Int) (b : UInt8) (h : (r, b) = (0, 200) ∨ (r, b) = (-1, 201)) : markReport (thenR [r, 1]) hangOps =
    some ([some 1, some 0, some 1, some 0], 1, some [.int 10, .int (code [1]), .int (code [100, b, 0])]) := by
  rcases h with h | h <;> (simp only [Prod.mk.injEq] at h; obtain ⟨rfl, rfl⟩ := h; decide +kernel)

/-- C108 fails: when the peer has closed the connection (`recv` returns 0) or receiving fails (-1), nobody is told: no callback is called, and the handle goes on
accepting sends. -/
theorem silent_hangup (r : Int) (b : UInt8) (h : (r, b) = (0, 200) ∨ (r, b) = (-1, 201)) : ∃ outs log, Recorded hangOps outs log ∧
    outs = [some 1, some 0, some 1, some 0] ∧ acceptedBytes 0 log = [1] ∧ (trace log).flatMap Ev.mark = [100, b, 0] := by
  obtain ⟨log, h1, _, h2, h3⟩ := read_marks (good_opening (by simp [good, maxObj])) (hang_report r b h)
  exact ⟨_, log, h1, rfl, h2, h3⟩

/-! ## C109: `socketio_dowork` need not return -/

/-- a system whose connections take nothing -/
def fullOs : Os where
  socket := pure 0
  getaddrinfo _ _ := pure (0, 0)
  connect _ _ := pure 0
  freeaddrinfo _ := pure ()
  getfl _ := pure 0
  setfl _ _ := pure 0
  shutdown _ := pure 0
  close _ := pure 0
  send _ _ := pure 0
  recv _ := pure (-1, 0)
  on_io_open_complete _ _ _ := pure ()
  on_io_close_complete _ _ := pure ()
  on_send_complete _ _ _ := pure ()
  on_bytes_received _ _ _ := pure ()
  on_io_error _ _ := pure ()

/-- what such a system answers -/
def Ev.fullOk : Ev → Prop
  | .socket c => c = 0
  | .getaddrinfo _ _ err _ => err = 0
  | .connect _ _ err => err = 0
  | .getfl _ r => r = 0
  | .setfl _ _ r => r = 0
  | .send _ _ r => r = 0
  | _ => True

def fullNet (tr : List Ev) : HProp := (∀ e ∈ tr, e.fullOk) ⋏ emp

theorem full_snoc {tr : List Ev} {e : Ev} (he : e.fullOk) : fullNet tr ⊢ₕ fullNet (tr ++ [e]) := by
  unfold fullNet
  refine entails_pand_l fun h => entails_pand_r (entails_refl _) fun x hx => ?_
  rcases List.mem_append.1 hx with h1 | h1
  · exact h x h1
  · simp at h1; subst h1; exact he

theorem full_honours {rel : Prop} : Honours rel fullOs fullNet (fun _ => emp) (fun _ => emp) := by
  constructor <;> intros <;> (try simp only [sep_emp, ite_self]) <;> unfold fullOs <;> refine Triple.pure ?_
  case socket => exact entails_pand_r (full_snoc rfl) ⟨by omega, by omega⟩
  case send => exact entails_pand_r (full_snoc rfl) ⟨by omega, by omega, by omega⟩
  case recv => exact entails_pand_r (full_snoc trivial) ⟨by omega, by omega⟩
  case getaddrinfo => exact sep_mono (full_snoc rfl) (entails_refl _)
  case connect => exact full_snoc rfl
  case getfl => exact full_snoc rfl
  case setfl => exact full_snoc rfl
  all_goals exact full_snoc trivial

/-- a connection that takes nothing never empties the queue -/
theorem full_loop {o o' : Obj} {fin : Bool} {k : Nat} {evs : List Ev} (h : SendLoop k o fin o' evs) {p : Pend} (hp : o.pending = [p]) (hq : p.bytes ≠ [])
    (hb : ∀ e ∈ evs, e.fullOk) : fin = false := by
  induction h with
  | done h => rw [hp] at h; cases h
  | cut => rfl
  | @whole k o p' ps fin o' evs h1 _ _ =>
    have : (p'.bytes.length : Int) = 0 := hb (.send o.socket p'.bytes p'.bytes.length) (by simp)
    rw [hp] at h1
    simp only [List.cons.injEq] at h1
    obtain ⟨rfl, _⟩ := h1
    exact absurd (List.length_eq_zero_iff.1 (by omega)) hq
  | @fail k o p' ps fin o' evs h1 _ _ => have : (-1 : Int) = 0 := hb (.send o.socket p'.bytes (-1)) (by simp); omega
  | @part k o p' ps fin o' evs n h1 h2 _ ih =>
    have h0 : (n : Int) = 0 := hb _ (List.mem_cons_self ..)
    have h0 : n = 0 := by omega
    subst h0
    rw [hp] at h1
    simp only [List.cons.injEq] at h1
    obtain ⟨rfl, rfl⟩ := h1
    exact ih (by simp [shift]) fun e he => hb e (by simp [he])

/-- memory: nothing allocated yet, and there is always room -/
noncomputable def emptySt : St := { heap := fun _ => none, alloc := fun _ h _ => Classical.epsilon fun p => p ≠ 0 ∧ h p = none, tick := 0 }

theorem emptySt_reliable : Reliable emptySt.alloc := by
  rintro t h n ⟨N, hN⟩ _
  exact Classical.epsilon_spec (p := fun p => p ≠ 0 ∧ h p = none) ⟨N + 1, by omega, hN _ (by omega)⟩

def fullOps (n m : Nat) : List Op := opening ++ [.send 0 (some [1]) 9 5, .dowork 0 n m]

theorem full_send {oom : Prop} {o : Obj} {bs : List UInt8} {cb ctx : Nat} {r : Int} {a' : Option Obj} {evs : List Ev} (h1 : o.state = .opn) (h2 : o.pending = []) (h3 : bs ≠ [])
    (h : SendE oom (some bs) cb ctx (some o) r a' evs) :
    (r = 0 ∧ a' = some o ∧ evs = .send o.socket bs bs.length :: evCompleted cb ctx) ∨
      (r ≠ 0 ∧ a' = some o ∧ evs = .send o.socket bs (-1) :: evError o) ∨
      ∃ n : Nat, n < bs.length ∧ evs = [.send o.socket bs n] ∧
        ((r = 0 ∧ a' = some { o with pending := [⟨bs.drop n, cb, ctx⟩] }) ∨ (r ≠ 0 ∧ oom ∧ a' = some o)) := by
  simp only [SendE] at h
  rw [if_neg (by simp [h1, h3]), if_neg (by simp [h2])] at h
  exact h

theorem full_work {o : Obj} {n m : Nat} {fin : Bool} {a' : Option Obj} {evs : List Ev} (h1 : o.state = .opn) (h : DoworkE n m (some o) fin a' evs) :
    ∃ o', a' = some o' ∧ ((fin = false ∧ SendLoop n o false o' evs) ∨ ∃ e1 e2, evs = e1 ++ e2 ∧ SendLoop n o true o' e1 ∧ RecvLoop o' m fin e2) := by
  simp only [DoworkE] at h
  rw [if_neg (by simp [h1])] at h
  exact h

theorem full_results {n m : Nat} {outs : List (Option Int)} {x : World} (h : Runs (step (¬ True)) ([], []) (fullOps n m) outs x)
    (hb : ∀ e ∈ trace x.2, e.fullOk) : outs = [some 1, some 0, some 0, some 0] := by
  simp only [fullOps, opening, List.cons_append, List.nil_append] at h
  cases h with | cons h1 h => ?_
  cases h with | cons h2 h => ?_
  cases h with | cons h3 h => ?_
  cases h with | cons h4 h => ?_
  cases h
  obtain ⟨b, a', w', rfl, ⟨ok, hc, rfl, rfl⟩, rfl⟩ := h1
  rcases hc with ⟨_, _, h0⟩ | ⟨rfl, _, rfl⟩
  · simp at h0
  rcases h2 with ⟨h0, _⟩ | ⟨a2, r2, a2', w2, ha, rfl, ⟨evs2, hE2, rfl⟩, rfl⟩
  · simp at h0
  simp at ha; subst ha
  rcases h3 with ⟨h0, _⟩ | ⟨a3, r3, a3', w3, ha, rfl, ⟨evs3, hE3, rfl⟩, rfl⟩
  · simp at h0
  simp at ha; subst ha
  rcases h4 with ⟨h0, _⟩ | ⟨a4, r4, a4', w4, ha, rfl, ⟨fin, evs4, hE4, rfl, rfl⟩, rfl⟩
  · simp at h0
  simp at ha; subst ha
  have t : ∀ e ∈ evs2 ++ (evs3 ++ evs4), e.fullOk := fun e he => hb e (by simpa [trace] using he)
  have hE2' : r2 = 0 ∧ a2' = some (opened ⟨-1, 0, 0, 0, 0, 0, some [104], 80, .closed, []⟩ 0 2 0 3 0) := by
    simp only [OpenE] at hE2
    rw [if_neg (by simp), if_neg (by simp)] at hE2
    rcases hE2 with ⟨h0, h1, rfl⟩ | ⟨fd, _, _, ⟨err, ai, h0, _, h1, rfl⟩ | ⟨ai, ⟨err, h0, _, h1, rfl⟩ | ⟨h0, h1, rfl⟩ | ⟨fl, _, h0, h1, rfl⟩ | ⟨_, _, _, _, h0, h1, rfl⟩⟩⟩
    · have := t (.socket (-1)) (by simp); simp [Ev.fullOk] at this
    · exact absurd (t (.getaddrinfo (some [104]) 80 err ai) (by simp)) h0
    · exact absurd (t (.connect fd ai err) (by simp)) h0
    · have := t (.getfl fd (-1)) (by simp); simp [Ev.fullOk] at this
    · have := t (.setfl fd (orNonblock fl) (-1)) (by simp); simp [Ev.fullOk] at this
    · have : fd = 0 := t (.socket fd) (by simp)
      subst this
      exact ⟨h0, by simpa using h1⟩
  obtain ⟨rfl, rfl⟩ := hE2'
  have hE3' : r3 = 0 ∧ a3' = some { opened ⟨-1, 0, 0, 0, 0, 0, some [104], 80, .closed, []⟩ 0 2 0 3 0 with pending := [⟨[1], 9, 5⟩] } := by
    replace hE3 := full_send (o := opened ⟨-1, 0, 0, 0, 0, 0, some [104], 80, .closed, []⟩ 0 2 0 3 0) rfl rfl (by simp) hE3
    rcases hE3 with ⟨_, _, rfl⟩ | ⟨_, _, rfl⟩ | ⟨k, _, rfl, h0 | ⟨_, h0, _⟩⟩
    · have : (1 : Int) = 0 := t (.send 0 [1] 1) (by simp [opened])
      simp at this
    · have : (-1 : Int) = 0 := t (.send 0 [1] (-1)) (by simp [opened])
      simp at this
    · have : (k : Int) = 0 := t (.send 0 [1] k) (by simp [opened])
      have : k = 0 := by omega
      subst this
      exact h0
    · simp at h0
  obtain ⟨rfl, rfl⟩ := hE3'
  have : fin = false := by
    obtain ⟨o', _, ⟨h, _⟩ | ⟨e1, e2, rfl, hl, _⟩⟩ := full_work rfl hE4
    · exact h
    · have := full_loop hl rfl (by simp) (fun e he => t e (by simp [he]))
      simp at this
  subst this
  rfl

/-- C109 fails: on a connection that takes nothing, `socketio_dowork` with a queued buffer is still running after any number of rounds. -/
theorem never_returns (n m : Nat) : ∃ log, Recorded (fullOps n m) [some 1, some 0, some 0, some 0] log := by
  have hg : ∀ op ∈ fullOps n m, good op := good_opening (by simp [good, maxObj])
  have hf : emptySt.heap.fin := ⟨0, fun _ _ => rfl⟩
  have h0 : fullNet [] emptySt.heap := by
    refine ⟨by simp, ?_⟩
    funext p
    rfl
  have t := histories (full_honours (rel := True)) (fullOps n m) hg [] ([], [])
  have t : Triple True (fullNet []) _ _ := t.pre (entails_of_eq (by rw [OwnW, Own_nil, emp_sep]; rfl))
  obtain ⟨r, s', h1, ⟨x', hx, hh⟩⟩ := t.run emptySt hf (fun _ => emptySt_reliable) h0
  have hb : ∀ e ∈ trace x'.2, e.fullOk := by
    have hh : (Own (ORep (SockR fun _ => emp)) r.2 x'.1 ∗ fullNet (trace x'.2)) s'.heap := hh
    obtain ⟨_, _, _, _, _, hb, _⟩ := hh
    exact hb
  have ho := full_results (by simpa using hx) hb
  obtain ⟨outs, env, as, log, s2, k1, k2, k3⟩ := histories_run (full_honours (rel := False)) (fullOps n m) hg emptySt hf h0
  rw [h1] at k1
  obtain ⟨rfl, rfl⟩ := k1
  rw [← ho]
  exact ⟨log, _, _, _, _, _, env, as, s', full_honours, hf, h0, hg, h1, k2, k3⟩

/-! ## What histories look like -/

def tellOps : List Op := opening ++ [.send 0 (some [1, 2]) 9 5, .dowork 0 4 4, .send 0 (some [2]) 9 6, .dowork 0 4 4]

theorem tell_report : markReport (thenR [1, -1, 0, 1, 0, 0]) tellOps =
    some ([some 1, some 0, some 0, some 1, some 381, some 1], 1, some [.int 13, .int (code [1]), .int (code [100, 0, 202, 200])]) := by
  unfold markReport exec socketio_dowork sendLoop sendLoop sendRound finishPending list_remove
  rw [remove_eq]
  decide +kernel

/-- a queued buffer meets a failing socket: the error callback is called, a byte is received and delivered, and the next send is refused -/
example : ∃ outs log, Recorded tellOps outs log ∧ outs = [some 1, some 0, some 0, some 1, some 381, some 1] ∧ stream 0 log = [1] ∧ (trace log).flatMap Ev.mark = [100, 0, 202, 200] := by
  obtain ⟨log, h1, h2, _, h3⟩ := read_marks (good_opening (by simp [good, maxObj])) tell_report
  exact ⟨_, log, h1, rfl, h2, h3⟩

end Verif.Sock
