import Verif.Sock.History
import Verif.Sock.Again
/-! # C118: histories of clients that send on a handle from within its callbacks -/
namespace Verif.Sock
open Verif.List Verif.Headers
variable {rel : Prop} {os : Os} {Net : List Ev → HProp} {Fd : Int → HProp} {Ai : Nat → HProp}

/-- the client: a table of handles; `cs i` is what it does in the callbacks of the handle at position `i`, which are nested
at most `d + 1` deep -/
def execC (os : Os) (cs : Nat → Client) (d : Nat) (op : Op) (env : List Nat) : M (Option Int × List Nat) :=
  match op with
  | .send i (some bs) cb ctx => on1 env i fun h => do let r ← socketio_send (nest os (cs i) h (d + 1)) h (.lit bs) bs.length cb ctx; pure (some r, env)
  | .dowork i n m => on1 env i fun h => do let r ← socketio_dowork (nest os (cs i) h (d + 1)) n m h; pure (some (if r then 1 else 0), env)
  | op => exec os op env

/-- `socketio_send` on a handle that may be `NULL` -/
def SendC (oom : Prop) (c : Client) (d : Nat) (m : Pend) (a : Option Obj) (r : Int) (a' : Option Obj) (evs : List Ev) : Prop :=
  match a with
  | none => r ≠ 0 ∧ a' = none ∧ evs = []
  | some o => ∃ o', a' = some o' ∧ SendIn oom c (d + 1) o m r o' evs

/-- `socketio_dowork` on a handle that may be `NULL` -/
def WorkC (oom : Prop) (c : Client) (d n m : Nat) (a : Option Obj) (fin : Bool) (a' : Option Obj) (evs : List Ev) : Prop :=
  match a with
  | none => fin = true ∧ a' = none ∧ evs = []
  | some o => ∃ o', a' = some o' ∧ DoworkC oom c d n m o fin o' evs

/-- One client call (C47's `step`, with what the callbacks do). -/
def stepC (oom : Prop) (cs : Nat → Client) (d : Nat) (x : World) (op : Op) (o : Option Int) (x' : World) : Prop :=
  match op with
  | .send i (some bs) cb ctx => On1W x i (fun a log r a' log' => ∃ evs, SendC oom (cs i) d ⟨bs, cb, ctx⟩ a r a' evs ∧
      log' = log ++ [⟨i, .send i (some bs) cb ctx, r, evs⟩]) o x'
  | .dowork i n m => On1W x i (fun a log r a' log' => ∃ fin evs, WorkC oom (cs i) d n m a fin a' evs ∧ r = (if fin then 1 else 0) ∧
      log' = log ++ [⟨i, .dowork i n m, r, evs⟩]) o x'
  | op => step oom x op o x'

theorem execC_spec (H : Honours rel os Net Fd Ai) {cs : Nat → Client} (hcs : ∀ i, (cs i).fits) (d : Nat) (op : Op) (hop : good op) (env : List Nat) (x : World) :
    Triple rel (OwnW (ORep (SockR Fd)) (NetL Net) env x) (execC os cs d op env)
      (fun r => ∃∃ x', (stepC (¬ rel) cs d x op r.1 x') ⋏ OwnW (ORep (SockR Fd)) (NetL Net) r.2 x') := by
  have base := exec_spec H op hop env x
  cases op with
  | create => exact base
  | createNull => exact base
  | accept => exact base
  | destroy => exact base
  | opn => exact base
  | close => exact base
  | send i bs cb ctx =>
    cases bs with
    | none => exact base
    | some bs =>
      unfold execC stepC
      dsimp only
      refine liftW_op1 (f := id) fun h a log => ?_
      cases a with
      | none =>
        unfold socketio_send
        rw [ORep_none]
        hoist
        rintro rfl
        rw [if_pos (Or.inl rfl)]
        refine Triple.pure (entails_ex_r none (entails_ex_r _ (entails_pand_r ?_ ⟨[], ⟨by decide, rfl, rfl⟩, rfl⟩)))
        rw [ORep_null, emp_sep]
        unfold NetL
        rw [trace_snoc, List.append_nil]; exact entails_refl _
      | some o =>
        rw [ORep_some]
        refine (sendIn_spec H (hcs i) (p := h) (d + 1) ⟨bs, cb, ctx⟩ o (trace log) hop).conseq (entails_refl _) fun r => ?_
        refine entails_ex_l fun o' => entails_ex_l fun evs => entails_pand_l fun hE => entails_ex_r (some o') (entails_ex_r _ (entails_pand_r ?_ ⟨evs, ⟨o', rfl, hE⟩, rfl⟩))
        unfold NetL; rw [trace_snoc, ORep_some]; exact entails_refl _
  | dowork i n m =>
    unfold execC stepC
    dsimp only
    refine liftW_op1 (f := fun r : Bool => if r then 1 else 0) fun h a log => ?_
    cases a with
    | none =>
      unfold socketio_dowork
      rw [ORep_none]
      hoist
      rintro rfl
      rw [if_pos rfl]
      refine Triple.pure (entails_ex_r none (entails_ex_r _ (entails_pand_r ?_ ⟨true, [], ⟨rfl, rfl, rfl⟩, rfl, rfl⟩)))
      rw [ORep_null, emp_sep]
      unfold NetL
      rw [trace_snoc, List.append_nil]; exact entails_refl _
    | some o =>
      rw [ORep_some]
      refine (doworkC_spec H (hcs i) d n m h o (trace log)).conseq (entails_refl _) fun r => ?_
      refine entails_ex_l fun o' => entails_ex_l fun evs => entails_pand_l fun hE => entails_ex_r (some o') (entails_ex_r _ (entails_pand_r ?_ ⟨r, evs, ⟨o', rfl, hE⟩, rfl, rfl⟩))
      unfold NetL; rw [trace_snoc, ORep_some]; exact entails_refl _

/-- Every history of a client that sends on the handle in its callbacks: no undefined behaviour; results, callbacks and
system calls are those of the specification. -/
theorem historiesC (H : Honours rel os Net Fd Ai) {cs : Nat → Client} (hcs : ∀ i, (cs i).fits) (d : Nat) (ops : List Op) (hops : ∀ op ∈ ops, good op) (env : List Nat) (x : World) :
    Triple rel (OwnW (ORep (SockR Fd)) (NetL Net) env x) (runOps (execC os cs d) ops env)
      (fun r => ∃∃ x', (Runs (stepC (¬ rel) cs d) x ops r.1 x') ⋏ OwnW (ORep (SockR Fd)) (NetL Net) r.2 x') :=
  runOps_spec (fun op hop env x => execC_spec H hcs d op hop env x) ops hops env x

/-- From a state in which only the system owns memory. -/
theorem historiesC_run (H : Honours False os Net Fd Ai) {cs : Nat → Client} (hcs : ∀ i, (cs i).fits) (d : Nat) (ops : List Op) (hops : ∀ op ∈ ops, good op) (s : St)
    (hf : s.heap.fin) (h0 : Net [] s.heap) :
    ∃ outs env as log s', runOps (execC os cs d) ops [] s = some (.ok ((outs, env), s')) ∧
      Runs (stepC True cs d) ([], []) ops outs (as, log) ∧ (Own (ORep (SockR Fd)) env as ∗ Net (trace log)) s'.heap := by
  have t := historiesC H hcs d ops hops [] ([], [])
  have t : Triple False (Net []) _ _ := t.pre (entails_of_eq (by rw [OwnW, Own_nil, emp_sep]; rfl))
  obtain ⟨r, s', h1, ⟨x', hx, hh⟩⟩ := t.run s hf (fun h => h.elim) h0
  refine ⟨r.1, r.2, x'.1, x'.2, s', h1, ?_, hh⟩
  simpa using hx

/-! ## What follows -/

/-- what was sent whole, in order, with its completions -/
def wholes (fd : Int) (ms : List Pend) : List Ev := ms.flatMap fun m => .send fd m.bytes m.bytes.length :: evCompleted m.cb m.ctx

/-- what a client asks for when its messages `ms` are completed: its nonempty messages, in order -/
def Client.asks (c : Client) (ms : List Pend) : List Pend := ms.flatMap fun m => if m.cb = 0 then [] else (c.done m.cb m.ctx).filter fun m => m.bytes ≠ []

/-- While the socket takes every message whole and memory is not refused: one round of the sending loop after the other sends
the message that has waited longest, calls its completion callback once, and queues what is asked for there behind
everything else.  Nothing is lost, nothing is sent twice; the loop ends when nothing waits. -/
theorem sends_in_order {c : Client} {k : Nat} {o o' : Obj} {fin : Bool} {evs : List Ev} (h : SendLoopC False c k o fin o' evs) (hst : o.state = .opn)
    (hw : ∀ fd bs r, Ev.send fd bs r ∈ evs → r = bs.length) :
    ∃ ms, o.pending ++ c.asks ms = ms ++ o'.pending ∧ evs = wholes o.socket ms ∧ (fin = true ↔ o'.pending = []) ∧ o'.state = .opn ∧
      (fin = false → ms.length = k) := by
  induction h with
  | done hp => exact ⟨[], by simp [hp, Client.asks], rfl, by simp [hp], hst, by simp⟩
  | cut hp => exact ⟨[], by simp [Client.asks], rfl, by simp [hp], hst, by simp⟩
  | @whole k o p ps added fin o' evs hp hq _ ih =>
    have hadd : added = (if p.cb = 0 then [] else c.done p.cb p.ctx).filter fun m => m.bytes ≠ [] := by
      unfold Queued at hq
      rw [if_pos hst] at hq
      exact hq.2 not_false
    have hadd' : added = if p.cb = 0 then [] else (c.done p.cb p.ctx).filter fun m => m.bytes ≠ [] := by
      rw [hadd]; split <;> rfl
    obtain ⟨ms, h1, h2, h3, h4, h5⟩ := ih hst (fun fd bs r h => hw fd bs r (by simp [h]))
    refine ⟨p :: ms, ?_, ?_, h3, h4, fun h => by simp [h5 h]⟩
    · rw [hp]
      simp only [Client.asks, List.flatMap_cons, ← hadd'] at *
      rw [List.cons_append, ← List.append_assoc, h1]
      rfl
    · rw [h2]
      simp [wholes]
  | @fail k o p ps fin o' evs hp _ ih =>
    exfalso
    have := hw o.socket p.bytes (-1) (by simp)
    omega
  | @part k o p ps fin o' evs n hp hn _ ih =>
    exfalso
    have := hw o.socket p.bytes n (by simp)
    omega

/-- completion callbacks called, in order -/
def toldIn (evs : List Ev) : List (Nat × Nat) := evs.filterMap fun | .completed f x true => some (f, x) | _ => none

/-- Whatever the socket does and whatever memory is refused: each message leaves the queue once, in the order in which it was
queued; the completion callback of a message is called at most once, on leaving, and not before those of the messages ahead. -/
theorem told_in_order {oom : Prop} {c : Client} {k : Nat} {o o' : Obj} {fin : Bool} {evs : List Ev} (h : SendLoopC oom c k o fin o' evs) :
    ∃ (added : List Pend) (left : List (Nat × Nat × Bool)),
      (o.pending ++ added).map (fun m => (m.cb, m.ctx)) = left.map (fun x => (x.1, x.2.1)) ++ o'.pending.map (fun m => (m.cb, m.ctx)) ∧
      toldIn evs = (left.filter fun x => x.2.2 && x.1 ≠ 0).map (fun x => (x.1, x.2.1)) ∧
      (∀ m ∈ added, ∃ f x, (f, x) ∈ toldIn evs ∧ m ∈ c.done f x ∧ m.bytes ≠ []) := by
  induction h with
  | done hp => exact ⟨[], [], by simp [hp], by simp [toldIn], by simp⟩
  | cut hp => exact ⟨[], [], by simp, by simp [toldIn], by simp⟩
  | @whole k o p ps added fin o' evs hp hq _ ih =>
    obtain ⟨add2, left, h1, h2, h3⟩ := ih
    have hev : toldIn (.send o.socket p.bytes p.bytes.length :: evCompleted p.cb p.ctx ++ evs) = (if p.cb = 0 then [] else [(p.cb, p.ctx)]) ++ toldIn evs := by
      unfold evCompleted; split <;> simp [toldIn]
    refine ⟨added ++ add2, (p.cb, p.ctx, true) :: left, ?_, ?_, ?_⟩
    · rw [hp]
      simp only [List.append_assoc, List.map_append, List.cons_append, List.map_cons] at h1 ⊢
      rw [h1]
    · rw [hev, h2]
      by_cases h0 : p.cb = 0 <;> simp [h0]
    · intro m hm
      rw [hev]
      rcases List.mem_append.1 hm with hm | hm
      · unfold Queued at hq
        split at hq
        · have := List.mem_filter.1 (hq.1.subset hm)
          split at this
          · simp at this
          · rename_i hcb
            exact ⟨p.cb, p.ctx, by simp [hcb], this.1, by simpa using this.2⟩
        · subst hq; simp at hm
      · obtain ⟨f, x, g1, g2⟩ := h3 m hm
        exact ⟨f, x, List.mem_append_right _ g1, g2⟩
  | @fail k o p ps fin o' evs hp _ ih =>
    obtain ⟨add2, left, h1, h2, h3⟩ := ih
    have hev : toldIn (.send o.socket p.bytes (-1) :: evError o ++ evs) = toldIn evs := by
      unfold evError; split <;> simp [toldIn]
    refine ⟨add2, (p.cb, p.ctx, false) :: left, ?_, ?_, ?_⟩
    · rw [hp]
      simp only [List.map_append, List.cons_append, List.map_cons] at h1 ⊢
      rw [h1]
    · rw [hev, h2]; simp
    · rw [hev]; exact h3
  | @part k o p ps fin o' evs n hp hn _ ih =>
    obtain ⟨add2, left, h1, h2, h3⟩ := ih
    have hev : toldIn (.send o.socket p.bytes n :: evs) = toldIn evs := by simp [toldIn]
    refine ⟨add2, left, ?_, ?_, ?_⟩
    · rw [hp]
      simpa using h1
    · rw [hev, h2]
    · rw [hev]; exact h3

end Verif.Sock
