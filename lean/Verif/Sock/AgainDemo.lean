import Verif.Sock.AgainHist
import Verif.Sock.More
/-! # C118: runs -/
namespace Verif.Sock
open Verif.List Verif.Headers

/-- a client that answers the completion of message 6 with message 7, and a received byte with that byte -/
def chatty : Client where
  done _ x := if x = 6 then [⟨[9], 9, 7⟩] else []
  got _ _ bs := [⟨bs, 9, 8⟩]

theorem chatty_fits : chatty.fits := by
  refine ⟨fun f x m hm => ?_, fun f x b m hm => ?_⟩
  · simp only [chatty] at hm
    split at hm
    · simp at hm; subst hm; simp [maxObj]
    · simp at hm
  · simp only [chatty, List.mem_singleton] at hm
    subst hm; simp [maxObj]

def chatOps : List Op := opening ++ [.send 0 (some [1, 2]) 9 5, .send 0 (some [3, 4]) 9 6, .dowork 0 4 4]

def chatReport (plan : Nat → Int) (c : Client) (d : Nat) (ops : List Op) : Option (List (Option Int) × Nat × Option Block) :=
  match runOps (execC (demoOs plan) (fun _ => c) d) ops [] (demoSt fun _ => false) with
  | some (.ok ((outs, env), s')) => some (outs, env.length, s'.heap 1000)
  | _ => none

/-- The first message goes out in two parts; the second is queued; its completion callback sends a third, which is sent in the
same call of `socketio_dowork`; a byte 7 is received and sent back from the callback. -/
theorem chat_report : chatReport (thenR [1, 1, 0, 2, 0, 1, 0, 1, 0, 1, 0, 0]) chatty 0 chatOps =
    some ([some 1, some 0, some 0, some 0, some 1], 1, some [.int 19, .int (code [1, 2, 3, 4, 9, 7])]) := by
  unfold chatReport execC socketio_dowork sendLoop sendLoop sendLoop sendLoop sendRound finishPending list_remove
  rw [remove_eq]
  unfold nest sendAll socketio_send add_pending_io list_add
  rw [last_eq]
  decide +kernel

/-- the theorem about histories applies to this run -/
theorem chat_applies (plan : Nat → Int) (d : Nat) (ops : List Op) (hops : ∀ op ∈ ops, good op) :
    ∃ outs env as log s', runOps (execC (demoOs plan) (fun _ => chatty) d) ops [] (demoSt fun _ => false) = some (.ok ((outs, env), s')) ∧
      Runs (stepC True (fun _ => chatty) d) ([], []) ops outs (as, log) ∧ (Own (ORep (SockR fun _ => emp)) env as ∗ demoNet (trace log)) s'.heap :=
  historiesC_run (demo_honours plan) (fun _ => chatty_fits) d ops hops _ demoSt_fin demoSt_net

/-- what a client that sends in its callbacks saw: results, the bytes the socket took, and how many calls the system received -/
def RecordedC (c : Client) (d : Nat) (ops : List Op) (outs : List (Option Int)) (log : Log) : Prop :=
  ∃ (os : Os) (Net : List Ev → HProp) (Fd : Int → HProp) (Ai : Nat → HProp) (s : St) (env : List Nat) (as : List (Option Obj)) (s' : St),
    Honours False os Net Fd Ai ∧ c.fits ∧ s.heap.fin ∧ Net [] s.heap ∧ (∀ op ∈ ops, good op) ∧
    runOps (execC os (fun _ => c) d) ops [] s = some (.ok ((outs, env), s')) ∧
    Runs (stepC True (fun _ => c) d) ([], []) ops outs (as, log) ∧ (Own (ORep (SockR Fd)) env as ∗ Net (trace log)) s'.heap

/-- a run in which messages are sent from both callbacks -/
theorem chats : ∃ outs log, RecordedC chatty 0 chatOps outs log ∧ outs = [some 1, some 0, some 0, some 0, some 1] ∧
    (trace log).flatMap Ev.taken = [1, 2, 3, 4, 9, 7] := by
  have hops : ∀ op ∈ chatOps, good op := good_opening (by simp [good, maxObj])
  obtain ⟨outs, env, as, log, s', h1, h2, h3⟩ := chat_applies (thenR [1, 1, 0, 2, 0, 1, 0, 1, 0, 1, 0, 0]) 0 chatOps hops
  have h := chat_report
  unfold chatReport at h
  rw [h1] at h
  simp only [Option.some.injEq, Prod.mk.injEq] at h
  obtain ⟨rfl, h4, h5⟩ := h
  refine ⟨_, log, ⟨_, _, _, _, _, env, as, s', demo_honours _, chatty_fits, demoSt_fin, demoSt_net, hops, h1, h2, h3⟩, rfl, ?_⟩
  obtain ⟨a, b, hd, hu, _, _, _, hb⟩ := h3
  have ha : a 1000 = none := by
    cases ha : a 1000 with
    | none => rfl
    | some x => exact absurd hd (by
        intro hd
        have := hd 1000
        simp [hb, Heap.single, ha] at this)
  rw [hu, hb] at h5
  have : (trace log).length = 19 ∧ code ((trace log).flatMap Ev.taken) = code [1, 2, 3, 4, 9, 7] := by
    simpa [Heap.union, ha, Heap.single] using h5
  exact code_inj this.2

/-! ## Closing in a callback -/

/-- a system whose completion callbacks close the handle `p` -/
def closer (os : Os) (p : Ptr) : Os := { os with
  on_send_complete := fun f x ok => do
    os.on_send_complete f x ok
    let _ ← socketio_close os p 7 1
    pure () }

/-- a client that closes the handle in the completion callbacks called by `socketio_dowork` if `inside`, otherwise after it -/
def execClose (plan : Nat → Int) (inside : Bool) (op : Op) (env : List Nat) : M (Option Int × List Nat) :=
  match op with
  | .dowork i n m => on1 env i fun h =>
    if inside then do let r ← socketio_dowork (closer (markOs plan) h) n m h; pure (some (if r then 1 else 0), env)
    else do
      let r ← socketio_dowork (markOs plan) n m h
      let _ ← socketio_close (markOs plan) h 7 1
      pure (some (if r then 1 else 0), env)
  | op => exec (markOs plan) op env

def closeReport' (plan : Nat → Int) (inside : Bool) (ops : List Op) : Option (List (Option Int) × Nat × Option Block) :=
  match runOps (execClose plan inside) ops [] markSt with
  | some (.ok ((outs, env), s')) => some (outs, env.length, s'.heap 1000)
  | _ => none

/-- two messages wait; the handle is closed when the first is completed, and opened again -/
def byeOps : List Op := opening ++ [.send 0 (some [1, 2]) 9 5, .send 0 (some [3]) 9 6, .dowork 0 3 3, .opn 0 1 0 2 0 3 0]

/-- C118 fails for closing: `socketio_dowork` goes on with the handle that was closed in the callback.  It sends the next message to the socket -1, and when
that fails, calls the error callback (202) of the handle, receives from socket -1 (201), and leaves the handle in a state in which it
cannot be opened again. -/
theorem closed_in_callback : closeReport' (thenR [1, 1, 0, 0, 0, 0, -1, 0, -1]) true byeOps =
    some ([some 1, some 0, some 0, some 0, some 1, some 233], 1, some [.int 16, .int (code [1, 2]), .int (code [100, 0, 0, 202, 201])]) := by
  unfold closeReport' execClose exec socketio_dowork sendLoop sendLoop sendLoop sendRound finishPending list_remove
  rw [remove_eq]
  unfold socketio_send add_pending_io list_add
  rw [last_eq]
  decide +kernel

/-- closed after the call instead: no error is reported, and the handle can be opened again -/
theorem closed_after : closeReport' (thenR [1, 1, 0, 1, 0, -1, 0, 0, 0, 0, 0, 0, 0, 0, 0, 0, 0, 0]) false byeOps =
    some ([some 1, some 0, some 0, some 0, some 1, some 0], 1, some [.int 23, .int (code [1, 2, 3]), .int (code [100, 0, 0, 0, 201, 100])]) := by
  unfold closeReport' execClose exec socketio_dowork sendLoop sendLoop sendLoop sendRound finishPending list_remove
  rw [remove_eq]
  unfold socketio_send add_pending_io list_add
  rw [last_eq]
  decide +kernel

end Verif.Sock
