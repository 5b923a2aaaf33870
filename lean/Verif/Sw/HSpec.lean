import Verif.Sw.Spec
import Verif.Sock.HSpec
/-!
# Histories of calls on any number of socket IO handles of Windows: what they do, and what is read off the record

The operations are those of `Verif/Sock/HSpec.lean`.  The record keeps, for every call made, the position of the handle, the call, its result, and the calls
that reached Winsock and the callbacks while it ran.
-/
namespace Verif.Sw
open Verif.Sock (Obj Pend HostArg Target CreateE opened Act)
abbrev Op := Verif.Sock.Op

structure Entry where
  pos : Nat
  op : Op
  r : Int
  evs : List Ev
  deriving DecidableEq, Repr

abbrev Log := List Entry

/-- calls received by Winsock and the callbacks, in order -/
def trace (log : Log) : List Ev := log.flatMap Entry.evs

abbrev World := List (Option Obj) × Log

/-- One client call; `o`: its result (`none`: no such position, no call). -/
def step (oom : Prop) (x : World) (op : Op) (o : Option Int) (x' : World) : Prop :=
  match op with
  | .create host port logger => NewW x (fun log r a' log' => ∃ ok, CreateE oom (some ⟨some host, port, 0⟩) logger ok a' ∧ r = (if ok then 1 else 0) ∧
      log' = log ++ [⟨x.1.length, op, r, []⟩]) o x'
  | .createNull logger => NewW x (fun log r a' log' => ∃ ok, CreateE oom none logger ok a' ∧ r = (if ok then 1 else 0) ∧
      log' = log ++ [⟨x.1.length, op, r, []⟩]) o x'
  | .accept port logger => NewW x (fun log r a' log' => ∃ ok fd, -1 ≤ fd ∧ fd < 2 ^ 31 ∧ CreateE oom (some ⟨none, port, fd⟩) logger ok a' ∧ r = (if ok then 1 else 0) ∧
      log' = log ++ [⟨x.1.length, op, r, .socket fd :: (if ok ∨ fd < 0 then [] else [.close fd])⟩]) o x'
  | .destroy i => On1W x i (fun a log r a' log' => r = 0 ∧ a' = none ∧ ∃ evs, DestroyE a evs ∧ log' = log ++ [⟨i, op, r, evs⟩]) o x'
  | .opn i f1 c1 f2 c2 f3 c3 => On1W x i (fun a log r a' log' => ∃ evs, OpenE f1 c1 f2 c2 f3 c3 a r a' evs ∧ log' = log ++ [⟨i, op, r, evs⟩]) o x'
  | .close i f c => On1W x i (fun a log r a' log' => ∃ evs, CloseE f c a r a' evs ∧ log' = log ++ [⟨i, op, r, evs⟩]) o x'
  | .send i bs cb ctx => On1W x i (fun a log r a' log' => ∃ evs, SendE oom bs cb ctx a r a' evs ∧ log' = log ++ [⟨i, op, r, evs⟩]) o x'
  | .dowork i n m => On1W x i (fun a log r a' log' => ∃ fin evs, DoworkE n m a fin a' evs ∧ r = (if fin then 1 else 0) ∧ log' = log ++ [⟨i, op, r, evs⟩]) o x'

/-! ## Reading the record -/

/-- the calls made on the handle at position `i` -/
def ofPos (i : Nat) (log : Log) : Log := log.filter (·.pos = i)

/-- the bytes a call of `send` made the socket take -/
def Ev.taken : Ev → List UInt8
  | .send _ bytes r => bytes.take r.toNat
  | _ => []

/-- bytes the sockets of handle `i` have taken, in order -/
def stream (i : Nat) (log : Log) : List UInt8 := (trace (ofPos i log)).flatMap Ev.taken

/-- a send the handle accepted: `socketio_send` returned 0 -/
def Entry.sent (e : Entry) : Option (List UInt8 × Nat × Nat) :=
  match e.op with
  | .send _ (some bs) cb ctx => if e.r = 0 then some (bs, cb, ctx) else none
  | _ => none

/-- the sends accepted by handle `i`, in order: bytes, callback, context -/
def accepted (i : Nat) (log : Log) : List (List UInt8 × Nat × Nat) := (ofPos i log).filterMap Entry.sent

/-- bytes accepted by handle `i`, in order -/
def acceptedBytes (i : Nat) (log : Log) : List UInt8 := (accepted i log).flatMap (·.1)

/-- send completions reported by handle `i`: callback, context, success -/
def completions (i : Nat) (log : Log) : List (Nat × Nat × Bool) :=
  (trace (ofPos i log)).filterMap fun | .completed f c ok => some (f, c, ok) | _ => none

/-! ## The ledger of sends: what happens to each one -/

def Ev.act : Ev → Option Act
  | .send _ bytes r => some (.sent bytes r)
  | .completed f c ok => some (.done f c ok)
  | _ => none

/-- the sends and completions of handle `i`, in order -/
def acts (i : Nat) (log : Log) : List Act := (trace (ofPos i log)).filterMap Ev.act

inductive Fate where
  /-- queued -/
  | waiting
  /-- the socket took everything, and completion was reported -/
  | done
  /-- the socket did not take everything (it took `n` bytes, or none: -1) and the error was not "would block": given up -/
  | failed (n : Int)
  /-- given up without giving it to the socket again -/
  | dropped
  deriving DecidableEq, Repr

/-- Life of one buffer given to `socketio_send`. -/
structure Rec where
  bytes : List UInt8
  cb : Nat
  ctx : Nat
  /-- the results of the attempts in which the socket was busy: each time it was given the whole buffer -/
  tries : List Int
  fate : Fate
  /-- `socketio_send` reported success -/
  accepted : Bool
  deriving DecidableEq, Repr

/-- an attempt that did not send everything -/
def short (bytes : List UInt8) (n : Int) : Prop := -1 ≤ n ∧ n < bytes.length

/-- only accepted buffers are completed -/
def Rec.ok (r : Rec) : Prop := (∀ n ∈ r.tries, short r.bytes n) ∧ (∀ n, r.fate = .failed n → short r.bytes n) ∧ (r.fate = .done → r.accepted = true)

/-- what this buffer makes the socket and the callback see -/
def Rec.acts (r : Rec) : List Act :=
  r.tries.map (fun n => .sent r.bytes n) ++
    match r.fate with
    | .done => .sent r.bytes r.bytes.length :: if r.cb = 0 then [] else [.done r.cb r.ctx true]
    | .failed n => [.sent r.bytes n]
    | _ => []

def Rec.sent (r : Rec) : Option (List UInt8 × Nat × Nat) := if r.accepted then some (r.bytes, r.cb, r.ctx) else none

/-- the socket takes all or nothing -/
def allOrNothing (evs : List Ev) : Prop := ∀ fd bs r, Ev.send fd bs r ∈ evs → r = bs.length ∨ r ≤ 0

/-- a `send` fails with an error other than "would block" -/
def fails (evs : List Ev) : Prop := ∃ l1 fd bs n e l2, evs = l1 ++ .send fd bs n :: .lastError e :: l2 ∧ e ≠ WSAEWOULDBLOCK

def isDowork : Op → Bool | .dowork .. => true | _ => false

/-- no call made the socket take only a part of a buffer, and no queued buffer was lost to a failing socket -/
def Entry.clean (e : Entry) : Prop := allOrNothing e.evs ∧ (isDowork e.op = true → ¬ fails e.evs)

/-- the calls made on a handle leave it open: a successful `socketio_open` was not followed by a `socketio_close` (or the end) -/
def OpenNow (L : Log) : Prop :=
  ∃ l1 e l2, L = l1 ++ e :: l2 ∧ e.op.isOpen = true ∧ e.r = 0 ∧ ∀ e' ∈ l2, e'.op.isClose = false

/-- how often a descriptor was obtained from, and given back to, the operating system -/
def gotFd (fd : Int) (tr : List Ev) : Nat := tr.count (.socket fd)
def closedFd (fd : Int) (tr : List Ev) : Nat := tr.count (.close fd)

/-- how many handles hold the descriptor -/
def holders (fd : Int) (as : List (Option Obj)) : Nat := (as.map fun a => match a with
  | some o => if o.socket = fd then 1 else 0
  | none => 0).sum

/-- how often an address list was obtained and freed -/
def gotAi (ai : Nat) (tr : List Ev) : Nat := tr.countP fun | .getaddrinfo _ _ err a => err = 0 && a = ai | _ => false
def freedAi (ai : Nat) (tr : List Ev) : Nat := tr.count (.freeaddrinfo ai)

/-- the calls made on a handle leave it open, and the successful `socketio_open` registered these callbacks for received bytes and for errors -/
def OpenedWith (L : Log) (f2 c2 f3 c3 : Nat) : Prop :=
  ∃ l1 e l2 j f1 c1, L = l1 ++ e :: l2 ∧ e.op = .opn j f1 c1 f2 c2 f3 c3 ∧ e.r = 0 ∧ ∀ e' ∈ l2, e'.op.isClose = false

/-- attempts to send for which the socket was busy: each is followed by the question which error it was -/
def busy (evs : List Ev) : Nat := evs.countP fun | .lastError e => e = WSAEWOULDBLOCK | _ => false

/-- the bytes received from the socket, one by one -/
def recvd (evs : List Ev) : List UInt8 := evs.filterMap fun | .recv _ r b => if r = 1 then some b else none | _ => none

/-- calls of the callbacks for received bytes: function, context, bytes -/
def deliveries (evs : List Ev) : List (Nat × Nat × List UInt8) := evs.filterMap fun | .received f c bs => some (f, c, bs) | _ => none

end Verif.Sw
