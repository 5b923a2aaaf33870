import Verif.Sock.Spec
/-!
# Histories of calls on any number of socket IO handles: what they do, and what is read off the record

The record keeps, for every call made, the position of the handle, the call, its result, and the calls that reached the
operating system and the callbacks while it ran.
-/
namespace Verif.Sock

/-- Client operations; `i` is a position in the client's table of handles. -/
inductive Op where
  | create (host : List UInt8) (port : Int) (logger : Nat)
  | createNull (logger : Nat)
  /-- a socket is obtained from the operating system and given to a new handle; if that fails it is closed -/
  | accept (port : Int) (logger : Nat)
  | destroy (i : Nat)
  | opn (i onOpen onOpenCtx onBytes onBytesCtx onErr onErrCtx : Nat)
  | close (i onClose ctx : Nat)
  | send (i : Nat) (bytes : Option (List UInt8)) (cb ctx : Nat)
  /-- `n`, `m`: bounds on the rounds of its loops (result 0: still running after so many) -/
  | dowork (i n m : Nat)
  deriving DecidableEq, Repr

structure Entry where
  pos : Nat
  op : Op
  r : Int
  evs : List Ev
  deriving DecidableEq, Repr

abbrev Log := List Entry

/-- calls received by the operating system and the callbacks, in order -/
def trace (log : Log) : List Ev := log.flatMap Entry.evs

abbrev World := List (Option Obj) × Log

/-- One client call; `o`: its result (`none`: no such position, no call). -/
def step (oom : Prop) (x : World) (op : Op) (o : Option Int) (x' : World) : Prop :=
  match op with
  | .create host port logger => NewW x (fun log r a' log' => ∃ ok, CreateE oom (some ⟨some host, port, 0⟩) logger ok a' ∧ r = (if ok then 1 else 0) ∧
      log' = log ++ [⟨x.1.length, op, r, []⟩]) o x'
  | .createNull logger => NewW x (fun log r a' log' => ∃ ok, CreateE oom none logger ok a' ∧ r = (if ok then 1 else 0) ∧
      log' = log ++ [⟨x.1.length, op, r, []⟩]) o x'
  | .accept port logger => NewW x (fun log r a' log' => ∃ ok fd, -1 ≤ fd ∧ fd < 2 ^ 31 ∧ CreateE oom (some ⟨none, port, fd⟩) logger ok a' ∧ r = (if ok then 1 else 0) ∧
      log' = log ++ [⟨x.1.length, op, r, .socket fd :: (if ok ∨ fd < 0 then [] else [.close fd])⟩]) o x'
  | .destroy i => On1W x i (fun a log r a' log' => r = 0 ∧ a' = none ∧ ∃ evs, DestroyE a evs ∧ log' = log ++ [⟨i, op, r, evs⟩]) o x'
  | .opn i f1 c1 f2 c2 f3 c3 => On1W x i (fun a log r a' log' => ∃ evs, OpenE f1 c1 f2 c2 f3 c3 a r a' evs ∧ log' = log ++ [⟨i, op, r, evs⟩]) o x'
  | .close i f c => On1W x i (fun a log r a' log' => ∃ evs, CloseE f c a r a' evs ∧ log' = log ++ [⟨i, op, r, evs⟩]) o x'
  | .send i bs cb ctx => On1W x i (fun a log r a' log' => ∃ evs, SendE oom bs cb ctx a r a' evs ∧ log' = log ++ [⟨i, op, r, evs⟩]) o x'
  | .dowork i n m => On1W x i (fun a log r a' log' => ∃ fin evs, DoworkE n m a fin a' evs ∧ r = (if fin then 1 else 0) ∧ log' = log ++ [⟨i, op, r, evs⟩]) o x'

/-! ## Reading the record -/

/-- the calls made on the handle at position `i` -/
def ofPos (i : Nat) (log : Log) : Log := log.filter (·.pos = i)

/-- the bytes a call of `send` made the socket take -/
def Ev.taken : Ev → List UInt8
  | .send _ bytes r => bytes.take r.toNat
  | _ => []

/-- bytes the sockets of handle `i` have taken, in order -/
def stream (i : Nat) (log : Log) : List UInt8 := (trace (ofPos i log)).flatMap Ev.taken

/-- a send the handle accepted: `socketio_send` returned 0 -/
def Entry.sent (e : Entry) : Option (List UInt8 × Nat × Nat) :=
  match e.op with
  | .send _ (some bs) cb ctx => if e.r = 0 then some (bs, cb, ctx) else none
  | _ => none

/-- the sends accepted by handle `i`, in order: bytes, callback, context -/
def accepted (i : Nat) (log : Log) : List (List UInt8 × Nat × Nat) := (ofPos i log).filterMap Entry.sent

/-- bytes accepted by handle `i`, in order -/
def acceptedBytes (i : Nat) (log : Log) : List UInt8 := (accepted i log).flatMap (·.1)

/-- send completions reported by handle `i`: callback, context, success -/
def completions (i : Nat) (log : Log) : List (Nat × Nat × Bool) :=
  (trace (ofPos i log)).filterMap fun | .completed f c ok => some (f, c, ok) | _ => none

/-! ## The ledger of sends: what happens to each one -/

/-- what matters for the sends of a handle -/
inductive Act where
  /-- the socket was given these bytes; it took `r` of them, or failed (-1) -/
  | sent (given : List UInt8) (r : Int)
  /-- the send was reported complete -/
  | done (cb ctx : Nat) (ok : Bool)
  deriving DecidableEq, Repr

def Ev.act : Ev → Option Act
  | .send _ bytes r => some (.sent bytes r)
  | .completed f c ok => some (.done f c ok)
  | _ => none

/-- the sends and completions of handle `i`, in order -/
def acts (i : Nat) (log : Log) : List Act := (trace (ofPos i log)).filterMap Ev.act

inductive Fate where
  /-- queued, not yet given to the socket as a whole -/
  | waiting
  /-- the socket took everything that was left, and completion was reported -/
  | done
  /-- the socket failed: the rest is thrown away -/
  | failed
  /-- the rest is thrown away without giving it to the socket -/
  | dropped
  deriving DecidableEq, Repr

/-- Life of one buffer given to `socketio_send`. -/
structure Rec where
  bytes : List UInt8
  cb : Nat
  ctx : Nat
  /-- the partial sends: what the socket was given, and how many bytes it took -/
  parts : List (List UInt8 × Nat)
  /-- what is left after them -/
  rest : List UInt8
  fate : Fate
  /-- `socketio_send` reported success -/
  accepted : Bool
  deriving DecidableEq, Repr

/-- `Parts bytes parts rest`: a buffer `bytes` went through these partial sends, and `rest` is left.  The rest of a
direct send is queued; a queued buffer keeps its size when a part of it is sent (the code as it is). -/
inductive Parts (bytes : List UInt8) : List (List UInt8 × Nat) → List UInt8 → Prop
  | start : Parts bytes [] bytes
  | direct (n : Nat) : n < bytes.length → Parts bytes [(bytes, n)] (bytes.drop n)
  | queued {ps rest} (n : Nat) : Parts bytes ps rest → n < rest.length → Parts bytes (ps ++ [(rest, n)]) (shift n rest)

/-- only accepted buffers are completed -/
def Rec.ok (r : Rec) : Prop := Parts r.bytes r.parts r.rest ∧ (r.fate = .done → r.accepted = true)

/-- what this buffer makes the socket and the callback see -/
def Rec.acts (r : Rec) : List Act :=
  r.parts.map (fun x => .sent x.1 x.2) ++
    match r.fate with
    | .done => .sent r.rest r.rest.length :: if r.cb = 0 then [] else [.done r.cb r.ctx true]
    | .failed => [.sent r.rest (-1)]
    | _ => []

/-- bytes of this buffer the socket has taken -/
def Rec.taken (r : Rec) : List UInt8 :=
  r.parts.flatMap (fun x => x.1.take x.2) ++ if r.fate = .done then r.rest else []

def Rec.sent (r : Rec) : Option (List UInt8 × Nat × Nat) := if r.accepted then some (r.bytes, r.cb, r.ctx) else none

/-- no call made the socket take only a part of a queued buffer, no queued buffer was lost to a failing socket, and no
send was refused after a part of it was sent -/
def Entry.clean (e : Entry) : Prop :=
  match e.op with
  | .dowork _ _ _ => ∀ fd bs r, Ev.send fd bs r ∈ e.evs → r = bs.length
  | .send _ _ _ _ => e.r ≠ 0 → ∀ fd bs r, Ev.send fd bs r ∈ e.evs → r ≤ 0
  | _ => True

def Op.isOpen : Op → Bool | .opn .. => true | _ => false
def Op.isClose : Op → Bool | .close .. => true | .destroy .. => true | _ => false
def Op.isSend : Op → Bool | .send .. => true | _ => false

/-- the calls made on a handle leave it open: a successful `socketio_open` was not followed by a `socketio_close` (or the end) -/
def OpenNow (L : Log) : Prop :=
  ∃ l1 e l2, L = l1 ++ e :: l2 ∧ e.op.isOpen = true ∧ e.r = 0 ∧ ∀ e' ∈ l2, e'.op.isClose = false

/-- how often a descriptor was obtained from, and given back to, the operating system -/
def gotFd (fd : Int) (tr : List Ev) : Nat := tr.count (.socket fd)
def closedFd (fd : Int) (tr : List Ev) : Nat := tr.count (.close fd)

/-- how many handles hold the descriptor -/
def holders (fd : Int) (as : List (Option Obj)) : Nat := (as.map fun a => match a with
  | some o => if o.socket = fd then 1 else 0
  | none => 0).sum

/-- how often an address list was obtained and freed -/
def gotAi (ai : Nat) (tr : List Ev) : Nat := tr.countP fun | .getaddrinfo _ _ err a => err = 0 && a = ai | _ => false
def freedAi (ai : Nat) (tr : List Ev) : Nat := tr.count (.freeaddrinfo ai)

/-- the calls made on a handle leave it open, and the successful `socketio_open` registered these callbacks for received bytes and for errors -/
def OpenedWith (L : Log) (f2 c2 f3 c3 : Nat) : Prop :=
  ∃ l1 e l2 j f1 c1, L = l1 ++ e :: l2 ∧ e.op = .opn j f1 c1 f2 c2 f3 c3 ∧ e.r = 0 ∧ ∀ e' ∈ l2, e'.op.isClose = false

/-- attempts to send for which the socket took only a part of the bytes, perhaps none -/
def partly (evs : List Ev) : Nat := evs.countP fun | .send _ bs n => 0 ≤ n && n < bs.length | _ => false

/-- attempts to send that failed -/
def failures (evs : List Ev) : Nat := evs.countP fun | .send _ _ n => n < 0 | _ => false

/-- calls of the error callback: function, context -/
def errors (evs : List Ev) : List (Nat × Nat) := evs.filterMap fun | .error f c => some (f, c) | _ => none

/-- an attempt to send failed under `socketio_dowork`, and the handle was not closed since -/
def BrokenNow (L : Log) : Prop :=
  ∃ l1 e l2, L = l1 ++ e :: l2 ∧ (∃ j n m, e.op = .dowork j n m) ∧ 0 < failures e.evs ∧ ∀ e' ∈ l2, e'.op.isClose = false

/-- the bytes received from the socket, one by one -/
def recvd (evs : List Ev) : List UInt8 := evs.filterMap fun | .recv _ r b => if r = 1 then some b else none | _ => none

/-- calls of the callbacks for received bytes: function, context, bytes -/
def deliveries (evs : List Ev) : List (Nat × Nat × List UInt8) := evs.filterMap fun | .received f c bs => some (f, c, bs) | _ => none

end Verif.Sock
