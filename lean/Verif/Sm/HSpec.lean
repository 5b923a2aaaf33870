import Verif.Sm.Spec
import Verif.Sock.HSpec
/-!
# Histories of calls on any number of socket IO handles of mbed: what they do, and what is read off the record

The operations are those of `Verif/Sock/HSpec.lean`, without the accepted sockets there are none of here.  `socketio_open` does not look at the state of the handle:
the clients considered do not open a handle that is open (the witnesses of `Demo.lean` show what happens if they do), and give host names.  The record keeps, for
every call made, the position of the handle, the call, its result, the calls that reached the connection objects and the callbacks while it ran, and the objects
nobody knows any more after it.
-/
namespace Verif.Sm
open Verif.Sock (Obj Pend opened shift Act)
abbrev Op := Verif.Sock.Op

structure Entry where
  pos : Nat
  op : Op
  r : Int
  evs : List Ev
  lost : List Int
  deriving DecidableEq, Repr

abbrev Log := List Entry

/-- calls received by the connection objects and the callbacks, in order -/
def trace (log : Log) : List Ev := log.flatMap Entry.evs

/-- objects nobody knows any more -/
def lostAll (log : Log) : List Int := log.flatMap Entry.lost

abbrev World := List (Option Obj) × Log

/-- the handle at position `i` is open (or in its error state) -/
def openAt (as : List (Option Obj)) (i : Nat) : Prop := ∃ o, as[i]? = some (some o) ∧ o.state ≠ .closed

/-- One client call; `o`: its result (`none`: no call). -/
def step (oom : Prop) (x : World) (op : Op) (o : Option Int) (x' : World) : Prop :=
  match op with
  | .create host port logger => NewW x (fun log r a' log' => ∃ ok, CreateE oom (some (host, port)) logger ok a' ∧ r = (if ok then 1 else 0) ∧
      log' = log ++ [⟨x.1.length, op, r, [], []⟩]) o x'
  | .createNull logger => NewW x (fun log r a' log' => ∃ ok, CreateE oom none logger ok a' ∧ r = (if ok then 1 else 0) ∧
      log' = log ++ [⟨x.1.length, op, r, [], []⟩]) o x'
  | .accept _ _ => o = none ∧ x' = x
  | .destroy i => On1W x i (fun a log r a' log' => r = 0 ∧ a' = none ∧ ∃ evs, DestroyE a evs ∧ log' = log ++ [⟨i, op, r, evs, []⟩]) o x'
  | .opn i f1 c1 f2 c2 f3 c3 => (openAt x.1 i ∧ o = none ∧ x' = x) ∨
      ¬ openAt x.1 i ∧ On1W x i (fun a log r a' log' => ∃ evs, OpenE f1 c1 f2 c2 f3 c3 a r a' evs ∧ log' = log ++ [⟨i, op, r, evs, []⟩]) o x'
  | .close i f c => On1W x i (fun a log r a' log' => ∃ evs lost, CloseE f c a r a' evs lost ∧ log' = log ++ [⟨i, op, r, evs, lost⟩]) o x'
  | .send i bs cb ctx => On1W x i (fun a log r a' log' => ∃ evs, SendE oom bs cb ctx a r a' evs ∧ log' = log ++ [⟨i, op, r, evs, []⟩]) o x'
  | .dowork i n m => On1W x i (fun a log r a' log' => ∃ fin evs, DoworkE n m a fin a' evs ∧ r = (if fin then 1 else 0) ∧ log' = log ++ [⟨i, op, r, evs, []⟩]) o x'

/-! ## Reading the record -/

/-- the calls made on the handle at position `i` -/
def ofPos (i : Nat) (log : Log) : Log := log.filter (·.pos = i)

/-- the bytes a call of `send` made the connection take -/
def Ev.taken : Ev → List UInt8
  | .send _ bytes r => bytes.take r.toNat
  | _ => []

/-- bytes the connections of handle `i` have taken, in order -/
def stream (i : Nat) (log : Log) : List UInt8 := (trace (ofPos i log)).flatMap Ev.taken

/-- a send the handle accepted: `socketio_send` returned 0 -/
def Entry.sent (e : Entry) : Option (List UInt8 × Nat × Nat) :=
  match e.op with
  | .send _ (some bs) cb ctx => if e.r = 0 then some (bs, cb, ctx) else none
  | _ => none

/-- the sends accepted by handle `i`, in order: bytes, callback, context -/
def accepted (i : Nat) (log : Log) : List (List UInt8 × Nat × Nat) := (ofPos i log).filterMap Entry.sent

/-- bytes accepted by handle `i`, in order -/
def acceptedBytes (i : Nat) (log : Log) : List UInt8 := (accepted i log).flatMap (·.1)

/-- send completions reported by handle `i`: callback, context, success -/
def completions (i : Nat) (log : Log) : List (Nat × Nat × Bool) :=
  (trace (ofPos i log)).filterMap fun | .completed f c ok => some (f, c, ok) | _ => none

/-! ## The ledger of sends: what happens to each one -/

def Ev.act : Ev → Option Act
  | .send _ bytes r => some (.sent bytes r)
  | .completed f c ok => some (.done f c ok)
  | _ => none

/-- the sends and completions of handle `i`, in order -/
def acts (i : Nat) (log : Log) : List Act := (trace (ofPos i log)).filterMap Ev.act

inductive Fate where
  /-- queued -/
  | waiting
  /-- the connection took everything that was left, and completion was reported -/
  | done
  /-- the rest is thrown away -/
  | dropped
  deriving DecidableEq, Repr

/-- Life of one buffer given to `socketio_send`. -/
structure Rec where
  bytes : List UInt8
  cb : Nat
  ctx : Nat
  /-- the attempts that did not finish it: what the connection was given, and what `send` returned -/
  parts : List (List UInt8 × Int)
  /-- what is left after them -/
  rest : List UInt8
  fate : Fate
  /-- `socketio_send` reported success -/
  accepted : Bool
  deriving DecidableEq, Repr

/-- `Parts bytes parts rest`: a buffer `bytes` went through these attempts, and `rest` is left.  The rest of a direct send is queued; a queued buffer keeps its
size when a part of it is sent (the code as it is). -/
inductive Parts (bytes : List UInt8) : List (List UInt8 × Int) → List UInt8 → Prop
  | start : Parts bytes [] bytes
  | direct (n : Int) : n < bytes.length → Parts bytes [(bytes, n)] (bytes.drop n.toNat)
  | queued {ps rest} (n : Int) : Parts bytes ps rest → n < rest.length → Parts bytes (ps ++ [(rest, n)]) (shift n.toNat rest)

/-- only accepted buffers are completed -/
def Rec.ok (r : Rec) : Prop := Parts r.bytes r.parts r.rest ∧ (r.fate = .done → r.accepted = true)

/-- what this buffer makes the connection and the callback see -/
def Rec.acts (r : Rec) : List Act :=
  r.parts.map (fun x => .sent x.1 x.2) ++
    match r.fate with
    | .done => .sent r.rest r.rest.length :: if r.cb = 0 then [] else [.done r.cb r.ctx true]
    | _ => []

/-- bytes of this buffer the connection has taken -/
def Rec.taken (r : Rec) : List UInt8 :=
  r.parts.flatMap (fun x => x.1.take x.2.toNat) ++ if r.fate = .done then r.rest else []

def Rec.sent (r : Rec) : Option (List UInt8 × Nat × Nat) := if r.accepted then some (r.bytes, r.cb, r.ctx) else none

/-- no call made the connection take only a part of a queued buffer, and no send was refused after a part of it was sent -/
def Entry.clean (e : Entry) : Prop :=
  match e.op with
  | .dowork _ _ _ => ∀ c bs r, Ev.send c bs r ∈ e.evs → r = bs.length ∨ r ≤ 0
  | .send _ _ _ _ => e.r ≠ 0 → ∀ c bs r, Ev.send c bs r ∈ e.evs → r ≤ 0
  | _ => True

/-- the calls made on a handle leave it open: a successful `socketio_open` was not followed by a `socketio_close` (or the end) -/
def OpenNow (L : Log) : Prop :=
  ∃ l1 e l2, L = l1 ++ e :: l2 ∧ e.op.isOpen = true ∧ e.r = 0 ∧ ∀ e' ∈ l2, e'.op.isClose = false

/-- how often a connection object was made, and deleted -/
def made (c : Int) (tr : List Ev) : Nat := tr.count (.create c)
def deleted (c : Int) (tr : List Ev) : Nat := tr.count (.delete c)

/-- how many handles hold the object -/
def holders (c : Int) (as : List (Option Obj)) : Nat := (as.map fun a => match a with
  | some o => if o.socket = c then 1 else 0
  | none => 0).sum

/-- how often an object was lost: the handle that had it forgot it without deleting it -/
def lost (c : Int) (log : Log) : Nat := (lostAll log).count c

/-- the calls made on a handle leave it open, and the successful `socketio_open` registered these callbacks for received bytes and for errors -/
def OpenedWith (L : Log) (f2 c2 f3 c3 : Nat) : Prop :=
  ∃ l1 e l2 j f1 c1, L = l1 ++ e :: l2 ∧ e.op = .opn j f1 c1 f2 c2 f3 c3 ∧ e.r = 0 ∧ ∀ e' ∈ l2, e'.op.isClose = false

/-- attempts to send a queued buffer that sent only a part of it, or nothing, without an error -/
def partly (evs : List Ev) : Nat := evs.countP fun | .send _ bs n => 0 ≤ n && n < bs.length | _ => false

/-- a `send` returned less than -2 -/
def broken (evs : List Ev) : Prop := ∃ c bs n, Ev.send c bs n ∈ evs ∧ n < -2

/-- the connection broke under `socketio_dowork`, and the handle was not closed since -/
def BrokenNow (L : Log) : Prop :=
  ∃ l1 e l2, L = l1 ++ e :: l2 ∧ (∃ j n m, e.op = .dowork j n m) ∧ broken e.evs ∧ ∀ e' ∈ l2, e'.op.isClose = false

/-- the blocks received from the connection -/
def recvd (evs : List Ev) : List (List UInt8) := evs.filterMap fun | .receive _ r bs => if 0 < r then some bs else none | _ => none

/-- calls of the callbacks for received bytes: function, context, bytes -/
def deliveries (evs : List Ev) : List (Nat × Nat × List UInt8) := evs.filterMap fun | .received f c bs => some (f, c, bs) | _ => none

end Verif.Sm
