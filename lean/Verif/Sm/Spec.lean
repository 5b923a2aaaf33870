import Verif.Sm.Model
import Verif.Sock.Spec
/-! # What the socket IO of mbed does, call by call, and what is assumed of `TCPSocketConnection` -/
namespace Verif.Sm
open Verif.Sock (Obj Pend HostArg Target opened shift)

/-- Calls received by the connection objects and by the user's callbacks. -/
inductive Ev where
  | create (c : Int)
  | connect (c : Int) (host : Option (List UInt8)) (port : Int) (err : Int)
  | nonblocking (c : Int)
  | close (c : Int)
  | delete (c : Int)
  /-- `send` was given these bytes and returned `r` -/
  | send (c : Int) (bytes : List UInt8) (r : Int)
  | receive (c : Int) (r : Int) (bytes : List UInt8)
  | opened (fn ctx : Nat) (ok : Bool)
  | closed (fn ctx : Nat)
  | completed (fn ctx : Nat) (ok : Bool)
  | received (fn ctx : Nat) (bytes : List UInt8)
  | error (fn ctx : Nat)
  deriving DecidableEq, Repr

/-- Contract of the class and the callbacks.  `Net tr`: their memory after exactly the calls `tr`.  `Conn c` is the object `c` (obtained from `new`, given up to
`delete`).  `send` takes at most the given number of bytes or returns a negative number; `receive` writes as many bytes as it reports, at most the given number. -/
structure Honours (rel : Prop) (os : Os) (Net : List Ev → HProp) (Conn : Int → HProp) : Prop where
  create : ∀ tr, Triple rel (Net tr) os.create
    (fun c => (-1 ≤ c ∧ c < 2 ^ 31) ⋏ Net (tr ++ [.create c]) ∗ if c < 0 then emp else Conn c)
  connect : ∀ c s h port tr, Triple rel (Net tr ∗ Conn c ∗ HostArg s h) (os.connect c s port)
    (fun r => Net (tr ++ [.connect c h port r]) ∗ Conn c ∗ HostArg s h)
  set_nonblocking : ∀ c tr, Triple rel (Net tr ∗ Conn c) (os.set_nonblocking c) (fun _ => Net (tr ++ [.nonblocking c]) ∗ Conn c)
  close : ∀ c tr, Triple rel (Net tr ∗ Conn c) (os.close c) (fun _ => Net (tr ++ [.close c]) ∗ Conn c)
  delete : ∀ c tr, Triple rel (Net tr ∗ Conn c) (os.delete c) (fun _ => Net (tr ++ [.delete c]))
  send : ∀ c bs tr, Triple rel (Net tr ∗ Conn c) (os.send c bs)
    (fun r => (-(2 ^ 31) ≤ r ∧ r ≤ bs.length ∧ r < 2 ^ 31) ⋏ Net (tr ++ [.send c bs r]) ∗ Conn c)
  receive : ∀ c n tr, Triple rel (Net tr ∗ Conn c) (os.receive c n)
    (fun x => (x.1 ≤ n ∧ x.2.length = x.1.toNat) ⋏ Net (tr ++ [.receive c x.1 x.2]) ∗ Conn c)
  on_io_open_complete : ∀ fn ctx ok tr, fn ≠ 0 → Triple rel (Net tr) (os.on_io_open_complete fn ctx ok) (fun _ => Net (tr ++ [.opened fn ctx ok]))
  on_io_close_complete : ∀ fn ctx tr, fn ≠ 0 → Triple rel (Net tr) (os.on_io_close_complete fn ctx) (fun _ => Net (tr ++ [.closed fn ctx]))
  on_send_complete : ∀ fn ctx ok tr, fn ≠ 0 → Triple rel (Net tr) (os.on_send_complete fn ctx ok) (fun _ => Net (tr ++ [.completed fn ctx ok]))
  on_bytes_received : ∀ fn ctx bs tr, fn ≠ 0 → Triple rel (Net tr) (os.on_bytes_received fn ctx bs) (fun _ => Net (tr ++ [.received fn ctx bs]))
  on_io_error : ∀ fn ctx tr, fn ≠ 0 → Triple rel (Net tr) (os.on_io_error fn ctx) (fun _ => Net (tr ++ [.error fn ctx]))

/-! Events of callbacks that are only made if the function pointer is not `NULL` -/
def evOpened (fn ctx : Nat) (ok : Bool) : List Ev := if fn = 0 then [] else [.opened fn ctx ok]
def evClosed (fn ctx : Nat) : List Ev := if fn = 0 then [] else [.closed fn ctx]
def evCompleted (fn ctx : Nat) : List Ev := if fn = 0 then [] else [.completed fn ctx true]
def evReceived (fn ctx : Nat) (bs : List UInt8) : List Ev := if fn = 0 then [] else [.received fn ctx bs]
def evError (o : Obj) : List Ev := if o.onErr = 0 then [] else [.error o.onErr o.onErrCtx]

/-- `socketio_create`: a closed handle without connection; `NULL` without configuration or if memory is refused -/
def CreateE (oom : Prop) (c : Option (List UInt8 × Int)) (logger : Nat) (ok : Bool) (a' : Option Obj) : Prop :=
  match c with
  | none => ok = false ∧ a' = none
  | some c => (ok = false ∧ a' = none ∧ oom) ∨ (ok = true ∧ a' = some ⟨-1, logger, 0, 0, 0, 0, some c.1, c.2, .closed, []⟩)

/-- `socketio_destroy`: the connection object, if any, is deleted -/
def DestroyE (a : Option Obj) (evs : List Ev) : Prop :=
  match a with
  | none => evs = []
  | some o => evs = if o.socket = -1 then [] else [.delete o.socket]

/-- `socketio_open` of a handle without connection -/
def OpenE (onOpen onOpenCtx onBytes onBytesCtx onErr onErrCtx : Nat) (a : Option Obj) (r : Int) (a' : Option Obj) (evs : List Ev) : Prop :=
  match a with
  | none => r ≠ 0 ∧ a' = none ∧ evs = []
  | some o =>
      -- no object
      (r ≠ 0 ∧ a' = a ∧ evs = [.create (-1)]) ∨
      ∃ c, 0 ≤ c ∧ c < 2 ^ 31 ∧
        -- no connection
        ((∃ err, err ≠ 0 ∧ r ≠ 0 ∧ a' = a ∧ evs = [.create c, .connect c o.host o.port err, .delete c]) ∨
          (r = 0 ∧ a' = some (opened o c onBytes onBytesCtx onErr onErrCtx) ∧
            evs = [.create c, .connect c o.host o.port 0, .nonblocking c] ++ evOpened onOpen onOpenCtx true))

/-- `socketio_close`; `lost`: the object the handle had, that is not deleted, and that nobody knows any more -/
def CloseE (onClose ctx : Nat) (a : Option Obj) (r : Int) (a' : Option Obj) (evs : List Ev) (lost : List Int) : Prop :=
  match a with
  | none => r ≠ 0 ∧ a' = none ∧ evs = [] ∧ lost = []
  | some o =>
    if o.state = .closed ∨ o.state = .closing then r ≠ 0 ∧ a' = a ∧ evs = [] ∧ lost = []
    else r = 0 ∧ a' = some { o with socket := -1, state := .closed } ∧
      evs = .close o.socket :: evClosed onClose ctx ∧ lost = [o.socket]

/-- `socketio_send` of `bytes` (`none`: `NULL`) -/
def SendE (oom : Prop) (bytes : Option (List UInt8)) (cb ctx : Nat) (a : Option Obj) (r : Int) (a' : Option Obj) (evs : List Ev) : Prop :=
  match a, bytes with
  | none, _ => r ≠ 0 ∧ a' = a ∧ evs = []
  | _, none => r ≠ 0 ∧ a' = a ∧ evs = []
  | some o, some bs =>
    if bs = [] ∨ o.state ≠ .opn then r ≠ 0 ∧ a' = a ∧ evs = []
    else if o.pending ≠ [] then
      -- queued behind the others, or refused
      evs = [] ∧ ((r = 0 ∧ a' = some { o with pending := o.pending ++ [⟨bs, cb, ctx⟩] }) ∨ (r ≠ 0 ∧ oom ∧ a' = a))
    else
      -- all sent
      (r = 0 ∧ a' = a ∧ evs = .send o.socket bs bs.length :: evCompleted cb ctx) ∨
      -- partly sent, or not at all, for whatever reason: the rest is queued, or the call fails
      ∃ n : Int, n < bs.length ∧ evs = [.send o.socket bs n] ∧
        ((r = 0 ∧ a' = some { o with pending := [⟨bs.drop n.toNat, cb, ctx⟩] }) ∨ (r ≠ 0 ∧ oom ∧ a' = a))

/-- At most `k` sending rounds of `socketio_dowork`; `fin`: ended (otherwise still running after `k` rounds). -/
inductive SendLoop : Nat → Obj → Bool → Obj → List Ev → Prop
  | done {k o} : o.pending = [] → SendLoop k o true o []
  | cut {o} : o.pending ≠ [] → SendLoop 0 o false o []
  | whole {k o p ps fin o' evs} : o.pending = p :: ps →
      SendLoop k { o with pending := ps } fin o' evs →
      SendLoop (k + 1) o fin o' (.send o.socket p.bytes p.bytes.length :: evCompleted p.cb p.ctx ++ evs)
  /-- -1 and -2: later -/
  | wait {k o p ps} (n : Int) : o.pending = p :: ps → -2 ≤ n → n < 0 → SendLoop (k + 1) o true o [.send o.socket p.bytes n]
  /-- the connection is broken; the buffer stays in the queue -/
  | fail {k o p ps} (n : Int) : o.pending = p :: ps → n < -2 →
      SendLoop (k + 1) o true { o with state := .error } (.send o.socket p.bytes n :: evError o)
  | part {k o p ps fin o' evs} (n : Nat) : o.pending = p :: ps → n < p.bytes.length →
      SendLoop k { o with pending := { p with bytes := shift n p.bytes } :: ps } fin o' evs →
      SendLoop (k + 1) o fin o' (.send o.socket p.bytes n :: evs)

/-- At most `k` receiving rounds. -/
inductive RecvLoop (o : Obj) : Nat → Bool → List Ev → Prop
  | cut : RecvLoop o 0 false []
  | last {k r bs} : r ≤ 0 → RecvLoop o (k + 1) true [.receive o.socket r bs]
  | more {k bs fin evs} : bs ≠ [] → bs.length ≤ 128 → RecvLoop o k fin evs →
      RecvLoop o (k + 1) fin (.receive o.socket bs.length bs :: evReceived o.onBytes o.onBytesCtx bs ++ evs)

/-- `socketio_dowork`; `fin`: ended (otherwise still running after `n` rounds of sending or `m` of receiving) -/
def DoworkE (n m : Nat) (a : Option Obj) (fin : Bool) (a' : Option Obj) (evs : List Ev) : Prop :=
  match a with
  | none => fin = true ∧ a' = a ∧ evs = []
  | some o =>
    if o.state ≠ .opn then fin = true ∧ a' = a ∧ evs = []
    else ∃ o', a' = some o' ∧
      ((fin = false ∧ SendLoop n o false o' evs) ∨
       ∃ e1 e2, evs = e1 ++ e2 ∧ SendLoop n o true o' e1 ∧ RecvLoop o' m fin e2)

end Verif.Sm
