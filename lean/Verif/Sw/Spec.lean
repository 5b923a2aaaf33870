import Verif.Sw.Model
import Verif.Sock.Spec
/-! # What the socket IO of Windows does, call by call, and what is assumed of Winsock -/
namespace Verif.Sw
open Verif.Sock (Obj Pend HostArg Target CreateE opened)

/-- Calls received by Winsock and by the user's callbacks. -/
inductive Ev where
  | socket (fd : Int)
  | getaddrinfo (host : Option (List UInt8)) (port : Nat) (err : Int) (ai : Nat)
  | connect (fd : Int) (ai : Nat) (err : Int)
  | freeaddrinfo (ai : Nat)
  /-- made nonblocking -/
  | ioctl (fd : Int) (r : Int)
  | close (fd : Int)
  /-- `send` was given these bytes and returned `r` -/
  | send (fd : Int) (bytes : List UInt8) (r : Int)
  | recv (fd : Int) (r : Int) (b : UInt8)
  | lastError (e : Int)
  | opened (fn ctx : Nat) (ok : Bool)
  | closed (fn ctx : Nat)
  | completed (fn ctx : Nat) (ok : Bool)
  | received (fn ctx : Nat) (bytes : List UInt8)
  | error (fn ctx : Nat)
  deriving DecidableEq, Repr

/-- Contract of Winsock and the callbacks.  `Net tr`: their memory after exactly the calls `tr`.
`Fd fd` is the right to use the descriptor `fd` (obtained from `socket`, given up to `closesocket`; `closesocket(INVALID_SOCKET)` fails and does nothing), `Ai ai` is an address
list (obtained from `getaddrinfo`, given up to `freeaddrinfo`).  `send` accepts at most the given number of bytes,
less than `2^31`, or fails with -1; `recv` has room for one byte. -/
structure Honours (rel : Prop) (os : Os) (Net : List Ev → HProp) (Fd : Int → HProp) (Ai : Nat → HProp) : Prop where
  socket : ∀ tr, Triple rel (Net tr) os.socket
    (fun fd => (-1 ≤ fd ∧ fd < 2 ^ 31) ⋏ Net (tr ++ [.socket fd]) ∗ if fd < 0 then emp else Fd fd)
  getaddrinfo : ∀ s h port tr, Triple rel (Net tr ∗ HostArg s h) (os.getaddrinfo s port)
    (fun x => Net (tr ++ [.getaddrinfo h port x.1 x.2]) ∗ HostArg s h ∗ if x.1 = 0 then Ai x.2 else emp)
  connect : ∀ fd ai tr, Triple rel (Net tr ∗ Fd fd ∗ Ai ai) (os.connect fd ai)
    (fun r => Net (tr ++ [.connect fd ai r]) ∗ Fd fd ∗ Ai ai)
  freeaddrinfo : ∀ ai tr, Triple rel (Net tr ∗ Ai ai) (os.freeaddrinfo ai) (fun _ => Net (tr ++ [.freeaddrinfo ai]))
  ioctl : ∀ fd tr, Triple rel (Net tr ∗ Fd fd) (os.ioctl fd) (fun r => Net (tr ++ [.ioctl fd r]) ∗ Fd fd)
  close : ∀ fd tr, fd ≠ -1 → Triple rel (Net tr ∗ Fd fd) (os.close fd) (fun _ => Net (tr ++ [.close fd]))
  closeInvalid : ∀ tr, Triple rel (Net tr) (os.close (-1)) (fun _ => Net (tr ++ [.close (-1)]))
  send : ∀ fd bs tr, Triple rel (Net tr ∗ Fd fd) (os.send fd bs)
    (fun r => (-1 ≤ r ∧ r ≤ bs.length ∧ r < 2 ^ 31) ⋏ Net (tr ++ [.send fd bs r]) ∗ Fd fd)
  recv : ∀ fd tr, Triple rel (Net tr ∗ Fd fd) (os.recv fd)
    (fun x => (-1 ≤ x.1 ∧ x.1 ≤ 1) ⋏ Net (tr ++ [.recv fd x.1 x.2]) ∗ Fd fd)
  lastError : ∀ tr, Triple rel (Net tr) os.lastError (fun e => Net (tr ++ [.lastError e]))
  on_io_open_complete : ∀ fn ctx ok tr, fn ≠ 0 → Triple rel (Net tr) (os.on_io_open_complete fn ctx ok) (fun _ => Net (tr ++ [.opened fn ctx ok]))
  on_io_close_complete : ∀ fn ctx tr, fn ≠ 0 → Triple rel (Net tr) (os.on_io_close_complete fn ctx) (fun _ => Net (tr ++ [.closed fn ctx]))
  on_send_complete : ∀ fn ctx ok tr, fn ≠ 0 → Triple rel (Net tr) (os.on_send_complete fn ctx ok) (fun _ => Net (tr ++ [.completed fn ctx ok]))
  on_bytes_received : ∀ fn ctx bs tr, fn ≠ 0 → Triple rel (Net tr) (os.on_bytes_received fn ctx bs) (fun _ => Net (tr ++ [.received fn ctx bs]))
  on_io_error : ∀ fn ctx tr, fn ≠ 0 → Triple rel (Net tr) (os.on_io_error fn ctx) (fun _ => Net (tr ++ [.error fn ctx]))

/-! Events of callbacks that are only made if the function pointer is not `NULL` -/
def evOpened (fn ctx : Nat) (ok : Bool) : List Ev := if fn = 0 then [] else [.opened fn ctx ok]
def evClosed (fn ctx : Nat) : List Ev := if fn = 0 then [] else [.closed fn ctx]
def evCompleted (fn ctx : Nat) : List Ev := if fn = 0 then [] else [.completed fn ctx true]
def evReceived (fn ctx : Nat) (bs : List UInt8) : List Ev := if fn = 0 then [] else [.received fn ctx bs]
def evError (o : Obj) : List Ev := if o.onErr = 0 then [] else [.error o.onErr o.onErrCtx]

/-- `socketio_destroy`: the socket, if any, is closed -/
def DestroyE (a : Option Obj) (evs : List Ev) : Prop :=
  match a with
  | none => evs = []
  | some o => evs = [.close o.socket]

/-- `socketio_open` -/
def OpenE (onOpen onOpenCtx onBytes onBytesCtx onErr onErrCtx : Nat) (a : Option Obj) (r : Int) (a' : Option Obj) (evs : List Ev) : Prop :=
  match a with
  | none => r ≠ 0 ∧ a' = none ∧ evs = []
  | some o =>
    if o.state ≠ .closed then r ≠ 0 ∧ a' = a ∧ evs = []
    else if o.socket ≠ -1 then
      r = 0 ∧ a' = some (opened o o.socket onBytes onBytesCtx onErr onErrCtx) ∧ evs = evOpened onOpen onOpenCtx true
    else
      -- no socket
      (r ≠ 0 ∧ a' = a ∧ evs = [.socket (-1)]) ∨
      ∃ fd, 0 ≤ fd ∧ fd < 2 ^ 31 ∧
        -- unknown host
        ((∃ err ai, err ≠ 0 ∧ r ≠ 0 ∧ a' = a ∧
            evs = [.socket fd, .getaddrinfo o.host (o.port % 2 ^ 32).toNat err ai, .close fd]) ∨
        ∃ ai,
          -- no connection
          (∃ err, err ≠ 0 ∧ r ≠ 0 ∧ a' = a ∧
            evs = [.socket fd, .getaddrinfo o.host (o.port % 2 ^ 32).toNat 0 ai, .connect fd ai err, .close fd, .freeaddrinfo ai]) ∨
          -- the socket cannot be made nonblocking
          (∃ err, err ≠ 0 ∧ r ≠ 0 ∧ a' = a ∧
            evs = [.socket fd, .getaddrinfo o.host (o.port % 2 ^ 32).toNat 0 ai, .connect fd ai 0, .ioctl fd err, .close fd, .freeaddrinfo ai]) ∨
          (r = 0 ∧ a' = some (opened o fd onBytes onBytesCtx onErr onErrCtx) ∧
            evs = [.socket fd, .getaddrinfo o.host (o.port % 2 ^ 32).toNat 0 ai, .connect fd ai 0, .ioctl fd 0] ++ evOpened onOpen onOpenCtx true ++ [.freeaddrinfo ai]))

/-- `socketio_close` -/
def CloseE (onClose ctx : Nat) (a : Option Obj) (r : Int) (a' : Option Obj) (evs : List Ev) : Prop :=
  match a with
  | none => r ≠ 0 ∧ a' = none ∧ evs = []
  | some o =>
    if o.state ≠ .opn ∧ o.state ≠ .opening then r ≠ 0 ∧ a' = a ∧ evs = []
    else r = 0 ∧ a' = some { o with socket := -1, state := .closed } ∧
      evs = .close o.socket :: evClosed onClose ctx

/-- `socketio_send` of `bytes` (`none`: `NULL`) -/
def SendE (oom : Prop) (bytes : Option (List UInt8)) (cb ctx : Nat) (a : Option Obj) (r : Int) (a' : Option Obj) (evs : List Ev) : Prop :=
  match a, bytes with
  | none, _ => r ≠ 0 ∧ a' = a ∧ evs = []
  | _, none => r ≠ 0 ∧ a' = a ∧ evs = []
  | some o, some bs =>
    if bs = [] ∨ o.state ≠ .opn then r ≠ 0 ∧ a' = a ∧ evs = []
    else if o.pending ≠ [] then
      -- queued behind the others, or refused
      evs = [] ∧ ((r = 0 ∧ a' = some { o with pending := o.pending ++ [⟨bs, cb, ctx⟩] }) ∨ (r ≠ 0 ∧ oom ∧ a' = a))
    else
      -- all sent
      (r = 0 ∧ a' = a ∧ evs = .send o.socket bs bs.length :: evCompleted cb ctx) ∨
      -- not all sent: -1, or the number of bytes the socket took
      ∃ n e : Int, -1 ≤ n ∧ n < bs.length ∧
        -- an error
        ((e ≠ WSAEWOULDBLOCK ∧ r ≠ 0 ∧ a' = a ∧ evs = .send o.socket bs n :: .lastError e :: evError o) ∨
        -- the socket is busy: all of it is queued, or the call fails
         (e = WSAEWOULDBLOCK ∧ evs = [.send o.socket bs n, .lastError e] ∧
            ((r = 0 ∧ a' = some { o with pending := [⟨bs, cb, ctx⟩] }) ∨ (r ≠ 0 ∧ oom ∧ a' = a))))

/-- At most `k` sending rounds of `socketio_dowork`; `fin`: ended (otherwise still running after `k` rounds). -/
inductive SendLoop : Nat → Obj → Bool → Obj → List Ev → Prop
  | done {k o} : o.pending = [] → SendLoop k o true o []
  | cut {o} : o.pending ≠ [] → SendLoop 0 o false o []
  | whole {k o p ps fin o' evs} : o.pending = p :: ps →
      SendLoop k { o with pending := ps } fin o' evs →
      SendLoop (k + 1) o fin o' (.send o.socket p.bytes p.bytes.length :: evCompleted p.cb p.ctx ++ evs)
  /-- an error: the buffer is thrown away, nobody is told -/
  | fail {k o p ps fin o' evs} (n e : Int) : o.pending = p :: ps → -1 ≤ n → n < p.bytes.length → e ≠ WSAEWOULDBLOCK →
      SendLoop k { o with pending := ps } fin o' evs →
      SendLoop (k + 1) o fin o' (.send o.socket p.bytes n :: .lastError e :: evs)
  /-- the socket is busy: all of it again -/
  | again {k o p ps fin o' evs} (n : Int) : o.pending = p :: ps → -1 ≤ n → n < p.bytes.length →
      SendLoop k o fin o' evs →
      SendLoop (k + 1) o fin o' (.send o.socket p.bytes n :: .lastError WSAEWOULDBLOCK :: evs)

/-- At most `k` receiving rounds. -/
inductive RecvLoop (o : Obj) : Nat → Bool → List Ev → Prop
  | cut : RecvLoop o 0 false []
  | last {k r b e} : r ≤ 0 → RecvLoop o (k + 1) true (.recv o.socket r b :: .lastError e :: if e = WSAEWOULDBLOCK ∨ e = 0 then [] else evError o)
  | more {k b fin evs} : RecvLoop o k fin evs →
      RecvLoop o (k + 1) fin (.recv o.socket 1 b :: evReceived o.onBytes o.onBytesCtx [b] ++ evs)

/-- `socketio_dowork`; `fin`: ended (otherwise still running after `n` rounds of sending or `m` of receiving) -/
def DoworkE (n m : Nat) (a : Option Obj) (fin : Bool) (a' : Option Obj) (evs : List Ev) : Prop :=
  match a with
  | none => fin = true ∧ a' = a ∧ evs = []
  | some o =>
    if o.state ≠ .opn then fin = true ∧ a' = a ∧ evs = []
    else ∃ o', a' = some o' ∧
      ((fin = false ∧ SendLoop n o false o' evs) ∨
       ∃ e1 e2, evs = e1 ++ e2 ∧ SendLoop n o true o' e1 ∧ RecvLoop o' m fin e2)

end Verif.Sw
