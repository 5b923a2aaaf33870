import Verif.Sock.Model
import Verif.World
/-! # What the socket IO does, call by call, and what is assumed of the operating system -/
namespace Verif.Sock

/-- Calls received by the operating system and by the user's callbacks. -/
inductive Ev where
  | socket (fd : Int)
  | getaddrinfo (host : Option (List UInt8)) (port : Nat) (err : Int) (ai : Nat)
  | connect (fd : Int) (ai : Nat) (err : Int)
  | freeaddrinfo (ai : Nat)
  | getfl (fd : Int) (r : Int)
  | setfl (fd : Int) (flags : Int) (r : Int)
  | shutdown (fd : Int)
  | close (fd : Int)
  /-- `send` was given these bytes and returned `r` -/
  | send (fd : Int) (bytes : List UInt8) (r : Int)
  | recv (fd : Int) (r : Int) (b : UInt8)
  | opened (fn ctx : Nat) (ok : Bool)
  | closed (fn ctx : Nat)
  | completed (fn ctx : Nat) (ok : Bool)
  | received (fn ctx : Nat) (bytes : List UInt8)
  | error (fn ctx : Nat)
  deriving DecidableEq, Repr

/-- the text designated by the host name argument -/
def HostArg (s : CharPtr) (h : Option (List UInt8)) : HProp :=
  match h with
  | none => (s = .null) ⋏ emp
  | some t => CStr s t

/-- Contract of the operating system and the callbacks.  `Net tr`: their memory after exactly the calls `tr`.
`Fd fd` is the right to use the descriptor `fd` (obtained from `socket`, given up to `close`), `Ai ai` is an address
list (obtained from `getaddrinfo`, given up to `freeaddrinfo`).  `send` accepts at most the given number of bytes,
less than `2^31`, or fails with -1; `recv` has room for one byte. -/
structure Honours (rel : Prop) (os : Os) (Net : List Ev → HProp) (Fd : Int → HProp) (Ai : Nat → HProp) : Prop where
  socket : ∀ tr, Triple rel (Net tr) os.socket
    (fun fd => (-1 ≤ fd ∧ fd < 2 ^ 31) ⋏ Net (tr ++ [.socket fd]) ∗ if fd < 0 then emp else Fd fd)
  getaddrinfo : ∀ s h port tr, Triple rel (Net tr ∗ HostArg s h) (os.getaddrinfo s port)
    (fun x => Net (tr ++ [.getaddrinfo h port x.1 x.2]) ∗ HostArg s h ∗ if x.1 = 0 then Ai x.2 else emp)
  connect : ∀ fd ai tr, Triple rel (Net tr ∗ Fd fd ∗ Ai ai) (os.connect fd ai)
    (fun r => Net (tr ++ [.connect fd ai r]) ∗ Fd fd ∗ Ai ai)
  freeaddrinfo : ∀ ai tr, Triple rel (Net tr ∗ Ai ai) (os.freeaddrinfo ai) (fun _ => Net (tr ++ [.freeaddrinfo ai]))
  getfl : ∀ fd tr, Triple rel (Net tr ∗ Fd fd) (os.getfl fd) (fun r => Net (tr ++ [.getfl fd r]) ∗ Fd fd)
  setfl : ∀ fd fl tr, Triple rel (Net tr ∗ Fd fd) (os.setfl fd fl) (fun r => Net (tr ++ [.setfl fd fl r]) ∗ Fd fd)
  shutdown : ∀ fd tr, Triple rel (Net tr ∗ Fd fd) (os.shutdown fd) (fun _ => Net (tr ++ [.shutdown fd]) ∗ Fd fd)
  close : ∀ fd tr, Triple rel (Net tr ∗ Fd fd) (os.close fd) (fun _ => Net (tr ++ [.close fd]))
  send : ∀ fd bs tr, Triple rel (Net tr ∗ Fd fd) (os.send fd bs)
    (fun r => (-1 ≤ r ∧ r ≤ bs.length ∧ r < 2 ^ 31) ⋏ Net (tr ++ [.send fd bs r]) ∗ Fd fd)
  recv : ∀ fd tr, Triple rel (Net tr ∗ Fd fd) (os.recv fd)
    (fun x => (-1 ≤ x.1 ∧ x.1 ≤ 1) ⋏ Net (tr ++ [.recv fd x.1 x.2]) ∗ Fd fd)
  on_io_open_complete : ∀ fn ctx ok tr, fn ≠ 0 → Triple rel (Net tr) (os.on_io_open_complete fn ctx ok) (fun _ => Net (tr ++ [.opened fn ctx ok]))
  on_io_close_complete : ∀ fn ctx tr, fn ≠ 0 → Triple rel (Net tr) (os.on_io_close_complete fn ctx) (fun _ => Net (tr ++ [.closed fn ctx]))
  on_send_complete : ∀ fn ctx ok tr, fn ≠ 0 → Triple rel (Net tr) (os.on_send_complete fn ctx ok) (fun _ => Net (tr ++ [.completed fn ctx ok]))
  on_bytes_received : ∀ fn ctx bs tr, fn ≠ 0 → Triple rel (Net tr) (os.on_bytes_received fn ctx bs) (fun _ => Net (tr ++ [.received fn ctx bs]))
  on_io_error : ∀ fn ctx tr, fn ≠ 0 → Triple rel (Net tr) (os.on_io_error fn ctx) (fun _ => Net (tr ++ [.error fn ctx]))

/-- a queued send: the bytes still to be given to the socket, and the completion callback -/
structure Pend where
  bytes : List UInt8
  cb : Nat
  ctx : Nat
  deriving DecidableEq, Repr

/-- What a socket IO handle stands for. -/
structure Obj where
  socket : Int
  logger : Nat
  onBytes : Nat
  onErr : Nat
  onBytesCtx : Nat
  onErrCtx : Nat
  host : Option (List UInt8)
  port : Int
  state : IO_STATE
  pending : List Pend
  deriving DecidableEq, Repr

/-! Events of callbacks that are only made if the function pointer is not `NULL` -/
def evOpened (fn ctx : Nat) (ok : Bool) : List Ev := if fn = 0 then [] else [.opened fn ctx ok]
def evClosed (fn ctx : Nat) : List Ev := if fn = 0 then [] else [.closed fn ctx]
def evCompleted (fn ctx : Nat) : List Ev := if fn = 0 then [] else [.completed fn ctx true]
def evReceived (fn ctx : Nat) (bs : List UInt8) : List Ev := if fn = 0 then [] else [.received fn ctx bs]
def evError (o : Obj) : List Ev := if o.onErr = 0 then [] else [.error o.onErr o.onErrCtx]

/-- target of a new handle: a host name, or a socket (`none`: `NULL` configuration) -/
structure Target where
  host : Option (List UInt8)
  port : Int
  accepted : Int

/-- `socketio_create`: a closed handle; `NULL` without configuration, for an invalid accepted socket, or if memory is
refused.  No call is made. -/
def CreateE (oom : Prop) (c : Option Target) (logger : Nat) (ok : Bool) (a' : Option Obj) : Prop :=
  match c with
  | none => ok = false ∧ a' = none
  | some c => (ok = false ∧ a' = none ∧ (oom ∨ (c.host = none ∧ c.accepted = -1))) ∨
      (ok = true ∧ (c.host = none → c.accepted ≠ -1) ∧
        a' = some ⟨if c.host = none then c.accepted else -1, logger, 0, 0, 0, 0, c.host, c.port, .closed, []⟩)

/-- `socketio_destroy`: the socket, if any, is closed -/
def DestroyE (a : Option Obj) (evs : List Ev) : Prop :=
  match a with
  | none => evs = []
  | some o => evs = if o.socket = -1 then [] else [.close o.socket]

/-- the handle after a successful open -/
def opened (o : Obj) (fd : Int) (onBytes onBytesCtx onErr onErrCtx : Nat) : Obj :=
  { o with socket := fd, onBytes := onBytes, onBytesCtx := onBytesCtx, onErr := onErr, onErrCtx := onErrCtx, state := .opn }

/-- `socketio_open` -/
def OpenE (onOpen onOpenCtx onBytes onBytesCtx onErr onErrCtx : Nat) (a : Option Obj) (r : Int) (a' : Option Obj) (evs : List Ev) : Prop :=
  match a with
  | none => r ≠ 0 ∧ a' = none ∧ evs = []
  | some o =>
    if o.state ≠ .closed then r ≠ 0 ∧ a' = a ∧ evs = []
    else if o.socket ≠ -1 then
      r = 0 ∧ a' = some (opened o o.socket onBytes onBytesCtx onErr onErrCtx) ∧ evs = evOpened onOpen onOpenCtx true
    else
      -- no socket
      (r ≠ 0 ∧ a' = a ∧ evs = [.socket (-1)]) ∨
      ∃ fd, 0 ≤ fd ∧ fd < 2 ^ 31 ∧
        -- unknown host
        ((∃ err ai, err ≠ 0 ∧ r ≠ 0 ∧ a' = a ∧
            evs = [.socket fd, .getaddrinfo o.host (o.port % 2 ^ 32).toNat err ai, .close fd]) ∨
        ∃ ai,
          -- no connection
          (∃ err, err ≠ 0 ∧ r ≠ 0 ∧ a' = a ∧
            evs = [.socket fd, .getaddrinfo o.host (o.port % 2 ^ 32).toNat 0 ai, .connect fd ai err, .close fd, .freeaddrinfo ai]) ∨
          -- the socket cannot be made nonblocking
          (r ≠ 0 ∧ a' = a ∧
            evs = [.socket fd, .getaddrinfo o.host (o.port % 2 ^ 32).toNat 0 ai, .connect fd ai 0, .getfl fd (-1), .close fd, .freeaddrinfo ai]) ∨
          (∃ fl, fl ≠ -1 ∧ r ≠ 0 ∧ a' = a ∧
            evs = [.socket fd, .getaddrinfo o.host (o.port % 2 ^ 32).toNat 0 ai, .connect fd ai 0, .getfl fd fl,
              .setfl fd (orNonblock fl) (-1), .close fd, .freeaddrinfo ai]) ∨
          (∃ fl r2, fl ≠ -1 ∧ r2 ≠ -1 ∧ r = 0 ∧ a' = some (opened o fd onBytes onBytesCtx onErr onErrCtx) ∧
            evs = [.socket fd, .getaddrinfo o.host (o.port % 2 ^ 32).toNat 0 ai, .connect fd ai 0, .getfl fd fl,
              .setfl fd (orNonblock fl) r2] ++ evOpened onOpen onOpenCtx true ++ [.freeaddrinfo ai]))

/-- `socketio_close` (as it is: success is also reported when nothing was done) -/
def CloseE (onClose ctx : Nat) (a : Option Obj) (r : Int) (a' : Option Obj) (evs : List Ev) : Prop :=
  match a with
  | none => r ≠ 0 ∧ a' = none ∧ evs = []
  | some o =>
    if o.state = .closed ∨ o.state = .closing then r = 0 ∧ a' = a ∧ evs = []
    else r = 0 ∧ a' = some { o with socket := -1, state := .closed } ∧
      evs = [.shutdown o.socket, .close o.socket] ++ evClosed onClose ctx

/-- `socketio_send` of `bytes` (`none`: `NULL`) -/
def SendE (oom : Prop) (bytes : Option (List UInt8)) (cb ctx : Nat) (a : Option Obj) (r : Int) (a' : Option Obj) (evs : List Ev) : Prop :=
  match a, bytes with
  | none, _ => r ≠ 0 ∧ a' = a ∧ evs = []
  | _, none => r ≠ 0 ∧ a' = a ∧ evs = []
  | some o, some bs =>
    if bs = [] ∨ o.state ≠ .opn then r ≠ 0 ∧ a' = a ∧ evs = []
    else if o.pending ≠ [] then
      -- queued behind the others, or refused
      evs = [] ∧ ((r = 0 ∧ a' = some { o with pending := o.pending ++ [⟨bs, cb, ctx⟩] }) ∨ (r ≠ 0 ∧ oom ∧ a' = a))
    else
      -- all sent
      (r = 0 ∧ a' = a ∧ evs = .send o.socket bs bs.length :: evCompleted cb ctx) ∨
      -- failed
      (r ≠ 0 ∧ a' = a ∧ evs = .send o.socket bs (-1) :: evError o) ∨
      -- partly sent: the rest is queued, or the call fails
      ∃ n : Nat, n < bs.length ∧ evs = [.send o.socket bs n] ∧
        ((r = 0 ∧ a' = some { o with pending := [⟨bs.drop n, cb, ctx⟩] }) ∨ (r ≠ 0 ∧ oom ∧ a' = a))

/-- what the queued buffer contains after `n` of its bytes were sent: its size stays the same -/
def shift (n : Nat) (bs : List UInt8) : List UInt8 := bs.drop n ++ bs.drop (bs.length - n)

/-- At most `k` sending rounds of `socketio_dowork`; `fin`: ended (otherwise still running after `k` rounds). -/
inductive SendLoop : Nat → Obj → Bool → Obj → List Ev → Prop
  | done {k o} : o.pending = [] → SendLoop k o true o []
  | cut {o} : o.pending ≠ [] → SendLoop 0 o false o []
  | whole {k o p ps fin o' evs} : o.pending = p :: ps →
      SendLoop k { o with pending := ps } fin o' evs →
      SendLoop (k + 1) o fin o' (.send o.socket p.bytes p.bytes.length :: evCompleted p.cb p.ctx ++ evs)
  | fail {k o p ps fin o' evs} : o.pending = p :: ps →
      SendLoop k { o with pending := ps, state := .error } fin o' evs →
      SendLoop (k + 1) o fin o' (.send o.socket p.bytes (-1) :: evError o ++ evs)
  | part {k o p ps fin o' evs} (n : Nat) : o.pending = p :: ps → n < p.bytes.length →
      SendLoop k { o with pending := { p with bytes := shift n p.bytes } :: ps } fin o' evs →
      SendLoop (k + 1) o fin o' (.send o.socket p.bytes n :: evs)

/-- At most `k` receiving rounds. -/
inductive RecvLoop (o : Obj) : Nat → Bool → List Ev → Prop
  | cut : RecvLoop o 0 false []
  | last {k r b} : r ≤ 0 → RecvLoop o (k + 1) true [.recv o.socket r b]
  | more {k b fin evs} : RecvLoop o k fin evs →
      RecvLoop o (k + 1) fin (.recv o.socket 1 b :: evReceived o.onBytes o.onBytesCtx [b] ++ evs)

/-- `socketio_dowork`; `fin`: ended (otherwise still running after `n` rounds of sending or `m` of receiving) -/
def DoworkE (n m : Nat) (a : Option Obj) (fin : Bool) (a' : Option Obj) (evs : List Ev) : Prop :=
  match a with
  | none => fin = true ∧ a' = a ∧ evs = []
  | some o =>
    if o.state ≠ .opn then fin = true ∧ a' = a ∧ evs = []
    else ∃ o', a' = some o' ∧
      ((fin = false ∧ SendLoop n o false o' evs) ∨
       ∃ e1 e2, evs = e1 ++ e2 ∧ SendLoop n o true o' e1 ∧ RecvLoop o' m fin e2)

end Verif.Sock
