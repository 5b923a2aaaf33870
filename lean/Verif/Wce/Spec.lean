import Verif.Wce.Model
import Verif.Mb.HSpec
/-! # What the calls of `httpapi.h` do on top of Winsock of Windows CE (`httpapi_wince.c`), and what is assumed of it -/
namespace Verif.Wce
open Verif.Headers (Hdrs)
open Verif.Curl (Args)
open Verif.Mb (Wire Bytes Stream requestLine pieces Sends Says Filled Reply)

/-- Calls of Winsock, other than those that send and receive; `ok`: success. -/
inductive Ev where
  | startup
  | cleanup
  | socket (fd : Nat)
  | secure (fd : Nat) (ok : Bool)
  /-- the function that validates certificates is set -/
  | hook (fd : Nat) (ok : Bool)
  | tls (fd : Nat) (ok : Bool)
  /-- a connection; `opt`: the value of the option that the function that validates certificates uses -/
  | connect (fd : Nat) (host : Text) (port opt : Nat) (ok : Bool)
  | close (fd : Nat)
  deriving DecidableEq, Repr

/-- Contract of Winsock.  `Net tr`: its memory, after exactly the calls `tr`.  `Sk fd o`: a socket; `o`: its connection.  `At a host`: an address of `host`.  `Peer host w`: a peer that may be met at `host`.
`g`: the address of the option that the function that validates certificates uses.  `W`: `send` succeeds only if everything was sent.  `J`: what a variable that was not set may hold. -/
structure Honours (rel : Prop) (lib : Lib) (g : Ptr) (Net : List Ev → HProp) (Sk : Nat → Option Wire → HProp) (At : Nat → Text → Prop) (Peer : Text → Wire → Prop) (W : Prop)
    (J : Res → Prop) : Prop extends Stream rel lib.stream Sk W where
  startup : ∀ tr, Triple rel (Net tr) lib.startup (fun x => Net (if x.1 = 0 then tr ++ [.startup] else tr))
  cleanup : ∀ tr, Triple rel (Net tr) lib.cleanup (fun _ => Net (tr ++ [.cleanup]))
  dead : ∀ fd V p bs, bs.length < 2 ^ 31 → Bytes V p bs → Triple rel (Sk fd none ∗ V) (lib.send fd p bs.length) (fun r => (r < 0) ⋏ Sk fd none ∗ V)
  socket : ∀ tr, Triple rel (Net tr) lib.socket (fun s => if s = INVALID then Net tr else Net (tr ++ [.socket s]) ∗ Sk s none)
  resolve : ∀ V s t, Reads V s t → Triple rel V (lib.resolve s) (fun a => (∀ x, a = some x → At x t) ⋏ V)
  secure : ∀ fd tr, Triple rel (Net tr ∗ Sk fd none) (lib.secure fd) (fun r => Net (tr ++ [.secure fd (r ≠ -1)]) ∗ Sk fd none)
  notSocket : Triple rel emp (lib.secure INVALID) (fun r => (r = -1) ⋏ emp)
  hook : ∀ fd tr, Triple rel (Net tr ∗ Sk fd none) (lib.hook fd) (fun r => Net (tr ++ [.hook fd (r ≠ -1)]) ∗ Sk fd none)
  tls : ∀ fd tr, Triple rel (Net tr ∗ Sk fd none) (lib.tls fd) (fun r => Net (tr ++ [.tls fd (r ≠ -1)]) ∗ Sk fd none)
  lastError : Triple rel emp lib.lastError (fun r => (r ≠ 0) ⋏ emp)
  connect : ∀ fd a t port opt tr, At a t → Triple rel (Net tr ∗ Sk fd none ∗ g ↦ [.int opt]) (lib.connect fd a port)
    (fun r => ∃∃ o : Option Wire, ((r < 0 ∧ o = none) ∨ (0 ≤ r ∧ ∃ w, o = some w ∧ Peer t w ∧ w.out = [] ∧ w.pos = 0)) ⋏
      Net (tr ++ [.connect fd t port opt (0 ≤ r)]) ∗ Sk fd o ∗ g ↦ [.int opt])
  close : ∀ fd o tr, Triple rel (Net tr ∗ Sk fd o) (lib.close fd) (fun _ => Net (tr ++ [.close fd]))
  junk : Triple rel emp lib.junk (fun r => (J r) ⋏ emp)

/-- a handle: the host, the socket and, if it is connected, the connection -/
structure Obj where
  host : Text
  sock : Option (Nat × Option Wire)

/-- `HTTPAPI_CreateConnection` -/
def CreateE (host : Option Text) (a : Option Obj) : Prop :=
  match host with
  | none => a = none
  | some t => a = if t.length < 64 then some ⟨t, none⟩ else none

/-- `HTTPAPI_CloseConnection` -/
def closing (a : Option Obj) : List Ev :=
  match a with
  | some ⟨_, some (fd, _)⟩ => [.close fd]
  | _ => []

/-- a socket made secure -/
def ready (fd : Nat) : List Ev := [.secure fd true, .hook fd true, .tls fd true]

/-- A connection is made, if there is no socket: what the function returns (`none`: it goes on), the socket, the calls. -/
inductive ConnectE (J : Res → Prop) (Peer : Text → Wire → Prop) (o : Obj) : Option Res → Option (Nat × Option Wire) → List Ev → Prop where
  /-- there is a socket, connected or not -/
  | kept {s} : o.sock = some s → ConnectE J Peer o none (some s) []
  | noSocket {r} : o.sock = none → J r → ConnectE J Peer o (some r) none []
  /-- the host is not known: the socket is kept -/
  | noName {r fd} : o.sock = none → J r → ConnectE J Peer o (some r) (some (fd, none)) [.socket fd]
  /-- the socket cannot be made secure: it is kept -/
  | noTls {r fd evs} : o.sock = none → J r → evs ∈ [[.secure fd false], [.secure fd true, .hook fd false], [.secure fd true, .hook fd true, .tls fd false]] →
      ConnectE J Peer o (some r) (some (fd, none)) (.socket fd :: evs)
  | refused {r fd} : o.sock = none → J r → ConnectE J Peer o (some r) none (.socket fd :: ready fd ++ [.connect fd o.host 443 2 false, .close fd])
  | done {fd w} : o.sock = none → Peer o.host w → w.out = [] → w.pos = 0 →
      ConnectE J Peer o none (some (fd, some w)) (.socket fd :: ready fd ++ [.connect fd o.host 443 2 true])

/-- a request and its response on a connection: arguments before, result, arguments after, connection after -/
def Exchange (rel W : Prop) (x : Args) (path : Text) (hs : Hdrs) (w : Wire) (r : Res) (x' : Args) (w' : Wire) : Prop :=
  (4096 ≤ (requestLine x path).length ∧ r = .stringProcessingError ∧ x' = x ∧ w' = w) ∨
  ((requestLine x path).length < 4096 ∧ ∃ r2 w2, Sends rel W (pieces x path hs) w r2 w2 ∧
    ((r2 ≠ .ok ∧ r = r2 ∧ x' = x ∧ w' = w2) ∨
     (r2 = .ok ∧ ∃ y, Says w2.fin x.rcontent w2.ins y ∧ r = y.body.res ∧ Filled rel x y x' ∧ w' = w2.to y.body.rest)))

/-- On every connection that the call may use, the peer's answer to the request can be read. -/
def Answered (rel W : Prop) (Peer : Text → Wire → Prop) (o : Obj) (x : Args) : Prop :=
  ∀ path hs w w', x.path = some path → x.hdrs = some hs → ((∃ fd, o.sock = some (fd, some w)) ∨ (o.sock = none ∧ Peer o.host w ∧ w.out = [] ∧ w.pos = 0)) →
    Sends rel W (pieces x path hs) w .ok w' → ∃ y, Says w'.fin x.rcontent w'.ins y

/-- `HTTPAPI_ExecuteRequest`: handle before, arguments before, result, arguments after, handle after, calls made -/
def ExecE (rel W : Prop) (J : Res → Prop) (Peer : Text → Wire → Prop) (a : Option Obj) (x : Args) (r : Res) (x' : Args) (a' : Option Obj) (evs : List Ev) : Prop :=
  match a, x.path, x.hdrs with
  | some o, some path, some hs =>
    if 5 ≤ x.type then r = .invalidArg ∧ x' = x ∧ a' = a ∧ evs = []
    else ∃ r1 s1, ConnectE J Peer o r1 s1 evs ∧
      ((r1 = some r ∧ x' = x ∧ a' = some ⟨o.host, s1⟩) ∨
       (r1 = none ∧ ∃ fd, s1 = some (fd, none) ∧ r = (if 4096 ≤ (requestLine x path).length then .stringProcessingError else .sendRequestFailed) ∧ x' = x ∧
         a' = some ⟨o.host, some (fd, none)⟩) ∨
       (r1 = none ∧ ∃ fd w w', s1 = some (fd, some w) ∧ Exchange rel W x path hs w r x' w' ∧ a' = some ⟨o.host, some (fd, some w')⟩))
  | _, _, _ => r = .invalidArg ∧ x' = x ∧ a' = a ∧ evs = []

end Verif.Wce
