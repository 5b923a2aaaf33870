import Verif.Wce.Spec
/-!
# Histories of calls of `httpapi.h` on any number of handles, on top of Winsock of Windows CE

The client's operations, the calls and the conversations are those of `Verif.Mb.HSpec`; the calls in the record are calls of Winsock.
-/
namespace Verif.Wce
open Verif.Headers (Hdrs)
open Verif.Curl (Args)
open Verif.Mb (Wire Op Called Out)

structure Entry where
  pos : Nat
  call : Called
  evs : List Ev
  deriving DecidableEq, Repr

abbrev Log := List Entry
/-- calls of Winsock, in order -/
def trace (log : Log) : List Ev := log.flatMap Entry.evs
/-- the calls made on the handle at position `i` -/
def ofPos (i : Nat) (log : Log) : Log := log.filter (·.pos = i)
/-- the calls made on the handle at `i` -/
def callsOf (i : Nat) (log : Log) : List Called := (ofPos i log).map Entry.call
/-- the calls on position `i` that were answered -/
def exchanges (i : Nat) (log : Log) : List Called := (callsOf i log).filter Called.answered

abbrev World := List (Option Obj) × Log

/-- One client call; `o`: what it returned (`none`: no such position, no call). -/
def step (rel W : Prop) (J : Res → Prop) (Peer : Text → Wire → Prop) (x : World) (op : Op) (o : Option Out) (x' : World) : Prop :=
  match op with
  | .create host => NewW x (fun log out a' log' => CreateE host a' ∧ out = (if a' = none then .null else .handle) ∧
      log' = log ++ [⟨x.1.length, .create host, []⟩]) o x'
  | .close i => On1W x i (fun a log out a' log' => out = .done ∧ a' = none ∧ log' = log ++ [⟨i, .close, closing a⟩]) o x'
  | .setOption i n v => On1W x i (fun a log out a' log' => out = .result .invalidArg ∧ a' = a ∧ log' = log ++ [⟨i, .setOption n v .invalidArg, []⟩]) o x'
  | .request i type path hdrs content len status rhdrs rcontent => On1W x i (fun a log out a' log' => ∃ y r y' evs,
      Mb.Made rel type path hdrs content len status rhdrs rcontent y ∧ ExecE rel W J Peer a y r y' a' evs ∧ out = .result r ∧
      log' = log ++ [⟨i, .request y r y', evs⟩]) o x'

/-! ## What is read off the record -/

/-- the socket of a handle: none, made, made secure, with validation, with TLS, connected, closed without having been connected -/
inductive Phase where
  | none
  | made (fd : Nat)
  | secure (fd : Nat)
  | hooked (fd : Nat)
  | tls (fd : Nat)
  | open (fd : Nat)
  | failed (fd : Nat)
  deriving DecidableEq, Repr

/-- The calls that are allowed, and what they lead to: there is one socket at a time; it is connected, to port 443, once, when it is secure, with the strict validation of certificates (option 2)
and TLS; a socket that could not be made secure, or could not be connected, is used for nothing more; every socket is closed at most once. -/
def next : Phase → Ev → Option Phase
  | .none, .socket fd => some (.made fd)
  | .made fd, .secure fd' ok => if fd' = fd then some (if ok then .secure fd else .failed fd) else Option.none
  | .made fd, .close fd' => if fd' = fd then some .none else Option.none
  | .secure fd, .hook fd' ok => if fd' = fd then some (if ok then .hooked fd else .failed fd) else Option.none
  | .hooked fd, .tls fd' ok => if fd' = fd then some (if ok then .tls fd else .failed fd) else Option.none
  | .tls fd, .connect fd' _ port opt ok => if fd' = fd ∧ port = 443 ∧ opt = 2 then some (if ok then .open fd else .failed fd) else Option.none
  | .failed fd, .close fd' => if fd' = fd then some .none else Option.none
  | .open fd, .close fd' => if fd' = fd then some .none else Option.none
  | _, _ => Option.none

/-- a sequence of calls, if all of them are allowed -/
def runs (p : Phase) : List Ev → Option Phase
  | [] => some p
  | e :: es => (next p e).bind fun p' => runs p' es

/-- what a handle may have -/
def Has : Option Obj → Phase → Prop
  | none, p => p = .none
  | some o, p => match o.sock with
    | none => p = .none
    | some (fd, none) => p = .made fd ∨ p = .failed fd
    | some (fd, some _) => p = .open fd

end Verif.Wce
