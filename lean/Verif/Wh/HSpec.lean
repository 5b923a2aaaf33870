import Verif.Wh.Spec
import Verif.Ti.HSpec
/-!
# Histories of calls of `httpapi.h` on any number of connections, on top of WinHTTP

The record keeps, for every call made, the position of the connection in the client's table (`none` for calls that have no
connection), the call with its arguments and result, and the calls that reached WinHTTP while it ran.
-/
namespace Verif.Wh
open Verif.Headers (Hdrs StoreE)
open Verif.Buffer (Content)
open Verif.Curl (Args)
open Verif.Sas (text)
open Verif.Ex (Passed Headed)

/-- Client operations; `i` is a position in the client's table of connections.  The client makes the objects it passes to a request
(`none` is `NULL`; it passes `NULL` if it has no memory to make one) and releases them afterwards. -/
inductive Op where
  | init
  | deinit
  | create (host : Option Text)
  | close (i : Nat)
  | setOption (i : Nat) (name : Option Text) (v : Option Nat)
  | clone (name : Option Text) (v : Option Nat) (out : Bool)
  | request (i type : Nat) (path : Option Text) (hdrs : Option (List (Text × Text))) (content : Option Text) (status : Option Val)
      (rhdrs : Option (List (Text × Text))) (rcontent : Option Text)
  deriving DecidableEq, Repr

/-- A call as it was made: the objects behind its arguments, its result, the objects afterwards, how many blocks of memory are lost. -/
inductive Called where
  | init (r : Res)
  | deinit
  | create (host : Option Text) (a : Conn)
  | close (a : Option Obj)
  | setOption (name : Option Text) (v : Option Nat) (r : Res)
  | clone (name : Option Text) (v : Option Nat) (out : Bool) (r : Res) (copy : Option Nat)
  | request (x : Args) (r : Res) (x' : Args) (k : Nat)
  deriving DecidableEq, Repr

/-- what a call returns; `lost`: a handle that is no connection (the client cannot tell, but must not use it) -/
inductive Out where
  | handle
  | null
  | lost
  | done
  | result (r : Res)
  deriving DecidableEq, Repr

structure Entry where
  pos : Option Nat
  call : Called
  evs : List Ev
  deriving DecidableEq, Repr

abbrev Log := List Entry

/-- calls received by WinHTTP, in order -/
def trace (log : Log) : List Ev := log.flatMap Entry.evs

/-- the calls made on the connection at position `i` -/
def ofPos (i : Nat) (log : Log) : Log := log.filter (·.pos = some i)

/-- number of users: calls of `HTTPAPI_Init` that succeeded and were not undone by `HTTPAPI_Deinit` -/
def usersStep (n : Nat) (e : Entry) : Nat :=
  match e.call with
  | .init r => if r = .ok then n + 1 else n
  | .deinit => n - 1
  | _ => n
def users (log : Log) : Nat := log.foldl usersStep 0

/-- the connection obtained by `HTTPAPI_CreateConnection`, if any -/
def Conn.obj : Conn → Option Obj
  | .good o => some o
  | _ => Option.none
/-- what the client sees of it -/
def Conn.out : Conn → Out
  | .none => .null
  | .good _ => .handle
  | .broken => .lost

/-- blocks of memory lost by a call -/
def Entry.lost (e : Entry) : Nat :=
  match e.call with
  | .create _ .broken => 1
  | .request _ _ _ k => k
  | _ => 0
def lost (log : Log) : Nat := (log.map Entry.lost).sum

/-- connections closed while there were no users -/
def leftStep (x : Nat × List Obj) (e : Entry) : Nat × List Obj :=
  (usersStep x.1 e, match e.call with
    | .close (some o) => if x.1 = 0 then o :: x.2 else x.2
    | _ => x.2)
def left (log : Log) : List Obj := (log.foldl leftStep (0, [])).2

/-- the session held for the users: obtained by the first one and given up with the last one -/
def heldStep (x : Nat × Nat) (e : Entry) : Nat × Nat :=
  (usersStep x.1 e, match e.call, e.evs with
    | .init _, [.session s] => s
    | .deinit, _ => if x.1 = 1 then 0 else x.2
    | _, _ => x.2)
def held (log : Log) : Nat := (log.foldl heldStep (0, 0)).2

abbrev World := List (Option Obj) × Log

/-- arguments made by the client for a request -/
def Made (rel : Prop) (type : Nat) (path : Option Text) (hdrs : Option (List (Text × Text))) (content : Option Text) (status : Option Val)
    (rhdrs : Option (List (Text × Text))) (rcontent : Option Text) (x : Args) : Prop :=
  x.type = type ∧ x.path = path ∧ Headed rel hdrs x.hdrs ∧ x.content = content ∧ x.len = 0 ∧
  Passed (¬ rel) status x.status ∧ Headed rel rhdrs x.rhdrs ∧ Passed (¬ rel) (rcontent.map fun bs => some (bytesV bs)) x.rcontent

/-- a call without a connection -/
def Plain (x : World) (E : Log → Out → Log → Prop) (o : Option Out) (x' : World) : Prop := ∃ b w', o = some b ∧ E x.2 b w' ∧ x' = (x.1, w')

/-- One client call; `o`: what it returned (`none`: no such position, no call). -/
def step (rel : Prop) (W : Codec) (x : World) (op : Op) (o : Option Out) (x' : World) : Prop :=
  match op with
  | .init => Plain x (fun log out log' => ∃ r n' s' evs, InitE (users log) (held log) r n' s' evs ∧ out = .result r ∧ log' = log ++ [⟨none, .init r, evs⟩]) o x'
  | .deinit => Plain x (fun log out log' => ∃ n' s' evs, DeinitE (users log) (held log) n' s' evs ∧ out = .done ∧ log' = log ++ [⟨none, .deinit, evs⟩]) o x'
  | .create host => NewW x (fun log out a' log' => ∃ c evs, CreateE rel W (users log) (held log) host c evs ∧ out = c.out ∧ a' = c.obj ∧
      log' = log ++ [⟨some x.1.length, .create host c, evs⟩]) o x'
  | .close i => On1W x i (fun a log out a' log' => out = .done ∧ a' = none ∧ ∃ evs, CloseE (users log) a evs ∧ log' = log ++ [⟨some i, .close a, evs⟩]) o x'
  | .setOption i n v => On1W x i (fun a log out a' log' => ∃ b r, Passed (¬ rel) v b ∧ SetE n b a r a' ∧ out = .result r ∧ log' = log ++ [⟨some i, .setOption n b r, []⟩]) o x'
  | .clone n v out => Plain x (fun log o log' => ∃ b d r copy, Passed (¬ rel) v b ∧ (d = out ∨ (¬ rel ∧ d = false)) ∧ CloneE (¬ rel) n b d r copy ∧ o = .result r ∧
      log' = log ++ [⟨none, .clone n b d r copy, []⟩]) o x'
  | .request i type path hdrs content status rhdrs rcontent => On1W x i (fun a log out a' log' => ∃ y r y' evs k,
      Made rel type path hdrs content status rhdrs rcontent y ∧ ExecE rel W (users log) a y r y' evs k ∧ a' = a ∧ out = .result r ∧
      log' = log ++ [⟨some i, .request y r y' k, evs⟩]) o x'

end Verif.Wh
