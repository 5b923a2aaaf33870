import Verif.Curl.Spec
import Verif.Ex.HSpec
/-!
# Histories of calls of `httpapi.h` on any number of connections: what they do, and what is read off the record

The record keeps, for every call made, the position of the connection in the client's table (`none` for calls that have no
connection), the call with its arguments and result, and the calls that reached libcurl while it ran.
-/
namespace Verif.Curl
open Verif.Headers (Hdrs)
open Verif.Buffer (Content)
open Verif.Ex (Passed Headed)

/-- Client operations; `i` is a position in the client's table of connections.  The client makes the objects it passes to a call
(`none` is `NULL`; it passes `NULL` if it has no memory to make one) and releases them afterwards. -/
inductive Op where
  | init
  | deinit
  | create (host : Option Text)
  | close (i : Nat)
  | setOption (i : Nat) (name : Option Text) (value : Option Nat)
  | clone (name : Option Text) (value : Option Nat) (out : Bool)
  | request (i type : Nat) (path : Option Text) (hdrs : Option (List (Text × Text))) (content : Option Text) (len : Nat) (status : Option Val)
      (rhdrs : Option (List (Text × Text))) (rcontent : Option Text)
  deriving DecidableEq, Repr

/-- A call as it was made: the objects behind its arguments, its result, the objects afterwards. -/
inductive Called where
  | init (r : Res)
  | deinit
  | create (host : Option Text) (a : Conn)
  | close
  | setOption (name : Option Text) (value : Option Nat) (r : Res)
  | clone (name : Option Text) (value : Option Nat) (out : Bool) (r : Res) (copy : Option Nat)
  | request (x : Args) (r : Res) (x' : Args)
  deriving DecidableEq, Repr

/-- what a call returns: a connection, `NULL`, a handle that is no connection; nothing; a result -/
inductive Out where
  | handle
  | null
  | lost
  | done
  | result (r : Res)
  deriving DecidableEq, Repr

structure Entry where
  pos : Option Nat
  call : Called
  evs : List Ev
  deriving DecidableEq, Repr

abbrev Log := List Entry

/-- calls received by libcurl, in order -/
def trace (log : Log) : List Ev := log.flatMap Entry.evs

/-- the calls made on the connection at position `i` -/
def ofPos (i : Nat) (log : Log) : Log := log.filter (·.pos = some i)

/-- successful calls of `HTTPAPI_Init` that were not yet undone -/
def usersStep (n : Nat) (e : Entry) : Nat :=
  match e.call with
  | .init .ok => n + 1
  | .deinit => n - 1
  | _ => n
def users (log : Log) : Nat := log.foldl usersStep 0

/-- handles returned that are no connections -/
def Entry.isLost (e : Entry) : Bool := match e.call with | .create _ .broken => true | _ => false
def lost (log : Log) : Nat := log.countP Entry.isLost

abbrev World := List (Option Obj) × Log

def Conn.obj : Conn → Option Obj
  | .good o => some o
  | _ => Option.none
def Conn.out : Conn → Out
  | .good _ => .handle
  | .none => .null
  | .broken => .lost

/-- arguments made by the client for a request -/
def Made (rel : Prop) (type : Nat) (path : Option Text) (hdrs : Option (List (Text × Text))) (content : Option Text) (len : Nat) (status : Option Val)
    (rhdrs : Option (List (Text × Text))) (rcontent : Option Text) (x : Args) : Prop :=
  x.type = type ∧ x.path = path ∧ Headed rel hdrs x.hdrs ∧ x.content = content ∧ x.len = len ∧
  Passed (¬ rel) status x.status ∧ Headed rel rhdrs x.rhdrs ∧ Passed (¬ rel) (rcontent.map fun bs => some (bytesV bs)) x.rcontent

/-- a call without a connection -/
def Plain (x : World) (E : Log → Out → Log → Prop) (o : Option Out) (x' : World) : Prop := ∃ b w', o = some b ∧ E x.2 b w' ∧ x' = (x.1, w')

/-- One client call; `o`: what it returned (`none`: no such position, no call). -/
def step (rel : Prop) (x : World) (op : Op) (o : Option Out) (x' : World) : Prop :=
  match op with
  | .init => Plain x (fun log out log' => ∃ r n' evs, InitE (users log) r n' evs ∧ out = .result r ∧ log' = log ++ [⟨none, .init r, evs⟩]) o x'
  | .deinit => Plain x (fun log out log' => ∃ n' evs, DeinitE (users log) n' evs ∧ out = .done ∧ log' = log ++ [⟨none, .deinit, evs⟩]) o x'
  | .create host => NewW x (fun log out a' log' => ∃ c evs, CreateE (¬ rel) host c evs ∧ out = c.out ∧ a' = c.obj ∧
      log' = log ++ [⟨some x.1.length, .create host c, evs⟩]) o x'
  | .close i => On1W x i (fun a log out a' log' => out = .done ∧ a' = none ∧ ∃ evs, CloseE a evs ∧ log' = log ++ [⟨some i, .close, evs⟩]) o x'
  | .setOption i n v => On1W x i (fun a log out a' log' => ∃ b r, Passed (¬ rel) v b ∧ SetE n b a r a' ∧ out = .result r ∧
      log' = log ++ [⟨some i, .setOption n b r, []⟩]) o x'
  | .clone n v out => Plain x (fun log o log' => ∃ b d r copy, Passed (¬ rel) v b ∧ (d = out ∨ (¬ rel ∧ d = false)) ∧ CloneE (¬ rel) n b d r copy ∧
      o = .result r ∧ log' = log ++ [⟨none, .clone n b d r copy, []⟩]) o x'
  | .request i type path hdrs content len status rhdrs rcontent => On1W x i (fun a log out a' log' => ∃ y p rh rcb r y' evs,
      Made rel type path hdrs content len status rhdrs rcontent y ∧ (rh = 0 ↔ y.rhdrs = none) ∧ ExecE rel p rh rcb a y r y' evs ∧ a' = a ∧ out = .result r ∧
      log' = log ++ [⟨some i, .request y r y', evs⟩]) o x'

/-! ## What is read off the record -/

def Ev.isPerform : Ev → Bool | .perform .. => true | _ => false

/-- the value given to the option `n` by an accepted call -/
def Entry.gives (n : Name) (e : Entry) : Option Nat :=
  match e.call with
  | .setOption (some t) (some v) .ok => if t = n.text then some (n.value v) else none
  | _ => none
/-- before it is set: a request may take 242 seconds; the other options are 0 -/
def Name.default (n : Name) : Nat := if n = .timeout then 242000 else 0
/-- the value of an option: the one given last -/
def valueOf (n : Name) (log : Log) : Nat := ((log.filterMap (Entry.gives n)).getLast?).getD n.default

/-- what a connection has obtained from libcurl -/
inductive Phase where
  | closed
  /-- the easy handle `c` -/
  | open (c : Nat)
  /-- it is performing a request -/
  | running (c : Nat)
  deriving DecidableEq, Repr

/-- The calls that are allowed, and what they lead to: an easy handle is used after it was obtained and until it is given up, and is
given up only while it is not performing. -/
def next : Phase → Ev → Option Phase
  | .closed, .easyInit c => some (if c = 0 then .closed else .open c)
  | .open c, .set c' _ _ => if c' = c then some (.open c) else none
  | .open c, .perform c' _ => if c' = c then some (.running c) else none
  | .running c, .header c' _ => if c' = c then some (.running c) else none
  | .running c, .body c' _ => if c' = c then some (.running c) else none
  | .running c, .done c' _ => if c' = c then some (.open c) else none
  | .open c, .code c' _ _ => if c' = c then some (.open c) else none
  | .open c, .easyCleanup c' => if c' = c then some .closed else none
  | _, _ => none

/-- a sequence of calls, if all of them are allowed -/
def runs (p : Phase) : List Ev → Option Phase
  | [] => some p
  | e :: es => (next p e).bind fun p' => runs p' es

/-- how often the easy handle `c` was obtained and given up; how many connections have it -/
def obtained (c : Nat) (tr : List Ev) : Nat := tr.count (.easyInit c)
def cleaned (c : Nat) (tr : List Ev) : Nat := tr.count (.easyCleanup c)
def holders (c : Nat) (as : List (Option Obj)) : Nat := as.countP fun a => a.map Obj.curl = some c

/-- successful initialisations of libcurl -/
def inits (tr : List Ev) : Nat := tr.count (.globalInit 0)
def cleanups (tr : List Ev) : Nat := tr.count .globalCleanup

/-- the name of a method -/
def verbName : Nat → Text
  | 0 => Sas.text "GET"
  | 1 => Sas.text "POST"
  | 2 => Sas.text "PUT"
  | 3 => Sas.text "DELETE"
  | _ => Sas.text "PATCH"

/-- headers added to `hs` one after the other: invalid names are skipped, white space before a value is dropped, values of equal names are joined -/
def merged (hs : Hdrs) (l : List (Text × Text)) : Hdrs :=
  l.foldl (fun hs p => if Headers.okName p.1 then Headers.stored false hs p.1 (p.2.dropWhile Headers.isLWS) else hs) hs

/-- while they are added, no array and no value gets larger than the address space allows -/
def Fits (hs : Hdrs) (l : List (Text × Text)) : Prop :=
  ∀ l1 p l2, l = l1 ++ p :: l2 → 8 * ((merged hs l1).length + 1) ≤ maxObj ∧
    ∀ old, Headers.find (merged hs l1) p.1 = some old → old.length + 2 + p.2.length < maxObj

end Verif.Curl
