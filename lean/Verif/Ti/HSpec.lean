import Verif.Ti.Spec
import Verif.Ex.HSpec
import Verif.World
import Verif.Hist
/-!
# Histories of calls of `httpapi.h` on any number of connections, on top of TI's `HTTPCli`

The record keeps, for every call made, the position of the connection in the client's table (`none` for calls that have no
connection), the call with its arguments and result, and the calls that reached the library while it ran.
-/
namespace Verif.Ti
open Verif.Headers (Hdrs StoreE)
open Verif.Buffer (Content)
open Verif.Curl (Args)
open Verif.Ex (Passed Built Headed)

/-- Client operations; `i` is a position in the client's table of connections.  The client makes the objects it passes to a request
(`none` is `NULL`; it passes `NULL` if it has no memory to make one) and releases them afterwards. -/
inductive Op where
  | init
  | deinit
  | create (host : Text)
  | close (i : Nat)
  | setOption (i : Nat) (name : Option Text)
  | clone (name : Option Text)
  | request (i type : Nat) (path : Option Text) (hdrs : Option (List (Text × Text))) (content : Option Text) (len : Nat) (status : Option Val)
      (rhdrs : Option (List (Text × Text))) (rcontent : Option Text)
  deriving DecidableEq, Repr

/-- A call as it was made: the objects behind its arguments, its result, the objects afterwards, how many blocks of memory are lost. -/
inductive Called where
  | init
  | deinit
  | create (host : Text) (a : Option Nat)
  | close
  | setOption (name : Option Text)
  | clone (name : Option Text)
  | request (x : Args) (r : Res) (x' : Args) (k : Nat)
  deriving DecidableEq, Repr

/-- what a call returns -/
inductive Out where
  | handle
  | null
  | done
  | result (r : Res)
  deriving DecidableEq, Repr

structure Entry where
  pos : Option Nat
  call : Called
  evs : List Ev
  deriving DecidableEq, Repr

abbrev Log := List Entry

/-- calls received by the library, in order -/
def trace (log : Log) : List Ev := log.flatMap Entry.evs

/-- the calls made on the connection at position `i` -/
def ofPos (i : Nat) (log : Log) : Log := log.filter (·.pos = some i)

/-- blocks of memory lost -/
def Entry.lost (e : Entry) : Nat := match e.call with | .request _ _ _ k => k | _ => 0
def lost (log : Log) : Nat := (log.map Entry.lost).sum

abbrev World := List (Option Nat) × Log

/-- arguments made by the client for a request -/
def Made (rel : Prop) (type : Nat) (path : Option Text) (hdrs : Option (List (Text × Text))) (content : Option Text) (len : Nat) (status : Option Val)
    (rhdrs : Option (List (Text × Text))) (rcontent : Option Text) (x : Args) : Prop :=
  x.type = type ∧ x.path = path ∧ Headed rel hdrs x.hdrs ∧ x.content = content ∧ x.len = len ∧
  Passed (¬ rel) status x.status ∧ Headed rel rhdrs x.rhdrs ∧ Passed (¬ rel) (rcontent.map fun bs => some (bytesV bs)) x.rcontent

/-- a call without a connection -/
def Plain (x : World) (E : Log → Out → Log → Prop) (o : Option Out) (x' : World) : Prop := ∃ b w', o = some b ∧ E x.2 b w' ∧ x' = (x.1, w')

/-- One client call; `o`: what it returned (`none`: no such position, no call). -/
def step (rel : Prop) (x : World) (op : Op) (o : Option Out) (x' : World) : Prop :=
  match op with
  | .init => Plain x (fun log out log' => out = .result .ok ∧ log' = log ++ [⟨none, .init, []⟩]) o x'
  | .deinit => Plain x (fun log out log' => out = .done ∧ log' = log ++ [⟨none, .deinit, []⟩]) o x'
  | .create host => NewW x (fun log out a' log' => ∃ evs, CreateE host a' evs ∧ out = (if a' = none then .null else .handle) ∧
      log' = log ++ [⟨some x.1.length, .create host a', evs⟩]) o x'
  | .close i => On1W x i (fun a log out a' log' => out = .done ∧ a' = none ∧ ∃ evs, CloseE a evs ∧ log' = log ++ [⟨some i, .close, evs⟩]) o x'
  | .setOption i n => On1W x i (fun a log out a' log' => a' = a ∧ out = .result .invalidArg ∧ log' = log ++ [⟨some i, .setOption n, []⟩]) o x'
  | .clone n => Plain x (fun log out log' => out = .result .invalidArg ∧ log' = log ++ [⟨none, .clone n, []⟩]) o x'
  | .request i type path hdrs content len status rhdrs rcontent => On1W x i (fun a log out a' log' => ∃ y r y' evs k,
      Made rel type path hdrs content len status rhdrs rcontent y ∧ ExecE rel a y r y' evs k ∧ a' = a ∧ out = .result r ∧
      log' = log ++ [⟨some i, .request y r y' k, evs⟩]) o x'

/-! ## What is read off the record -/

/-- what a connection has obtained from the library, and how far a request has got -/
inductive Phase where
  | closed
  /-- a client that is not connected -/
  | fresh (c : Nat)
  /-- a connected client; the next call can be a request -/
  | ready (c : Nat)
  /-- the header fields are being sent -/
  | fields (c : Nat)
  /-- all fields are sent -/
  | sent (c : Nat)
  /-- and so is the body -/
  | whole (c : Nat)
  /-- the headers of the response are being read -/
  | headers (c : Nat)
  /-- the body of the response is being read -/
  | content (c : Nat)
  deriving DecidableEq, Repr

/-- the client of a phase -/
def Phase.cli : Phase → Option Nat
  | .closed => none
  | .fresh c | .ready c | .fields c | .sent c | .whole c | .headers c | .content c => some c

/-- a client that is connected -/
def Phase.live : Phase → Bool
  | .closed | .fresh _ => false
  | _ => true

/-- The calls that are allowed, and what they lead to: a client is used after it was obtained and until it is given up, a request is sent
and answered in the order of HTTP, nothing follows a failure but a new request or the end, and a connected client is disconnected before
it is given up. -/
def next : Phase → Ev → Option Phase
  | .closed, .resolve _ _ _ => some .closed
  | .closed, .create c => some (if c = 0 then .closed else .fresh c)
  | .fresh c, .connect c' _ port r => if c' = c ∧ port = 443 then some (if r < 0 then .fresh c else .ready c) else none
  | .fresh c, .delete c' => if c' = c then some .closed else none
  | .fields c, .field c' _ _ r => if c' = c then some (if r < 0 then .ready c else .fields c) else none
  | .fields c, .endFields c' r => if c' = c then some (if r < 0 then .ready c else .sent c) else none
  | .sent c, .body c' _ r => if c' = c then some (if r < 0 then .ready c else .whole c) else none
  | .sent c, .status c' r => if c' = c then some (if r < 0 then .ready c else .headers c) else none
  | .whole c, .status c' r => if c' = c then some (if r < 0 then .ready c else .headers c) else none
  | .headers c, .header c' x => if c' = c then some (match x with | .err _ => .ready c | .data [] _ => .content c | .data _ _ => .headers c) else none
  | .content c, .content c' x => if c' = c then some (match x with | .err _ => .ready c | .data _ true => .content c | .data _ false => .ready c) else none
  | p, .request c' _ _ r => if p.live ∧ p.cli = some c' then some (if r < 0 then .ready c' else .fields c') else none
  | p, .disconnect c' => if p.live ∧ p.cli = some c' then some (.fresh c') else none
  | _, _ => none

/-- a sequence of calls, if all of them are allowed -/
def runs (p : Phase) : List Ev → Option Phase
  | [] => some p
  | e :: es => (next p e).bind fun p' => runs p' es

/-- how often the client `c` was obtained and given up; how many connections have it -/
def created (c : Nat) (tr : List Ev) : Nat := tr.count (.create c)
def deleted (c : Nat) (tr : List Ev) : Nat := tr.count (.delete c)
def holders (c : Nat) (as : List (Option Nat)) : Nat := as.count (some c)

/-- what the library delivered of the body -/
def Read.bytes : Read → Text
  | .err _ => []
  | .data bs _ => bs
def delivered (ys : List Read) : Text := ys.flatMap Read.bytes
/-- whether a sequence of reads of the body ends because the body has ended -/
def ended (ys : List Read) : Prop := ∃ l bs, ys = l ++ [.data bs false]

/-- the lines delivered by reads of headers, without their NULs; what is left of a last line that is not complete -/
def linesIn : Text → List Read → List Text
  | _, [] => []
  | cur, .err _ :: l => linesIn cur l
  | cur, .data bs more :: l => if bs = [] then linesIn cur l else if more then linesIn (cur ++ bs) l else (cur ++ bs).dropLast :: linesIn [] l

/-- headers added to `hs` one after the other: names and values of the lines; a line is taken only if it has a colon -/
def addLines (hs : Hdrs) (ls : List Text) : Hdrs :=
  ls.foldl (fun hs l => Headers.stored false hs (split l).1 ((split l).2.dropWhile Headers.isLWS)) hs

end Verif.Ti
