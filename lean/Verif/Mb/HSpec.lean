import Verif.Mb.Spec
import Verif.World
import Verif.Hist
/-!
# Histories of calls of `httpapi.h` on any number of handles, on top of `WolfSSLConnection`

The record keeps, for every call made, the position of the handle in the client's table, the call with its arguments and result, and the calls that reached
connection objects while it ran (other than those that send and receive, that are in the `Wire` of the handle).
-/
namespace Verif.Mb
open Verif.Headers (Hdrs)
open Verif.Curl (Args)
open Verif.Ex (Passed Headed)

/-- Client operations; `i` is a position in the client's table of handles.  The client makes the objects it passes to a request (`none` is `NULL`; it passes `NULL` if
it has no memory to make one; `rcontent`: an empty buffer is passed for the body) and releases them afterwards. -/
inductive Op where
  | create (host : Option Text)
  | close (i : Nat)
  | setOption (i : Nat) (name value : Option Text)
  | request (i type : Nat) (path : Option Text) (hdrs : Option (List (Text × Text))) (content : Option Text) (len : Nat) (status : Option Val)
      (rhdrs : Option (List (Text × Text))) (rcontent : Bool)
  deriving DecidableEq, Repr

/-- A call as it was made: the objects behind its arguments, its result, the objects afterwards. -/
inductive Called where
  | create (host : Option Text)
  | close
  | setOption (name value : Option Text) (r : Res)
  | request (x : Args) (r : Res) (x' : Args)
  deriving DecidableEq, Repr

/-- what a call returns -/
inductive Out where
  | handle
  | null
  | done
  | result (r : Res)
  deriving DecidableEq, Repr

structure Entry where
  pos : Nat
  call : Called
  evs : List Ev
  deriving DecidableEq, Repr

abbrev Log := List Entry
/-- calls received by connection objects, in order -/
def trace (log : Log) : List Ev := log.flatMap Entry.evs
/-- the calls made on the handle at position `i` -/
def ofPos (i : Nat) (log : Log) : Log := log.filter (·.pos = i)

abbrev World := List (Option Obj) × Log

/-- arguments made by the client for a request -/
def Made (rel : Prop) (type : Nat) (path : Option Text) (hdrs : Option (List (Text × Text))) (content : Option Text) (len : Nat) (status : Option Val)
    (rhdrs : Option (List (Text × Text))) (rcontent : Bool) (x : Args) : Prop :=
  x.type = type ∧ x.path = path ∧ Headed rel hdrs x.hdrs ∧ x.content = content ∧ x.len = len ∧
  Passed (¬ rel) status x.status ∧ Headed rel rhdrs x.rhdrs ∧ Passed (¬ rel) (if rcontent then some none else none) x.rcontent

/-- One client call; `o`: what it returned (`none`: no such position, no call). -/
def step (rel W : Prop) (Peer : Text → Wire → Prop) (x : World) (op : Op) (o : Option Out) (x' : World) : Prop :=
  match op with
  | .create host => NewW x (fun log out a' log' => ∃ evs, CreateE (conOf a') host a' evs ∧ out = (if a' = none then .null else .handle) ∧
      log' = log ++ [⟨x.1.length, .create host, evs⟩]) o x'
  | .close i => On1W x i (fun a log out a' log' => out = .done ∧ a' = none ∧ ∃ evs, CloseE (conOf a) a evs ∧ log' = log ++ [⟨i, .close, evs⟩]) o x'
  | .setOption i n v => On1W x i (fun a log out a' log' => ∃ r, SetE a n v r a' ∧ out = .result r ∧ log' = log ++ [⟨i, .setOption n v r, []⟩]) o x'
  | .request i type path hdrs content len status rhdrs rcontent => On1W x i (fun a log out a' log' => ∃ y r y' evs,
      Made rel type path hdrs content len status rhdrs rcontent y ∧ ExecE rel W Peer (conOf a) a y r y' a' evs ∧ out = .result r ∧
      log' = log ++ [⟨i, .request y r y', evs⟩]) o x'

/-- What is assumed of peers in histories: whatever request is sent on a connection, the answer can be read (`Says`), and this is so again afterwards. -/
structure Served (rel W : Prop) (Peer : Text → Wire → Prop) (P : Text → Wire → Prop) : Prop where
  fresh : ∀ host w, Peer host w → w.out = [] → w.pos = 0 → P host w
  failed : ∀ host w x path hs r w', P host w → Sends rel W (pieces x path hs) w r w' → r ≠ .ok → P host w'
  answered : ∀ host w x path hs w', P host w → Sends rel W (pieces x path hs) w .ok w' → (x.rcontent = none ∨ x.rcontent = some none) →
    ∃ y, Says w'.fin x.rcontent w'.ins y ∧ P host (w'.to y.body.rest)

/-! ## What is read off the record -/

/-- a connection object: not there, there, connected -/
inductive Phase where
  | none
  | fresh (c : Nat)
  | open (c : Nat)
  deriving DecidableEq, Repr

/-- The calls that are allowed, and what they lead to: certificates are loaded before the connection is opened, that is to port 443; it is opened once until it is closed; it is
closed before the object is destroyed. -/
def next : Phase → Ev → Option Phase
  | .none, .construct c => some (.fresh c)
  | .fresh c, .cert c' _ _ => if c' = c then some (.fresh c) else Option.none
  | .fresh c, .connect c' _ port r => if c' = c ∧ port = 443 then some (if r = 0 then .open c else .fresh c) else Option.none
  | .fresh c, .destruct c' => if c' = c then some .none else Option.none
  | .open c, .close c' => if c' = c then some (.fresh c) else Option.none
  | _, _ => Option.none

/-- a sequence of calls, if all of them are allowed -/
def runs (p : Phase) : List Ev → Option Phase
  | [] => some p
  | e :: es => (next p e).bind fun p' => runs p' es

/-- what a handle has -/
def phaseOf : Option Obj → Phase
  | none => .none
  | some o => if o.wire.isSome then .open o.con else .fresh o.con

/-- the request was sent completely: then the response was read, and its result is one of these -/
def Called.answered : Called → Bool
  | .request _ r _ => r == .ok || r == .readDataFailed || r == .receiveResponseFailed
  | _ => false
/-- the request was broken off while it was sent -/
def Called.broken : Called → Bool
  | .request _ r _ => r == .sendRequestFailed || r == .httpHeadersFailed
  | _ => false
/-- the text of a request -/
def Called.text : Called → Text
  | .request x _ _ => requestText x (x.path.getD []) (x.hdrs.getD [])
  | _ => []
/-- the calls on position `i` that were answered -/
def exchanges (i : Nat) (log : Log) : List Called := ((ofPos i log).map Entry.call).filter Called.answered

/-- what calls on a handle put on its connection, call by call: the text of an answered request, a part (from the start) of a broken one, otherwise nothing -/
def SentBy (c : Called) (t : Text) : Prop := if c.answered then t = c.text else if c.broken then t <+: c.text else t = []

/-- A conversation on one connection (`srv`, `fin`: the peer): the calls, all that was sent, how much was received.  The response to a request is made
of what the peer sends up to the end of that request, from where the one before ended. -/
inductive Talk (rel : Prop) (srv : Text → Text) (fin : Bool) : List Called → Text → Nat → Prop where
  | nil : Talk rel srv fin [] [] 0
  | answered {cs out pos x x' y} : Talk rel srv fin cs out pos → Says fin x.rcontent ((srv (out ++ (Called.request x y.body.res x').text)).drop pos) y → Filled rel x y x' →
      Talk rel srv fin (cs ++ [.request x y.body.res x']) (out ++ (Called.request x y.body.res x').text)
        (pos + (((srv (out ++ (Called.request x y.body.res x').text)).drop pos).length - y.body.rest.length))
  | broken {cs out pos c t} : Talk rel srv fin cs out pos → c.answered = false → c.broken = true → t <+: c.text → Talk rel srv fin (cs ++ [c]) (out ++ t) pos
  | quiet {cs out pos c} : Talk rel srv fin cs out pos → c.answered = false → c.broken = false → Talk rel srv fin (cs ++ [c]) out pos

/-- the certificate set last -/
def certStep (o : Option Text) : Called → Option Text
  | .setOption (some n) (some v) r => if n = Verif.Sas.text "TrustedCerts" ∧ r = .ok then some v else o
  | _ => o
def lastCert (cs : List Called) : Option Text := cs.foldl certStep none

/-- the calls made on the handle at `i` -/
def callsOf (i : Nat) (log : Log) : List Called := (ofPos i log).map Entry.call

/-- A peer (`srv`, `fin`) that answers the requests `es` with the responses `ys` (text, and what it says), in order, each when it has received the request. -/
structure Answers (srv : Text → Text) (fin : Bool) (es : List Called) (ys : List (Text × Reply)) : Prop where
  count : ys.length = es.length
  sends : ∀ k, k ≤ es.length → srv ((es.take k).flatMap Called.text) = (ys.take k).flatMap Prod.fst
  says : ∀ (k : Nat) x r x' t y, es[k]? = some (.request x r x') → ys[k]? = some (t, y) → Says fin x.rcontent t y ∧ y.body.rest = []

/-- certificates loaded and connections opened by a call, after the calls `cs` on the same handle -/
def Dialed (cs : List Called) (evs : List Ev) : Prop :=
  ∀ ev ∈ evs, match ev with
    | .cert _ t _ => lastCert cs = some t
    | .connect c host port _ => port = 443 ∧ .create (some host) ∈ cs ∧ ∀ t, lastCert cs = some t → .cert c t true ∈ evs
    | _ => True

end Verif.Mb
