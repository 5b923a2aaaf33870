import Verif.Ex.Spec
/-!
# Histories of calls on any number of handles: what they do, and what is read off the record

The record keeps, for every call made, the position of the handle, the call with its arguments and result, and the calls that
reached the transport while it ran.
-/
namespace Verif.Ex
open Verif.Headers (Hdrs StoreE)
open Verif.Buffer (Content)

/-- Client operations; `i` is a position in the client's table of handles.  The client makes the objects it passes to a call (`none`
is `NULL`; it passes `NULL` if it has no memory to make one) and releases them afterwards. -/
inductive Op where
  | create (host : Option Text)
  | destroy (i : Nat)
  | setOption (i : Nat) (name : Option Text) (value : Option Block)
  | request (i type : Nat) (path : Option Text) (hdrs : Option (List (Text × Text))) (content : Option (List UInt8)) (status : Option Val)
      (rhdrs : Option (List (Text × Text))) (rcontent : Option (List UInt8))
  deriving DecidableEq, Repr

/-- A call as it was made: the objects behind its arguments, its result, the objects afterwards. -/
inductive Call where
  | create (host : Option Text) (ok : Bool)
  | destroy
  | setOption (name : Option Text) (value : Option Block) (r : Result)
  | request (x : Args) (r : Result) (x' : Args)
  deriving DecidableEq, Repr

/-- what a call returns: a handle or `NULL`, nothing, a result -/
inductive Out where
  | handle (ok : Bool)
  | done
  | result (r : Result)
  deriving DecidableEq, Repr

def Call.out : Call → Out
  | .create _ ok => .handle ok
  | .destroy => .done
  | .setOption _ _ r => .result r
  | .request _ r _ => .result r

structure Entry where
  pos : Nat
  call : Call
  evs : List Ev
  deriving DecidableEq, Repr

abbrev Log := List Entry

/-- calls received by the transport, in order -/
def trace (log : Log) : List Ev := log.flatMap Entry.evs

/-- the calls made on the handle at position `i` -/
def ofPos (i : Nat) (log : Log) : Log := log.filter (·.pos = i)

abbrev World := List (Option Obj) × Log

/-- the client's object, passed as `a`: `NULL` instead of it only if memory is refused -/
def Passed {A : Type} (oom : Prop) (l a : Option A) : Prop := a = l ∨ (oom ∧ a = none)

/-- the headers `hs'` are what is left after the pairs were added to `hs` one after the other (an addition may fail) -/
def Built (rel : Prop) : Hdrs → List (Text × Text) → Hdrs → Prop
  | hs, [], hs' => hs' = hs
  | hs, p :: l, hs' => ∃ r hs1, StoreE rel false (some hs) (some p.1) (some p.2) r (some hs1) ∧ Built rel hs1 l hs'

/-- headers made by the client: none only if it wants none or memory is refused -/
def Headed (rel : Prop) (l : Option (List (Text × Text))) (a : Option Hdrs) : Prop :=
  (∀ hs, a = some hs → ∃ ps, l = some ps ∧ Built rel [] ps hs) ∧ (rel → a = none → l = none)

/-- arguments made by the client for a request -/
def Made (oom : Prop) (type : Nat) (path : Option Text) (hdrs : Option (List (Text × Text))) (content : Option (List UInt8)) (status : Option Val)
    (rhdrs : Option (List (Text × Text))) (rcontent : Option (List UInt8)) (x : Args) : Prop :=
  x.type = type ∧ x.path = path ∧ Headed (¬ oom) hdrs x.hdrs ∧ Passed oom (content.map fun bs => some (bytesV bs)) x.content ∧
  Passed oom status x.status ∧ Headed (¬ oom) rhdrs x.rhdrs ∧ Passed oom (rcontent.map fun bs => some (bytesV bs)) x.rcontent

/-- One client call; `o`: what it returned (`none`: no such position, no call). -/
def step (oom : Prop) (x : World) (op : Op) (o : Option Out) (x' : World) : Prop :=
  match op with
  | .create host => NewW x (fun log out a' log' => ∃ ok, CreateE oom host ok a' ∧ out = .handle ok ∧
      log' = log ++ [⟨x.1.length, .create host ok, []⟩]) o x'
  | .destroy i => On1W x i (fun a log out a' log' => out = .done ∧ a' = none ∧ ∃ evs, DestroyE a evs ∧ log' = log ++ [⟨i, .destroy, evs⟩]) o x'
  | .setOption i n v => On1W x i (fun a log out a' log' => ∃ b r evs, Passed (oom ∨ maxObj < (v.getD []).length) v b ∧ SetE oom n b a r a' evs ∧ out = .result r ∧
      log' = log ++ [⟨i, .setOption n b r, evs⟩]) o x'
  | .request i type path hdrs content status rhdrs rcontent => On1W x i (fun a log out a' log' => ∃ y d r y' d' evs,
      Made oom type path hdrs content status rhdrs rcontent y ∧ ExecE oom a y d r a' y' d' evs ∧ out = .result r ∧
      log' = log ++ [⟨i, .request y r y', evs⟩]) o x'

/-! ## The protocol of the transport -/

/-- what a handle has obtained from the transport -/
inductive Phase where
  | idle
  /-- initialised -/
  | session
  /-- initialised, and the connection `c` is open -/
  | connected (c : Nat)
  deriving DecidableEq, Repr

/-- The calls that are allowed, and what they lead to: a connection is created in a session and only if there is none, used and
closed only while it is open; the session is ended when no connection is open; initialisation is not repeated. -/
def next : Phase → Ev → Option Phase
  | .idle, .init r => some (if r = .ok then .session else .idle)
  | .session, .create _ c => some (if c = 0 then .session else .connected c)
  | .session, .deinit => some .idle
  | .connected c, .execute c' _ _ _ _ => if c' = c then some (.connected c) else none
  | .connected c, .setOption c' _ _ _ => if c' = c then some (.connected c) else none
  | .connected c, .close c' => if c' = c then some .session else none
  | p, .clone _ _ _ _ => some p
  | _, _ => none

/-- a sequence of calls, if all of them are allowed -/
def runs (p : Phase) : List Ev → Option Phase
  | [] => some p
  | e :: es => (next p e).bind fun p' => runs p' es

/-- successful initialisations and deinitialisations -/
def inits (tr : List Ev) : Nat := tr.count (.init .ok)
def deinits (tr : List Ev) : Nat := tr.count .deinit
/-- how often the connection `c` was created and closed -/
def created (c : Nat) (tr : List Ev) : Nat := tr.countP fun | .create _ d => d = c | _ => false
def closed (c : Nat) (tr : List Ev) : Nat := tr.count (.close c)

/-- how many handles have a connection; how many have the connection `c` -/
def connected (as : List (Option Obj)) : Nat := as.countP fun a => (a.bind Obj.conn).isSome
def holders (c : Nat) (as : List (Option Obj)) : Nat := as.countP fun a => a.bind Obj.conn = some c

/-! ## Attempts -/

def Ev.isInit : Ev → Bool | .init _ => true | _ => false
def Ev.isCreate : Ev → Bool | .create _ _ => true | _ => false
def Ev.isExecute : Ev → Bool | .execute .. => true | _ => false

/-! ## Options -/

/-- the option a call saved: a copy was made, and it was kept -/
def Entry.saves (e : Entry) : Option (Text × Block) :=
  match e.call, e.evs with
  | .setOption _ _ .ok, [.clone n _ .ok copy] => some (n, copy)
  | .setOption _ _ _, [.clone n _ .ok copy, .setOption _ _ _ _] => some (n, copy)
  | _, _ => none

/-- the options saved by the calls, each with the value given last, in the order in which they were first set -/
def savedOpts (log : Log) : List (Text × Block) := (log.filterMap Entry.saves).foldl (fun l p => putOpt l p.1 p.2) []

end Verif.Ex
