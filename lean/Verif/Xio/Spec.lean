import Verif.Xio.Model
import Verif.World
/-!
# What xio promises

The calls a concrete IO implementation receives, and what each xio call means in terms of them.
-/
namespace Verif.Xio

/-- A call made through a function pointer `fn`, with its arguments and its result. -/
inductive Ev where
  | create (fn params logger h : Nat)
  | destroy (fn h : Nat)
  | opn (fn h onOpen onOpenCtx onBytes onBytesCtx onErr onErrCtx : Nat) (r : Int)
  | close (fn h onClose ctx : Nat) (r : Int)
  | send (fn h buffer size onSend ctx : Nat) (r : Int)
  | dowork (fn h : Nat)
  | setoption (fn h name value : Nat) (r : Int)
  deriving DecidableEq, Repr

/-- no function pointer of the description is missing -/
def Iface.complete (i : Iface) : Prop :=
  i.concrete_io_create ≠ 0 ∧ i.concrete_io_destroy ≠ 0 ∧ i.concrete_io_open ≠ 0 ∧ i.concrete_io_close ≠ 0 ∧
  i.concrete_io_send ≠ 0 ∧ i.concrete_io_dowork ≠ 0 ∧ i.concrete_io_setoption ≠ 0

/-- The contract between xio and any set of IO implementations.  `Net tr` is the memory of the implementations
when they have received exactly the calls `tr`; `Tok i h` is one more unit of the right to use the object `h`
created through the description `i`, received from its `create` and given up to its `destroy`.  Results are
arbitrary.  An implementation may rely on being called only on objects it created and has not yet destroyed,
and only through complete descriptions. -/
structure Honours (rel : Prop) (code : Code) (Net : List Ev → HProp) (Tok : Iface → Nat → HProp) : Prop where
  create : ∀ i prm lg tr, i.complete → Triple rel (Net tr) (code.create i.concrete_io_create prm lg)
    (fun h => Net (tr ++ [.create i.concrete_io_create prm lg h]) ∗ if h = 0 then emp else Tok i h)
  destroy : ∀ i h tr, i.complete → Triple rel (Net tr ∗ Tok i h) (code.destroy i.concrete_io_destroy h)
    (fun _ => Net (tr ++ [.destroy i.concrete_io_destroy h]))
  opn : ∀ i h a b c d e f tr, i.complete → Triple rel (Net tr ∗ Tok i h) (code.opn i.concrete_io_open h a b c d e f)
    (fun r => Net (tr ++ [.opn i.concrete_io_open h a b c d e f r]) ∗ Tok i h)
  close : ∀ i h a b tr, i.complete → Triple rel (Net tr ∗ Tok i h) (code.close i.concrete_io_close h a b)
    (fun r => Net (tr ++ [.close i.concrete_io_close h a b r]) ∗ Tok i h)
  send : ∀ i h a b c d tr, i.complete → Triple rel (Net tr ∗ Tok i h) (code.send i.concrete_io_send h a b c d)
    (fun r => Net (tr ++ [.send i.concrete_io_send h a b c d r]) ∗ Tok i h)
  dowork : ∀ i h tr, i.complete → Triple rel (Net tr ∗ Tok i h) (code.dowork i.concrete_io_dowork h)
    (fun _ => Net (tr ++ [.dowork i.concrete_io_dowork h]) ∗ Tok i h)
  setoption : ∀ i h a b tr, i.complete → Triple rel (Net tr ∗ Tok i h) (code.setoption i.concrete_io_setoption h a b)
    (fun r => Net (tr ++ [.setoption i.concrete_io_setoption h a b r]) ∗ Tok i h)

/-- What an xio handle stands for: the description given at creation and the concrete handle it returned. -/
structure Obj where
  iface : Iface
  con : Nat
  deriving DecidableEq, Repr

/-- Calls of the client on its table of handles (positions; a failed or destroyed handle is `NULL`). -/
inductive Op where
  | create (d params logger : Nat)
  | destroy (i : Nat)
  | opn (i a b c d e f : Nat)
  | close (i a b : Nat)
  | send (i a b c d : Nat)
  | dowork (i : Nat)
  | setoption (i a b : Nat)
  deriving DecidableEq, Repr

/-- `xio_create`: result 1 is a handle, 0 is `NULL`.  Without a complete description nothing is called; otherwise
either memory is refused and nothing is called (`oom`), or `create` is called once, and the handle is `NULL` exactly
if it returned `NULL`. -/
def CreateE (ro : Nat → Option Iface) (oom : Prop) (d prm lg : Nat) (tr : List Ev) (r : Int) (a' : Option Obj) (tr' : List Ev) : Prop :=
  (r = 0 ∧ a' = none ∧ tr' = tr ∧ (d = 0 ∨ (∃ i, ro d = some i ∧ ¬ i.complete) ∨ oom)) ∨
  ∃ i h, d ≠ 0 ∧ ro d = some i ∧ i.complete ∧ tr' = tr ++ [.create i.concrete_io_create prm lg h] ∧
    ((h = 0 ∧ r = 0 ∧ a' = none) ∨ (h ≠ 0 ∧ r = 1 ∧ a' = some ⟨i, h⟩))

/-- A call on a handle: on `NULL` nothing is called and the result satisfies `bad`; otherwise exactly one event
of the given shape is added, whose result `v` and the result of the call are related by `ok`. -/
def CallE (ev : Obj → Int → Ev) (bad : Int → Prop) (ok : Int → Int → Prop) (a : Option Obj) (tr : List Ev) (r : Int)
    (a' : Option Obj) (tr' : List Ev) : Prop :=
  match a with
  | none => bad r ∧ a' = none ∧ tr' = tr
  | some o => ∃ v, ok v r ∧ a' = some o ∧ tr' = tr ++ [ev o v]

/-- `xio_destroy`: `destroy` is called once on the concrete handle, and the handle is gone. -/
def DestroyE (a : Option Obj) (tr : List Ev) (a' : Option Obj) (tr' : List Ev) : Prop :=
  a' = none ∧ tr' = tr ++ (a.map fun o => Ev.destroy o.iface.concrete_io_destroy o.con).toList

/-- success is reported exactly when the implementation reported success -/
def sameSuccess (v r : Int) : Prop := r = 0 ↔ v = 0

/-- One client call: `o` is what it returned (`none`: no such position, no call made). -/
def step (ro : Nat → Option Iface) (oom : Prop) (x : List (Option Obj) × List Ev) (op : Op) (o : Option Int)
    (x' : List (Option Obj) × List Ev) : Prop :=
  match op with
  | .create d prm lg => NewW x (CreateE ro oom d prm lg) o x'
  | .destroy i => On1W x i (fun a tr _ a' tr' => DestroyE a tr a' tr') o x'
  | .opn i a b c d e f => On1W x i (CallE (fun o v => .opn o.iface.concrete_io_open o.con a b c d e f v) (· ≠ 0) sameSuccess) o x'
  | .close i a b => On1W x i (CallE (fun o v => .close o.iface.concrete_io_close o.con a b v) (· ≠ 0) sameSuccess) o x'
  | .send i a b c d => On1W x i (CallE (fun o v => .send o.iface.concrete_io_send o.con a b c d v) (· ≠ 0) (fun v r => r = v)) o x'
  | .dowork i => On1W x i (CallE (fun o _ => .dowork o.iface.concrete_io_dowork o.con) (fun _ => True) (fun _ _ => True)) o x'
  | .setoption i a b => On1W x i (fun ob tr r ob' tr' =>
      if a = 0 then r ≠ 0 ∧ ob' = ob ∧ tr' = tr
      else CallE (fun o v => .setoption o.iface.concrete_io_setoption o.con a b v) (· ≠ 0) (fun v r => r = v) ob tr r ob' tr') o x'

end Verif.Xio
