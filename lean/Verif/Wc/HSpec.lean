import Verif.Wc.Spec
/-!
# The life of a `WolfSSLConnection`: it is constructed, any methods are called, it is destroyed
-/
namespace Verif.Wc
open Verif.Mb (Wire Put Text)

/-- Methods -/
inductive Op where
  | connect (host : Text) (port : Nat)
  | isConnected
  | send (bs : Text)
  /-- into a new block of `n` bytes, that is released afterwards -/
  | receive (n : Nat)
  | close
  | load (cert : Text)
  deriving DecidableEq, Repr

/-- what a method returns -/
inductive Out where
  | num (r : Int)
  | bool (b : Bool)
  /-- the result, and what is in the block -/
  | data (r : Int) (vs : List Val)
  /-- no memory for the block, no call -/
  | skipped
  deriving DecidableEq, Repr

/-- A method on an object: what it returns, the object afterwards, and the calls made. -/
def step (Peer : Text → Wire → Prop) (W : Prop) (o : Ob) (op : Op) (out : Out) (o' : Ob) (evs : List TEv) : Prop :=
  match op with
  | .connect host _ => ∃ r, out = .num r ∧ Connected Peer o host r o' evs
  | .isConnected => out = .bool o.live.isSome ∧ o' = o ∧ evs = []
  | .send bs => ∃ r, out = .num r ∧ Sent W o bs r o' ∧ evs = []
  | .receive n => evs = [] ∧ ((out = .skipped ∧ o' = o) ∨ match o.live with
      | none => o' = o ∧ out = .data 0 (List.replicate n .undef)
      | some w =>
        if w.ins = [] then o' = o ∧ ∃ r vs, out = .data r vs ∧ if w.fin then r = 0 ∧ vs = List.replicate n .undef else r < 0
        else ∃ k : Nat, 0 < k ∧ k ≤ n ∧ k ≤ w.ins.length ∧ o' = { o with live := some (w.got k) } ∧
          out = .data k (bytesV (w.ins.take k) ++ List.replicate (n - k) .undef))
  | .close => ∃ r, out = .bool r ∧ Closed o r o' evs
  | .load u => ∃ r, out = .bool r ∧ o' = o ∧ Loaded o u r evs

/-- Methods called one after the other: object before, methods, results, object afterwards, calls made by each. -/
inductive Steps (Peer : Text → Wire → Prop) (W : Prop) : Ob → List Op → List Out → Ob → List (List TEv) → Prop where
  | nil {o} : Steps Peer W o [] [] o []
  | cons {o op out o1 evs ops outs o2 evss} : step Peer W o op out o1 evs → Steps Peer W o1 ops outs o2 evss → Steps Peer W o (op :: ops) (out :: outs) o2 (evs :: evss)

/-- Everything but the destructor: object, calls made by the constructor and the methods. -/
def Lives (Peer : Text → Wire → Prop) (W : Prop) (ops : List Op) (outs : List Out) (o : Ob) (evs : List TEv) : Prop :=
  ∃ o0 evs0 evss, Constructed o0 evs0 ∧ Steps Peer W o0 ops outs o evss ∧ evs = evs0 ++ evss.flatten

/-! ## What is read off the calls -/

/-- the socket that is open; `none`: the calls are not in order (a second socket, or a socket closed that is not open) -/
def sockets : Option Nat → List TEv → Option (Option Nat)
  | fd, [] => some fd
  | none, .socket n :: evs => sockets (some n) evs
  | some _, .socket _ :: _ => none
  | fd, .close n :: evs => if fd = some n then sockets none evs else none
  | fd, _ :: evs => sockets fd evs

/-- references on contexts given up -/
def freed (evs : List TEv) : Nat := evs.countP fun
  | .ctxFree _ => true
  | _ => false
/-- references on contexts obtained: the context itself, and its sessions -/
def obtained (evs : List TEv) : Nat := evs.countP fun
  | .ctx _ => true
  | .session _ _ => true
  | _ => false

end Verif.Wc
