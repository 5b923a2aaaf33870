import Verif.Wc.Model
import Verif.Mb.Spec
/-! # What `WolfSSLConnection` does, and what is assumed of wolfSSL and lwIP -/
namespace Verif.Wc
open Verif.Mb (Wire Put Received Bytes Text)

/-- Calls that make or release something, or change whom a context trusts -/
inductive TEv where
  | init
  | cleanup
  | ctx (x : Nat)
  | ctxFree (x : Nat)
  | session (x s : Nat)
  | trust (x : Nat) (t : Text) (r : Int)
  | socket (fd : Nat)
  | close (fd : Nat)
  deriving DecidableEq, Repr

/-- what is given to the library, and given back -/
structure Reps where
  /-- shared memory of the libraries, after exactly these calls -/
  Net : List TEv → HProp
  /-- a context on which there are `k` references, `k ≥ 1` -/
  Ctx : Nat → Nat → HProp
  /-- a session, that is not in use; the socket it was given -/
  Ses : Nat → Option Nat → HProp
  /-- a socket; the host it is connected to -/
  Sk : Nat → Option Text → HProp
  /-- a session in use on a socket -/
  Live : Nat → Nat → Wire → HProp
  /-- the address of a host and a port -/
  At : Nat → Text → Nat → Prop

variable {R : Reps}
/-- a context, if there are references -/
def Reps.CtxN (R : Reps) (x k : Nat) : HProp := match k with
  | 0 => emp
  | k + 1 => R.Ctx x (k + 1)

/-- the session in use, for the predicates of `Mb.Spec` -/
def Reps.On (R : Reps) (fd : Nat) (s : Nat) : Option Wire → HProp
  | none => emp
  | some w => R.Live s fd w

/-- Contract of wolfSSL and lwIP.  wolfSSL counts the references on a context: one for who made it, one for each session; `wolfSSL_CTX_free` gives up one, the last one releases the context.
`Peer host w`: a peer that may be met at `host`.  `W`: `wolfSSL_write` does not return 0 on failure. -/
structure Honours (rel : Prop) (t : Tls) (R : Reps) (Peer : Text → Wire → Prop) (W : Prop) : Prop where
  init : ∀ tr, Triple rel (R.Net tr) t.init (fun _ => R.Net (tr ++ [.init]))
  cleanup : ∀ tr, Triple rel (R.Net tr) t.cleanup (fun _ => R.Net (tr ++ [.cleanup]))
  method : Triple rel emp t.method (fun _ => emp)
  ctxNew : ∀ m tr, m ≠ 0 → Triple rel (R.Net tr) (t.ctxNew m) (fun x => match x with
    | 0 => R.Net tr
    | x + 1 => R.Net (tr ++ [.ctx (x + 1)]) ∗ R.Ctx (x + 1) 1)
  ctxFree : ∀ x k tr, Triple rel (R.Net tr ∗ R.Ctx x (k + 1)) (t.ctxFree x) (fun _ => R.Net (tr ++ [.ctxFree x]) ∗ R.CtxN x k)
  setIO : ∀ x k, Triple rel (R.Ctx x (k + 1)) (t.setIO x) (fun _ => R.Ctx x (k + 1))
  sslNew : ∀ x k tr, Triple rel (R.Net tr ∗ R.Ctx x (k + 1)) (t.sslNew x) (fun s => match s with
    | 0 => R.Net tr ∗ R.Ctx x (k + 1)
    | s + 1 => R.Net (tr ++ [.session x (s + 1)]) ∗ R.Ctx x (k + 2) ∗ R.Ses (s + 1) none)
  setFd : ∀ s (fd : Nat), Triple rel (R.Ses s none) (t.setFd s fd) (fun _ => R.Ses s (some fd))
  handshake : ∀ s fd host, Triple rel (R.Ses s (some fd) ∗ R.Sk fd (some host)) (t.handshake s) (fun r => ∃∃ o : Option Wire,
    ((r ≠ 1 ∧ o = none) ∨ (r = 1 ∧ ∃ w, o = some w ∧ Peer host w ∧ w.out = [] ∧ w.pos = 0)) ⋏ (match o with
      | none => R.Ses s (some fd) ∗ R.Sk fd (some host)
      | some w => R.Live s fd w))
  write : ∀ s fd w V p bs, bs.length < 2 ^ 31 → Bytes V p bs → Triple rel (R.Live s fd w ∗ V) (t.write s p bs.length)
    (fun r => ∃∃ w' : Wire, (Put True w bs (r = bs.length) w' ∧ (r = bs.length ∨ r ≤ 0) ∧ (W → r = 0 → bs = [])) ⋏ R.Live s fd w' ∗ V)
  read : ∀ s fd w p b off (n : Nat), 0 < n → n < 2 ^ 31 → off + n ≤ b.length →
    Triple rel (R.Live s fd w ∗ p ↦ b) (t.read s p off n) (Received (R.On fd) s w p b off n)
  loadVerify : ∀ x k V p u tr, Reads V p u → Triple rel (R.Net tr ∗ R.Ctx x (k + 1) ∗ V) (t.loadVerify x p (u.length + 1))
    (fun r => R.Net (tr ++ [.trust x u r]) ∗ R.Ctx x (k + 1) ∗ V)
  socket : ∀ tr, Triple rel (R.Net tr) t.socket (fun r => (r < 2 ^ 31) ⋏ match r with
    | .ofNat fd => R.Net (tr ++ [.socket fd]) ∗ R.Sk fd none
    | .negSucc _ => R.Net tr)
  address : ∀ V p u port, Reads V p u → Triple rel V (t.address p port) (fun a => (∀ x, a = some x → R.At x u port) ⋏ V)
  connect : ∀ (fd : Nat) a u port, R.At a u port → Triple rel (R.Sk fd none) (t.connect fd a) (fun r => R.Sk fd (if r < 0 then none else some u))
  close : ∀ (fd : Nat) u tr, Triple rel (R.Net tr ∗ R.Sk fd u) (t.close fd) (fun _ => R.Net (tr ++ [.close fd]))
  /-- a session in use is a session and a socket -/
  apart : ∀ s fd w, R.Live s fd w ⊢ₕ R.Ses s (some fd) ∗ ∃∃ u : Option Text, R.Sk fd u

/-! ## Objects -/

/-- An object: its context and how many references on it are left, the sessions made, the socket, and the connection. -/
structure Ob where
  ctx : Nat
  refs : Nat
  sessions : List Nat
  fd : Option Nat
  live : Option Wire

/-- what objects can be -/
structure Ob.Ok (o : Ob) : Prop where
  none : o.ctx = 0 → o.refs = 0 ∧ o.sessions = [] ∧ o.live = none
  some : o.ctx ≠ 0 → 0 < o.refs
  live : o.live ≠ Option.none → 1 < o.refs ∧ o.sessions ≠ [] ∧ o.fd ≠ Option.none
  small : ∀ fd, o.fd = .some fd → fd < 2 ^ 31

/-- the constructor -/
def Constructed (o : Ob) (evs : List TEv) : Prop :=
  (o = ⟨0, 0, [], none, none⟩ ∧ evs = [.init]) ∨ (∃ x, x ≠ 0 ∧ o = ⟨x, 1, [], none, none⟩ ∧ evs = [.init, .ctx x])

/-- calls that close the socket -/
def closing (fd : Option Nat) : List TEv := match fd with
  | none => []
  | some n => [.close n]

/-- the destructor; what is left: references on the context, and all the sessions -/
def destroying (o : Ob) : List TEv := (if o.ctx = 0 then [] else [.ctxFree o.ctx]) ++ [.cleanup] ++ closing o.fd

/-- `connect` -/
inductive Connected (Peer : Text → Wire → Prop) (o : Ob) (host : Text) : Int → Ob → List TEv → Prop where
  /-- no context -/
  | noCtx {r} : o.ctx = 0 → r ≠ 0 → Connected Peer o host r o []
  /-- there is a socket already -/
  | again {r} : o.ctx ≠ 0 → o.fd ≠ none → r ≠ 0 → Connected Peer o host r o []
  | noSocket {r} : o.ctx ≠ 0 → o.fd = none → r ≠ 0 → Connected Peer o host r o []
  /-- no address, no connection, no session: the socket is kept -/
  | unreached {r fd} : o.ctx ≠ 0 → o.fd = none → r ≠ 0 → Connected Peer o host r { o with fd := some fd } [.socket fd]
  /-- the handshake fails: socket and session are kept -/
  | refused {r fd s} : o.ctx ≠ 0 → o.fd = none → r ≠ 0 → s ≠ 0 →
      Connected Peer o host r { o with fd := some fd, refs := o.refs + 1, sessions := s :: o.sessions } [.socket fd, .session o.ctx s]
  | done {fd s w} : o.ctx ≠ 0 → o.fd = none → s ≠ 0 → Peer host w → w.out = [] → w.pos = 0 →
      Connected Peer o host 0 { o with fd := some fd, refs := o.refs + 1, sessions := s :: o.sessions, live := some w } [.socket fd, .session o.ctx s]

/-- `close` -/
def Closed (o : Ob) (r : Bool) (o' : Ob) (evs : List TEv) : Prop :=
  r = true ∧ match o.live with
    | none => o' = o ∧ evs = []
    | some _ => o' = { o with refs := o.refs - 1, fd := none, live := none } ∧ evs = .ctxFree o.ctx :: closing o.fd

/-- `send`, `send_all` -/
def Sent (W : Prop) (o : Ob) (bs : Text) (r : Int) (o' : Ob) : Prop :=
  match o.live with
  | none => r = 0 ∧ o' = o
  | some w => ∃ w', o' = { o with live := some w' } ∧ Put True w bs (r = bs.length) w' ∧ (r = bs.length ∨ r ≤ 0) ∧ (W → r = 0 → bs = [])

/-- `load_certificate` -/
def Loaded (o : Ob) (u : Text) (r : Bool) (evs : List TEv) : Prop :=
  if o.ctx = 0 then r = false ∧ evs = [] else ∃ e : Int, r = (e == 1) ∧ evs = [.trust o.ctx u e]

end Verif.Wc
