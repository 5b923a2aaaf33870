import Verif.Mb.Model
import Verif.Curl.Spec
import Verif.Ti.HSpec
/-! # What the calls of `httpapi.h` do on top of a `WolfSSLConnection` (`httpapi_mbed.cpp`), and what is assumed of it -/
namespace Verif.Mb
open Verif.Headers (Hdrs)
open Verif.Buffer (Content)
open Verif.Curl (Args)
open Verif.Ex (Built)
open Verif.Ti (over)
open Verif.Sock (intV)
open Verif.Sas (text)

/-! ## The connection -/

/-- An open connection.  `srv t`: everything the peer sends once it has received exactly `t` and before it receives more (so it includes what it sent
before).  `out`: what was sent to it; `pos`: how much of what it sent was received; `fin`: when there is nothing more to receive, 0 is returned (end of stream), otherwise
an error. -/
structure Wire where
  srv : Text → Text
  out : Text
  pos : Nat
  fin : Bool

/-- what is still to be received -/
def Wire.ins (w : Wire) : Text := (w.srv w.out).drop w.pos
/-- `bs` was sent -/
def Wire.sent (w : Wire) (bs : Text) : Wire := { w with out := w.out ++ bs }
/-- `n` bytes were received -/
def Wire.got (w : Wire) (n : Nat) : Wire := { w with pos := w.pos + n }
/-- everything but `rest` was received -/
def Wire.to (w : Wire) (rest : Text) : Wire := w.got (w.ins.length - rest.length)

/-- Calls received by connections, other than those that send and receive. -/
inductive Ev where
  | construct (c : Nat)
  | destruct (c : Nat)
  | cert (c : Nat) (t : Text) (ok : Bool)
  | connect (c : Nat) (host : Text) (port : Nat) (r : Int)
  | close (c : Nat)
  deriving DecidableEq, Repr

/-- `send_all` of `bs`: it may send a part; if it reports success (`ok`), and `W`, all. -/
def Put (W : Prop) (w : Wire) (bs : Text) (ok : Prop) (w' : Wire) : Prop :=
  ∃ n, n ≤ bs.length ∧ w' = w.sent (bs.take n) ∧ (ok → W → n = bs.length)

/-- what `receive` of at most `n` bytes at `p + off` does -/
def Received (Con : Nat → Option Wire → HProp) (c : Nat) (w : Wire) (p : Ptr) (b : Block) (off n : Nat) (r : Int) : HProp :=
  if w.ins = [] then
    if w.fin then (r = 0) ⋏ Con c (some w) ∗ p ↦ b
    else ∃∃ vs : List Val, (r < 0 ∧ vs.length = n) ⋏ Con c (some w) ∗ p ↦ patch b off vs
  else ∃∃ k : Nat, (r = k ∧ 0 < k ∧ k ≤ n ∧ k ≤ w.ins.length) ⋏ Con c (some (w.got k)) ∗ p ↦ patch b off (bytesV (w.ins.take k))

/-- with the memory `V`, the bytes `bs` can be read at `s`, and reading leaves `V` as it was -/
structure Bytes (V : HProp) (s : CharPtr) (bs : Text) : Prop where
  storage : ∀ {rel : Prop}, Triple rel V (storage s) (fun r => (bytesV bs <+: r) ⋏ V)

/-- memory that was an object -/
def Raw (c : Nat) : HProp := ∃∃ b : Block, c ↦ b

/-- The part of the contract of a connection that is about sending and receiving.  `W`: `send_all` reports success only if it sent everything. -/
structure Stream (rel : Prop) (lib : Lib) (Con : Nat → Option Wire → HProp) (W : Prop) : Prop where
  sendAll : ∀ c w V p bs, bs.length < 2 ^ 31 → Bytes V p bs → Triple rel (Con c (some w) ∗ V) (lib.sendAll c p bs.length)
    (fun r => ∃∃ w' : Wire, (Put W w bs (0 ≤ r) w') ⋏ Con c (some w') ∗ V)
  receive : ∀ c w p b off (n : Nat), 0 < n → n < 2 ^ 31 → off + n ≤ b.length →
    Triple rel (Con c (some w) ∗ p ↦ b) (lib.receive c p off n) (Received Con c w p b off n)

/-- Contract of `WolfSSLConnection`.  Memory for an object is given to its constructor, and given back by its destructor.  `Net tr`: memory it shares, after exactly the calls `tr`.  `Con c o`: a constructed object; `o`: it is
connected.  `Peer host w`: a peer that may be met at `host`.  `W`: `send_all` reports success only if it sent everything. -/
structure Honours (rel : Prop) (lib : Lib) (Net : List Ev → HProp) (Con : Nat → Option Wire → HProp) (Peer : Text → Wire → Prop) (W : Prop) : Prop extends Stream rel lib Con W where
  construct : ∀ c b tr, b.length = conSlots → Triple rel (Net tr ∗ c ↦ b) (lib.construct c) (fun _ => Net (tr ++ [.construct c]) ∗ Con c none)
  destruct : ∀ c o tr, Triple rel (Net tr ∗ Con c o) (lib.destruct c) (fun _ => Net (tr ++ [.destruct c]) ∗ Raw c)
  isConnected : ∀ c o, Triple rel (Con c o) (lib.isConnected c) (fun b => (b = o.isSome) ⋏ Con c o)
  close : ∀ c o tr, Triple rel (Net tr ∗ Con c o) (lib.close c) (fun _ => Net (tr ++ [.close c]) ∗ Con c none)
  loadCertificate : ∀ c V s t tr, Reads V s t → Triple rel (Net tr ∗ Con c none ∗ V) (lib.loadCertificate c s (t.length + 1))
    (fun b => Net (tr ++ [.cert c t b]) ∗ Con c none ∗ V)
  connect : ∀ c V s t p tr, Reads V s t → Triple rel (Net tr ∗ Con c none ∗ V) (lib.connect c s p)
    (fun r => ∃∃ o : Option Wire, ((r ≠ 0 ∧ o = none) ∨ (r = 0 ∧ ∃ w, o = some w ∧ Peer t w ∧ w.out = [] ∧ w.pos = 0)) ⋏
      Net (tr ++ [.connect c t p r]) ∗ Con c o ∗ V)

/-! ## The request -/

/-- the name of a method -/
def verbOf : Nat → Text
  | 0 => text "GET"
  | 1 => text "POST"
  | 2 => text "PUT"
  | 3 => text "DELETE"
  | _ => text "PATCH"

/-- CR LF -/
abbrev crlf : Text := [13, 10]

/-- the first line -/
def requestLine (x : Args) (path : Text) : Text := verbOf x.type ++ [32] ++ path ++ text " HTTP/1.1" ++ crlf
/-- a header line -/
def headerLine (p : Text × Text) : Text := p.1 ++ [58, 32] ++ p.2
/-- the request as it should be sent: the first line, the headers in order, an empty line, the body -/
def requestText (x : Args) (path : Text) (hs : Hdrs) : Text :=
  requestLine x path ++ (hs.flatMap fun p => headerLine p ++ crlf) ++ crlf ++ x.body

/-- what is sent with one call; for a header memory is needed -/
inductive Piece where
  | raw (t : Text)
  | header (t : Text)
def Piece.text : Piece → Text
  | .raw t => t
  | .header t => t

/-- the pieces of the headers -/
def headerPieces (hs : Hdrs) : List Piece := hs.flatMap fun p => [.header (headerLine p), .raw crlf]
/-- the pieces after the headers -/
def tailPieces (body : Text) : List Piece := .raw crlf :: if body = [] then [] else [.raw body]
/-- the pieces of a request -/
def pieces (x : Args) (path : Text) (hs : Hdrs) : List Piece := .raw (requestLine x path) :: (headerPieces hs ++ tailPieces x.body)

/-- pieces are sent, in order, up to a failure -/
inductive Sends (rel W : Prop) : List Piece → Wire → Res → Wire → Prop where
  | nil {w} : Sends rel W [] w .ok w
  | noMem {l ps w} : (¬ rel ∨ maxObj < l.length + 1) → Sends rel W (.header l :: ps) w .httpHeadersFailed w
  | fail {p ps w w'} : Put W w p.text False w' → Sends rel W (p :: ps) w .sendRequestFailed w'
  | next {p ps w w1 r w'} : Put W w p.text True w1 → Sends rel W ps w1 r w' → Sends rel W (p :: ps) w r w'

/-! ## The response -/

/-- a line is read: the line and what follows it; a failure, and what follows it; or (end of stream before the first byte) nothing can be said -/
inductive Line where
  | got (t rest : Text)
  | bad (rest : Text)
  | unk
  deriving DecidableEq

/-- reading a line of less than `n` bytes -/
def lineN (n : Nat) (fin : Bool) (s : Text) : Line :=
  if n ≤ (s.takeWhile (· ≠ 13)).length then .bad (s.drop n)
  else match s.dropWhile (· ≠ 13) with
    | _ :: 10 :: rest => .got (s.takeWhile (· ≠ 13)) rest
    | _ :: _ :: rest => .bad rest
    | _ => if s = [] ∧ fin = true then .unk else .bad []
/-- reading a line -/
def line (fin : Bool) (s : Text) : Line := lineN 4096 fin s

/-- the part of a line that is used: up to a NUL -/
def cut (t : Text) : Text := t.takeWhile (· ≠ 0)

/-- name and value of a header line -/
def field (t : Text) : List (Text × Text) :=
  if 58 ∈ t then [(t.takeWhile (· ≠ 58), (t.dropWhile (· ≠ 58)).drop 1)] else []

/-- what a header line says of the body: its length, and whether it comes in chunks -/
inductive Framing where
  | set (len : Nat) (chunked : Bool)
  /-- not a number -/
  | bad
  /-- not representable -/
  | unk
def framing (t : Text) (len : Nat) (chunked : Bool) : Framing :=
  if startsCI (text "content-length:") t then
    match scanInt (t.drop 15) with
    | none => .bad
    | some (z, _) => if fitsInt z then .set (z % 2 ^ 32).toNat chunked else .unk
  else if startsCI (text "transfer-encoding:") t then
    .set len (if ((t.drop 18).dropWhile isspace).map lower = text "chunked" then true else chunked)
  else .set len chunked

/-- the headers: those given to the caller, and the framing of the body (`none`: failure), and what follows -/
inductive Heads (fin : Bool) : Nat → Bool → Text → List (Text × Text) → Option (Nat × Bool) → Text → Prop where
  | done {len chunked s t rest} : line fin s = .got t rest → cut t = [] → Heads fin len chunked s [] (some (len, chunked)) rest
  | bad {len chunked s rest} : line fin s = .bad rest → Heads fin len chunked s [] none rest
  | badLen {len chunked s t rest} : line fin s = .got t rest → cut t ≠ [] → framing (cut t) len chunked = .bad → Heads fin len chunked s [] none rest
  | field {len chunked s t rest len' chunked' ps o rest'} : line fin s = .got t rest → cut t ≠ [] → framing (cut t) len chunked = .set len' chunked' →
      Heads fin len' chunked' rest ps o rest' → Heads fin len chunked s (field (cut t) ++ ps) o rest'

/-- the body -/
structure Body where
  got : Text
  res : Res
  /-- the caller's buffer is emptied -/
  wiped : Bool
  rest : Text

/-- the size in a chunk's first line is `n` -/
def SizeIs (t : Text) (n : Nat) : Prop := ∃ z, scanHex (cut t) = some z ∧ fitsHex z ∧ (z % 2 ^ 32).toNat = n

/-- chunks; `cap`: how many bytes can still be stored -/
inductive Chunks (fin : Bool) : Nat → Text → Body → Prop where
  | bad {cap s rest} : line fin s = .bad rest → Chunks fin cap s ⟨[], .readDataFailed, false, rest⟩
  | notHex {cap s t rest} : line fin s = .got t rest → scanHex (cut t) = none → Chunks fin cap s ⟨[], .receiveResponseFailed, false, rest⟩
  | last {cap s t rest} : line fin s = .got t (13 :: 10 :: rest) → SizeIs t 0 → Chunks fin cap s ⟨[], .ok, false, rest⟩
  | lastBad {cap s t a b rest} : line fin s = .got t (a :: b :: rest) → SizeIs t 0 → ¬ (a = 13 ∧ b = 10) →
      Chunks fin cap s ⟨[], .readDataFailed, true, rest⟩
  | chunk {cap s t d rest o} : line fin s = .got t (d ++ 13 :: 10 :: rest) → SizeIs t d.length → d ≠ [] → d.length < 2 ^ 31 → d.length ≤ cap →
      Chunks fin (cap - d.length) rest o → Chunks fin cap s { o with got := d ++ o.got }
  | chunkBad {cap s t d a b rest} : line fin s = .got t (d ++ a :: b :: rest) → SizeIs t d.length → d ≠ [] → d.length < 2 ^ 31 → d.length ≤ cap →
      ¬ (a = 13 ∧ b = 10) → Chunks fin cap s ⟨d, .readDataFailed, false, rest⟩

/-- the response -/
structure Reply where
  status : Option Int
  heads : List (Text × Text)
  body : Body

/-- no body -/
def Body.fail (rest : Text) : Body := ⟨[], .readDataFailed, false, rest⟩

/-- What is made of the bytes `s` that come from the peer; `c`: the caller's buffer. -/
inductive Says (fin : Bool) (c : Option Content) : Text → Reply → Prop where
  | bad {s rest} : line fin s = .bad rest → Says fin c s ⟨none, [], .fail rest⟩
  | notHttp {s t rest} : line fin s = .got t rest → scanStatus (cut t) = none → Says fin c s ⟨none, [], .fail rest⟩
  | headBad {s t rest z ps rest'} : line fin s = .got t rest → scanStatus (cut t) = some z → fitsInt z →
      Heads fin 0 false rest ps none rest' → Says fin c s ⟨some z, ps, .fail rest'⟩
  | plain {s t rest z ps d rest'} : line fin s = .got t rest → scanStatus (cut t) = some z → fitsInt z →
      Heads fin 0 false rest ps (some (d.length, false)) (d ++ rest') → d.length < 2 ^ 31 → (d = [] ∨ c = none ∨ c = some none) →
      Says fin c s ⟨some z, ps, ⟨d, .ok, false, rest'⟩⟩
  | chunked {s t rest z ps n rest' o} : line fin s = .got t rest → scanStatus (cut t) = some z → fitsInt z →
      Heads fin 0 false rest ps (some (n, true)) rest' → Chunks fin (maxObj - ((c.getD none).getD []).length) rest' o → Says fin c s ⟨some z, ps, o⟩

/-- the caller's headers after `ps` were added one after the other -/
def Given (rel : Prop) (a : Option Hdrs) (ps : List (Text × Text)) (a' : Option Hdrs) : Prop :=
  match a with
  | none => a' = none
  | some hs => ∃ h, a' = some h ∧ Built rel hs ps h

/-- the caller's objects afterwards -/
def Filled (rel : Prop) (x : Args) (y : Reply) (x' : Args) : Prop :=
  ∃ hs', Given rel x.rhdrs y.heads hs' ∧
    x' = { x with
      status := match y.status with
        | some z => x.status.map fun _ => intV z
        | none => x.status
      rhdrs := hs'
      rcontent := x.rcontent.map fun b => if y.body.wiped then none else over b y.body.got }

/-! ## Calls -/

/-- a handle: its connection object, the host, the certificate, the connection -/
structure Obj where
  con : Nat
  host : Text
  cert : Option Text
  wire : Option Wire

/-- the connection object of a handle -/
def conOf (a : Option Obj) : Nat := (a.map Obj.con).getD 0

/-- `HTTPAPI_CreateConnection` -/
def CreateE (c : Nat) (host : Option Text) (a : Option Obj) (evs : List Ev) : Prop :=
  match host with
  | none => a = none ∧ evs = []
  | some t => if t.length < 64 then a = some ⟨c, t, none, none⟩ ∧ evs = [.construct c] else a = none ∧ ∃ c', evs = [.construct c', .destruct c']

/-- `HTTPAPI_CloseConnection` -/
def CloseE (c : Nat) (a : Option Obj) (evs : List Ev) : Prop :=
  evs = match a with
    | none => []
    | some o => (if o.wire.isSome then [.close c] else []) ++ [.destruct c]

/-- the connection is opened, if it is not -/
def ConnectE (Peer : Text → Wire → Prop) (c : Nat) (o : Obj) (r : Res) (w' : Option Wire) (evs : List Ev) : Prop :=
  match o.wire with
  | some w => r = .ok ∧ w' = some w ∧ evs = []
  | none =>
    let loaded := match o.cert with
      | none => []
      | some t => [Ev.cert c t true]
    (∃ t, o.cert = some t ∧ r = .error ∧ w' = none ∧ evs = [.cert c t false]) ∨
    (∃ e, e ≠ 0 ∧ r = .error ∧ w' = none ∧ evs = loaded ++ [.connect c o.host 443 e]) ∨
    (∃ w, r = .ok ∧ w' = some w ∧ Peer o.host w ∧ w.out = [] ∧ w.pos = 0 ∧ evs = loaded ++ [.connect c o.host 443 0])

/-- The request can be sent: its parts are not longer than `send_all` can take.  -/
def Sendable (x : Args) : Prop := (∀ hs, x.hdrs = some hs → ∀ p ∈ hs, (headerLine p).length < 2 ^ 31) ∧ x.body.length < 2 ^ 31

/-- On every connection that the call may use, the peer's answer to the request can be read. -/
def Answered (rel W : Prop) (Peer : Text → Wire → Prop) (o : Obj) (x : Args) : Prop :=
  ∀ path hs w w', x.path = some path → x.hdrs = some hs → (o.wire = some w ∨ (o.wire = none ∧ Peer o.host w ∧ w.out = [] ∧ w.pos = 0)) →
    Sends rel W (pieces x path hs) w .ok w' → ∃ y, Says w'.fin x.rcontent w'.ins y

/-- `HTTPAPI_ExecuteRequest`: handle and object before, arguments before, result, arguments after, connection after, calls made -/
def ExecE (rel W : Prop) (Peer : Text → Wire → Prop) (c : Nat) (a : Option Obj) (x : Args) (r : Res) (x' : Args) (a' : Option Obj) (evs : List Ev) : Prop :=
  match a, x.path, x.hdrs with
  | some o, some path, some hs =>
    if 5 ≤ x.type then r = .invalidArg ∧ x' = x ∧ a' = a ∧ evs = []
    else ∃ r1 w1, ConnectE Peer c o r1 w1 evs ∧
      ((r1 ≠ .ok ∧ r = r1 ∧ x' = x ∧ a' = some { o with wire := w1 }) ∨
       (r1 = .ok ∧ ∃ w, w1 = some w ∧
        ((4096 ≤ (requestLine x path).length ∧ r = .stringProcessingError ∧ x' = x ∧ a' = some { o with wire := some w }) ∨
         ((requestLine x path).length < 4096 ∧ ∃ r2 w2, Sends rel W (pieces x path hs) w r2 w2 ∧
          ((r2 ≠ .ok ∧ r = r2 ∧ x' = x ∧ a' = some { o with wire := some w2 }) ∨
           (r2 = .ok ∧ ∃ y, Says w2.fin x.rcontent w2.ins y ∧ r = y.body.res ∧ Filled rel x y x' ∧
             a' = some { o with wire := some (w2.to y.body.rest) }))))))
  | _, _, _ => r = .invalidArg ∧ x' = x ∧ a' = a ∧ evs = []

/-- `HTTPAPI_SetOption` -/
def SetE (a : Option Obj) (name value : Option Text) (r : Res) (a' : Option Obj) : Prop :=
  match a, name, value with
  | some o, some n, some v => if n = text "TrustedCerts" then r = .ok ∧ a' = some { o with cert := some v } else r = .invalidArg ∧ a' = a
  | _, _, _ => r = .invalidArg ∧ a' = a

end Verif.Mb
