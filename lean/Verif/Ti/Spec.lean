import Verif.Ti.Model
import Verif.Curl.Spec
/-! # What the calls of `httpapi.h` do on top of TI's `HTTPCli`, and what is assumed of it -/
namespace Verif.Ti
open Verif.Headers (Hdrs Pair StoreE)
open Verif.Buffer (Content)
open Verif.Curl (Args)
open Verif.Sas (text)

abbrev Text := List UInt8

/-! ## The library -/

/-- what a read gives: an error, or some bytes and whether there is more.  For headers, no bytes means that there are no more headers. -/
inductive Read where
  | err (r : Int)
  | data (bs : Text) (more : Bool)
  deriving DecidableEq, Repr

/-- Calls received by the library, and what it did. -/
inductive Ev where
  | resolve (host : Text) (r : Int) (a : Nat)
  | create (c : Nat)
  | connect (c a port : Nat) (r : Int)
  | disconnect (c : Nat)
  | delete (c : Nat)
  | request (c : Nat) (verb path : Text) (r : Int)
  | field (c : Nat) (name value : Text) (r : Int)
  | endFields (c : Nat) (r : Int)
  | body (c : Nat) (bs : Text) (r : Int)
  | status (c : Nat) (r : Int)
  | header (c : Nat) (x : Read)
  | content (c : Nat) (x : Read)
  deriving DecidableEq, Repr

/-- the part of a header line received so far from `c` -/
def lineStep (c : Nat) (acc : Text) : Ev → Text
  | .status c' _ => if c' = c then [] else acc
  | .header c' (.data bs more) => if c' = c then (if more then acc ++ bs else []) else acc
  | _ => acc
def lineSoFar (c : Nat) (tr : List Ev) : Text := tr.foldl (lineStep c) []

/-- the part of a body received so far from `c` -/
def bodyStep (c : Nat) (acc : Text) : Ev → Text
  | .status c' _ => if c' = c then [] else acc
  | .content c' (.data bs _) => if c' = c then acc ++ bs else acc
  | _ => acc
def bodySoFar (c : Nat) (tr : List Ev) : Text := tr.foldl (bodyStep c) []

/-- a piece of a header line: only the last one ends in a NUL, which is counted; the line has less than 2³¹ bytes -/
def HeaderPiece (sofar bs : Text) (more : Bool) : Prop :=
  (if more then 0 ∉ bs else bs = [] ∨ ∃ t, bs = t ++ [0] ∧ 0 ∉ t) ∧ (sofar ++ bs).length < 2 ^ 31

/-- the memory of the array `cb` -/
def Array128 (cb : Ptr) : HProp := ∃∃ b : Block, (b.length = CONTENT_BUF_LEN) ⋏ cb ↦ b

/-- what is in the array after a read, and how long the response can still be -/
def Got (Net : List Ev → HProp) (Cli : Nat → Nat → HProp) (tr : List Ev) (c cb n : Nat) (mk : Read → Ev) (ok : Text → Bool → Prop) (goes : Text → Bool → Prop)
    (x : Int × Bool) : HProp :=
  if x.1 < 0 then Net (tr ++ [mk (.err x.1)]) ∗ (∃∃ m, Cli c m) ∗ Array128 cb
  else ∃∃ (bs : Text) (tail : List Val) (m : Nat), (x.1 = bs.length ∧ bs.length + tail.length = CONTENT_BUF_LEN ∧ ok bs x.2 ∧ (goes bs x.2 → m < n)) ⋏
    Net (tr ++ [mk (.data bs x.2)]) ∗ Cli c m ∗ cb ↦ (bytesV bs ++ tail)

/-- Contract of `HTTPCli`.  `Net tr`: its memory after exactly the calls `tr`.  `Cli c n`: a client, obtained from `HTTPCli_create`, given up
to `HTTPCli_delete`, that can deliver at most `n` more pieces of the response (so that every response ends). -/
structure Honours (rel : Prop) (lib : Lib) (Net : List Ev → HProp) (Cli : Nat → Nat → HProp) : Prop where
  initSockAddr : ∀ s t tr, Triple rel (Net tr ∗ CStr s t) (lib.initSockAddr s) (fun x => Net (tr ++ [.resolve t x.1 x.2]) ∗ CStr s t)
  create : ∀ tr, Triple rel (Net tr) lib.create (fun c => Net (tr ++ [.create c]) ∗ if c = 0 then emp else ∃∃ m, Cli c m)
  connect : ∀ c n a p tr, Triple rel (Net tr ∗ Cli c n) (lib.connect c a p) (fun r => Net (tr ++ [.connect c a p r]) ∗ ∃∃ m, Cli c m)
  disconnect : ∀ c n tr, Triple rel (Net tr ∗ Cli c n) (lib.disconnect c) (fun _ => Net (tr ++ [.disconnect c]) ∗ ∃∃ m, Cli c m)
  delete : ∀ c n tr, Triple rel (Net tr ∗ Cli c n) (lib.delete c) (fun _ => Net (tr ++ [.delete c]))
  sendRequest : ∀ c n s t s' t' tr, Triple rel (Net tr ∗ Cli c n ∗ CStr s t ∗ CStr s' t') (lib.sendRequest c s s')
    (fun r => Net (tr ++ [.request c t t' r]) ∗ (∃∃ m, Cli c m) ∗ CStr s t ∗ CStr s' t')
  sendField : ∀ c n V s t s' t' tr, Pair V s t s' t' → Triple rel (Net tr ∗ Cli c n ∗ V) (lib.sendField c s s' false)
    (fun r => Net (tr ++ [.field c t t' r]) ∗ (∃∃ m, Cli c m) ∗ V)
  sendLast : ∀ c n tr, Triple rel (Net tr ∗ Cli c n) (lib.sendField c .null .null true) (fun r => Net (tr ++ [.endFields c r]) ∗ ∃∃ m, Cli c m)
  sendRequestBody : ∀ c n p bs tr, Triple rel (Net tr ∗ Cli c n ∗ Data p bs) (lib.sendRequestBody c p bs.length)
    (fun r => Net (tr ++ [.body c bs r]) ∗ (∃∃ m, Cli c m) ∗ Data p bs)
  getResponseStatus : ∀ c n tr, Triple rel (Net tr ∗ Cli c n) (lib.getResponseStatus c) (fun r => Net (tr ++ [.status c r]) ∗ ∃∃ m, Cli c m)
  readResponseHeader : ∀ c n cb tr, Triple rel (Net tr ∗ Cli c n ∗ Array128 cb) (lib.readResponseHeader c cb CONTENT_BUF_LEN)
    (Got Net Cli tr c cb n (.header c) (HeaderPiece (lineSoFar c tr)) fun bs _ => bs ≠ [])
  readResponseBody : ∀ c n cb tr, Triple rel (Net tr ∗ Cli c n ∗ Array128 cb) (lib.readResponseBody c cb CONTENT_BUF_LEN)
    (Got Net Cli tr c cb n (.content c) (fun bs _ => (bodySoFar c tr ++ bs).length < 2 ^ 31) fun _ more => more = true)

/-! ## Connections -/

/-- `HTTPAPI_CreateConnection`: the client, or none -/
def CreateE (host : Text) (a : Option Nat) (evs : List Ev) : Prop :=
  (∃ r x, r < 0 ∧ a = none ∧ evs = [.resolve host r x]) ∨
  ∃ r x, 0 ≤ r ∧
    ((a = none ∧ evs = [.resolve host r x, .create 0]) ∨
     ∃ c, c ≠ 0 ∧
      ((∃ e, e < 0 ∧ a = none ∧ evs = [.resolve host r x, .create c, .connect c x 443 e, .delete c]) ∨
       (∃ e, 0 ≤ e ∧ a = some c ∧ evs = [.resolve host r x, .create c, .connect c x 443 e])))

/-- `HTTPAPI_CloseConnection` -/
def CloseE (a : Option Nat) (evs : List Ev) : Prop :=
  evs = match a with
    | none => []
    | some c => [.disconnect c, .delete c]

/-! ## Requests -/

/-- the name of a method -/
def verbOf : Nat → Text
  | 0 => text "GET"
  | 1 => text "POST"
  | 2 => text "PUT"
  | 3 => text "DELETE"
  | _ => text "PATCH"

/-- a header line: the name before the first colon and the value after it, without leading spaces -/
def split (l : Text) : Text × Text := (l.takeWhile (· ≠ 58), ((l.dropWhile (· ≠ 58)).drop 1).dropWhile (· = 32))

/-- the lines of the headers, in the order they are sent: the last header first -/
def linesOf (hs : Hdrs) : List Text := (hs.map fun p => p.1 ++ [58, 32] ++ p.2).reverse

/-- the fields are sent: result and calls -/
def FieldsE (rel : Prop) (c : Nat) : List Text → Res → List Ev → Prop
  | [], r, evs => r = .ok ∧ evs = []
  | l :: ls, r, evs =>
    -- no memory for the line
    (r = .queryHeadersFailed ∧ evs = [] ∧ (¬ rel ∨ maxObj < l.length + 1)) ∨
    (∃ e, e < 0 ∧ r = .sendRequestFailed ∧ evs = [.field c (split l).1 (split l).2 e]) ∨
    (∃ e rest, 0 ≤ e ∧ evs = .field c (split l).1 (split l).2 e :: rest ∧ FieldsE rel c ls r rest)

/-- the end of the fields and the body are sent -/
def TailE (c : Nat) (body : Text) (r : Res) (evs : List Ev) : Prop :=
  (∃ e, e < 0 ∧ r = .sendRequestFailed ∧ evs = [.endFields c e]) ∨
  ∃ e, 0 ≤ e ∧
    ((body = [] ∧ r = .ok ∧ evs = [.endFields c e]) ∨
     (body ≠ [] ∧ ∃ e2, evs = [.endFields c e, .body c body e2] ∧ r = if e2 < 0 then .sendRequestFailed else .ok))

/-- the request is sent: result and calls -/
def SendE (rel : Prop) (c : Nat) (verb path : Text) (lines : List Text) (body : Text) (r : Res) (evs : List Ev) : Prop :=
  (∃ e, e < 0 ∧ r = .sendRequestFailed ∧ evs = [.request c verb path e]) ∨
  ∃ e r1 evs1, 0 ≤ e ∧ FieldsE rel c lines r1 evs1 ∧
    ((r1 ≠ .ok ∧ r = r1 ∧ evs = .request c verb path e :: evs1) ∨
     (r1 = .ok ∧ ∃ evs2, TailE c body r evs2 ∧ evs = .request c verb path e :: (evs1 ++ evs2)))

/-- The headers of the response are stored.  `cur`: the part of the line that has arrived; `xs`: what is read; result; headers afterwards.
A line is a text and a NUL. -/
def HeadersE (rel : Prop) : Text → List Read → Hdrs → Res → Hdrs → Prop
  | _, [], _, _, _ => False
  | _, .err e :: l, hs, r, hs' => e < 0 ∧ l = [] ∧ r = .receiveResponseFailed ∧ hs' = hs
  | cur, .data bs more :: l, hs, r, hs' =>
    if bs = [] then l = [] ∧ r = .ok ∧ hs' = hs
    else
      -- no memory for the line
      (l = [] ∧ r = .allocFailed ∧ hs' = hs ∧ ¬ rel) ∨
      (if more then HeadersE rel (cur ++ bs) l hs r hs'
       else ∃ line, cur ++ bs = line ++ [0] ∧
        if 58 ∈ line then ∃ r1 hs1, StoreE rel false (some hs) (some (split line).1) (some (split line).2) r1 (some hs1) ∧
          if r1 = .ok then HeadersE rel [] l hs1 r hs' else l = [] ∧ r = .httpHeadersFailed ∧ hs' = hs1
        else l = [] ∧ r = .httpHeadersFailed ∧ hs' = hs)

/-- the buffer, after `got` was written over its beginning and its size has grown by as much -/
def over (c : Content) (got : Text) : Content :=
  if got = [] then c else some (bytesV got ++ (c.getD [] ++ List.replicate got.length Val.undef).drop got.length)

/-- The body of the response is stored (`xs`: what is read); a failure is not reported. -/
def BodyE (rel : Prop) (c : Content) : Text → List Read → Content → Prop
  | _, [], _ => False
  | got, .err e :: l, c' => e < 0 ∧ l = [] ∧ c' = over c got
  | got, .data bs more :: l, c' =>
    (bs ≠ [] ∧ l = [] ∧ c' = over c got ∧ (¬ rel ∨ maxObj < (c.getD []).length + (got ++ bs).length)) ∨
    (if more then BodyE rel c (got ++ bs) l c' else l = [] ∧ c' = over c (got ++ bs))

/-- how many blocks are lost: the block of the line, if there was one and it could not be enlarged -/
def leaks (r : Res) (b : Bool) : Nat := if r = .allocFailed ∧ b = true then 1 else 0

/-- the response is received; `k` blocks of memory are lost -/
def ReceiveE (rel : Prop) (c : Nat) (x : Args) (hs : Hdrs) (r : Res) (x' : Args) (evs : List Ev) (k : Nat) : Prop :=
  (∃ e, e < 0 ∧ r = .receiveResponseFailed ∧ x' = x ∧ evs = [.status c e] ∧ k = 0) ∨
  ∃ e xs r1 hs', 0 ≤ e ∧ HeadersE rel [] xs hs r1 hs' ∧ k = leaks r1 (decide (2 ≤ xs.length)) ∧
    ((r1 ≠ .ok ∧ r = r1 ∧ x' = { x with status := some (.int e.toNat), rhdrs := some hs' } ∧ evs = .status c e :: xs.map (.header c)) ∨
     (r1 = .ok ∧ r = .ok ∧
      match x.rcontent with
      | none => x' = { x with status := some (.int e.toNat), rhdrs := some hs' } ∧ evs = .status c e :: xs.map (.header c)
      | some b => ∃ ys b', BodyE rel b [] ys b' ∧ x' = { x with status := some (.int e.toNat), rhdrs := some hs', rcontent := some b' } ∧
          evs = .status c e :: (xs.map (.header c) ++ ys.map (.content c))))

/-- `HTTPAPI_ExecuteRequest`: connection, arguments before, result, arguments after, calls made, blocks lost -/
def ExecE (rel : Prop) (a : Option Nat) (x : Args) (r : Res) (x' : Args) (evs : List Ev) (k : Nat) : Prop :=
  match a, x.path, x.status, x.rhdrs with
  | some c, some path, some _, some rh =>
    if 5 ≤ x.type then r = .invalidArg ∧ x' = x ∧ evs = [] ∧ k = 0
    else match x.hdrs with
      | none => r = .queryHeadersFailed ∧ x' = x ∧ evs = [] ∧ k = 0
      | some hs => ∃ r1 evs1, SendE rel c (verbOf x.type) path (linesOf hs) x.body r1 evs1 ∧
        ((r1 ≠ .ok ∧ r = r1 ∧ x' = x ∧ evs = evs1 ∧ k = 0) ∨
         (r1 = .ok ∧ ∃ evs2, ReceiveE rel c x rh r x' evs2 k ∧ evs = evs1 ++ evs2))
  | _, _, _, _ => r = .invalidArg ∧ x' = x ∧ evs = [] ∧ k = 0

end Verif.Ti
