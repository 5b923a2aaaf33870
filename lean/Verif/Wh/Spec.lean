import Verif.Wh.Model
import Verif.Curl.Spec
/-! # What the calls of `httpapi.h` do on top of WinHTTP, and what is assumed of it -/
namespace Verif.Wh
open Verif.Headers (Hdrs StoreE)
open Verif.Buffer (Content)
open Verif.Curl (Args)
open Verif.Sas (text)

abbrev Text := List UInt8
/-- a wide text: code units -/
abbrev Wide := List Nat

/-! ## WinHTTP -/

/-- the conversions of the code page; `none`: the text cannot be converted -/
structure Codec where
  widen : Text → Option Wide
  narrow : Wide → Option Text

/-- Calls received by WinHTTP, and what it did. -/
inductive Ev where
  /-- a session was asked for: the handle, or 0 -/
  | session (s : Nat)
  /-- a connection of the session `s`: the handle, or 0 -/
  | connect (s : Nat) (host : Wide) (port c : Nat)
  /-- a request on the connection `c`: the handle, or 0 -/
  | openRequest (c : Nat) (verb : Text) (path : Wide) (q : Nat)
  | timeouts (q : Nat) (resolve connect send receive : Int) (r : Bool)
  | security (q flags : Nat) (r : Bool)
  /-- the request with these headers and this body -/
  | send (q : Nat) (headers : Wide) (body : Text) (r : Bool)
  | receive (q : Nat) (r : Bool)
  | status (q : Nat) (x : Option Nat)
  /-- bytes of the body that can be read; bytes that were read -/
  | avail (q : Nat) (x : Option Nat)
  | read (q : Nat) (x : Option Text)
  /-- size of the headers of the response; the headers -/
  | rawSize (q len : Nat)
  | raw (q : Nat) (x : Option Wide)
  /-- a handle of any kind was closed -/
  | close (h : Nat)
  deriving DecidableEq, Repr

/-- a wide text as slots -/
def wideV (w : Wide) : List Val := w.map .int

/-- `p` points to a NUL-terminated wide string -/
def WStr (p : Ptr) (w : Wide) : HProp := ∃∃ rest : List Val, (0 ∉ w) ⋏ p ↦ (wideV w ++ .int 0 :: rest)

/-- what is in the array after `n` bytes were announced and read to the end of the block `p` -/
def ReadR (Net : List Ev → HProp) (tr : List Ev) (q p n : Nat) (head hole : List Val) : Option Nat → HProp
  | none => ∃∃ tl : List Val, (tl.length = n) ⋏ Net (tr ++ [.read q none]) ∗ p ↦ (head ++ tl)
  | some k => ∃∃ bs : Text, (bs.length = k ∧ k ≤ n) ⋏ Net (tr ++ [.read q (some bs)]) ∗ p ↦ (head ++ bytesV bs ++ hole.drop k)

/-- what is in the block after the headers of the response were asked for -/
def RawR (Net : List Ev → HProp) (tr : List Ev) (q p : Nat) (r : Bool) : HProp :=
  if r then ∃∃ w : Wide, Net (tr ++ [.raw q (some w)]) ∗ WStr p w
  else ∃∃ b : Block, Net (tr ++ [.raw q none]) ∗ p ↦ b

/-- Contract of WinHTTP and the conversions.  `Net tr`: the memory of WinHTTP after exactly the calls `tr`.  `Sess s`, `Con c`, `Req q n`:
a session, a connection and a request, obtained from WinHTTP and given up to `WinHttpCloseHandle`; the request can announce bytes of the
response at most `n` more times (so that every response ends).  A conversion is a function of the text and yields less than 2³¹ characters;
the conversion of `NULL` fails.  The headers of a response have less than 2³² - 2 bytes. -/
structure Honours (rel : Prop) (lib : Lib) (W : Codec) (Net : List Ev → HProp) (Sess Con : Nat → HProp) (Req : Nat → Nat → HProp) : Prop where
  wide_ok : ∀ t w, W.widen t = some w → 0 ∉ w ∧ w.length + 1 < 2 ^ 31
  narrow_ok : ∀ w t, W.narrow w = some t → 0 ∉ t ∧ t.length + 1 < 2 ^ 31
  widenSize : ∀ s o, Triple rel (Arg s o) (lib.widen s 0 0)
    (fun r => (r = match o.bind W.widen with | some w => w.length + 1 | none => 0) ⋏ Arg s o)
  widen : ∀ s t w dst n b, W.widen t = some w → w.length + 1 ≤ n → n ≤ b.length → Triple rel (CStr s t ∗ dst ↦ b) (lib.widen s dst n)
    (fun r => (r = w.length + 1) ⋏ CStr s t ∗ dst ↦ (wideV w ++ .int 0 :: b.drop (w.length + 1)))
  widenFails : ∀ s t dst n b, W.widen t = none → Triple rel (CStr s t ∗ dst ↦ b) (lib.widen s dst n) (fun r => (r = 0) ⋏ CStr s t ∗ dst ↦ b)
  narrowSize : ∀ p pre w rest, 0 ∉ w → Triple rel (p ↦ (pre ++ (wideV w ++ .int 0 :: rest))) (lib.narrow p pre.length 0 0)
    (fun r => (r = match W.narrow w with | some t => t.length + 1 | none => 0) ⋏ p ↦ (pre ++ (wideV w ++ .int 0 :: rest)))
  narrow : ∀ p pre w rest t dst n b, 0 ∉ w → W.narrow w = some t → t.length + 1 ≤ n → n ≤ b.length →
    Triple rel (p ↦ (pre ++ (wideV w ++ .int 0 :: rest)) ∗ dst ↦ b) (lib.narrow p pre.length dst n)
      (fun r => (r = t.length + 1) ⋏ p ↦ (pre ++ (wideV w ++ .int 0 :: rest)) ∗ dst ↦ (bytesV t ++ .byte 0 :: b.drop (t.length + 1)))
  openSession : ∀ tr, Triple rel (Net tr) lib.openSession (fun s => Net (tr ++ [.session s]) ∗ if s = 0 then emp else Sess s)
  connect : ∀ s p w port tr, Triple rel (Net tr ∗ Sess s ∗ WStr p w) (lib.connect s p port)
    (fun c => Net (tr ++ [.connect s w port c]) ∗ Sess s ∗ WStr p w ∗ if c = 0 then emp else Con c)
  openRequest : ∀ c verb p w tr, Triple rel (Net tr ∗ Con c ∗ WStr p w) (lib.openRequest c verb p)
    (fun q => Net (tr ++ [.openRequest c verb w q]) ∗ Con c ∗ WStr p w ∗ if q = 0 then emp else ∃∃ n, Req q n)
  setTimeouts : ∀ q n t1 t2 t3 t4 tr, Triple rel (Net tr ∗ Req q n) (lib.setTimeouts q t1 t2 t3 t4)
    (fun r => Net (tr ++ [.timeouts q t1 t2 t3 t4 r]) ∗ ∃∃ m, Req q m)
  setSecurity : ∀ q n f tr, Triple rel (Net tr ∗ Req q n) (lib.setSecurity q f) (fun r => Net (tr ++ [.security q f r]) ∗ ∃∃ m, Req q m)
  sendRequest : ∀ q n h w p bs len tr, len ≤ bs.length → Triple rel (Net tr ∗ Req q n ∗ WStr h w ∗ Data p bs) (lib.sendRequest q h p len len)
    (fun r => Net (tr ++ [.send q w (bs.take len) r]) ∗ (∃∃ m, Req q m) ∗ WStr h w ∗ Data p bs)
  receiveResponse : ∀ q n tr, Triple rel (Net tr ∗ Req q n) (lib.receiveResponse q) (fun r => Net (tr ++ [.receive q r]) ∗ ∃∃ m, Req q m)
  queryStatus : ∀ q n tr, Triple rel (Net tr ∗ Req q n) (lib.queryStatus q) (fun x => Net (tr ++ [.status q x]) ∗ ∃∃ m, Req q m)
  queryDataAvailable : ∀ q n tr, Triple rel (Net tr ∗ Req q n) (lib.queryDataAvailable q)
    (fun x => ∃∃ m : Nat, (∀ a, x = some a → a < 2 ^ 32 ∧ (a ≠ 0 → m < n)) ⋏ Net (tr ++ [.avail q x]) ∗ Req q m)
  readData : ∀ q n p k head hole tr, hole.length = k → Triple rel (Net tr ∗ Req q n ∗ p ↦ (head ++ hole)) (lib.readData q p head.length k)
    (fun x => Req q n ∗ ReadR Net tr q p k head hole x)
  rawSize : ∀ q n len tr, Triple rel (Net tr ∗ Req q n) (lib.rawSize q len) (fun r => (r + 2 < 2 ^ 32) ⋏ Net (tr ++ [.rawSize q r]) ∗ ∃∃ m, Req q m)
  rawHeaders : ∀ q n p b len tr, len ≤ 2 * b.length → Triple rel (Net tr ∗ Req q n ∗ p ↦ b) (lib.rawHeaders q p len)
    (fun r => (∃∃ m, Req q m) ∗ RawR Net tr q p r)
  closeSession : ∀ s tr, Triple rel (Net tr ∗ Sess s) (lib.closeHandle s) (fun _ => Net (tr ++ [.close s]))
  closeConnection : ∀ c tr, Triple rel (Net tr ∗ Con c) (lib.closeHandle c) (fun _ => Net (tr ++ [.close c]))
  closeRequest : ∀ q n tr, Triple rel (Net tr ∗ Req q n) (lib.closeHandle q) (fun _ => Net (tr ++ [.close q]))

/-! ## Connections -/

/-- what a connection handle stands for -/
structure Obj where
  con : Nat
  timeout : Nat
  deriving DecidableEq, Repr

/-- `HTTPAPI_Init`: number of users and session (0 if there are no users) before and after -/
def InitE (n s : Nat) (r : Res) (n' s' : Nat) (evs : List Ev) : Prop :=
  if n = 0 then (r = .initFailed ∧ n' = 0 ∧ s' = 0 ∧ evs = [.session 0]) ∨ (s' ≠ 0 ∧ r = .ok ∧ n' = 1 ∧ evs = [.session s'])
  else r = .ok ∧ n' = n + 1 ∧ s' = s ∧ evs = []

/-- `HTTPAPI_Deinit` -/
def DeinitE (n s : Nat) (n' s' : Nat) (evs : List Ev) : Prop :=
  n' = n - 1 ∧ if n = 1 then s' = 0 ∧ evs = [.close s] else s' = s ∧ evs = []

/-- what `HTTPAPI_CreateConnection` gives: nothing, a connection, or a handle that is not one -/
inductive Conn where
  | none
  | good (o : Obj)
  | broken
  deriving DecidableEq, Repr

/-- `HTTPAPI_CreateConnection` -/
def CreateE (rel : Prop) (W : Codec) (n s : Nat) (host : Option Text) (a : Conn) (evs : List Ev) : Prop :=
  if n = 0 then a = .none ∧ evs = []
  else
    (a = .none ∧ ¬ rel ∧ evs = []) ∨
    (a = .broken ∧ (¬ rel ∨ host.bind W.widen = Option.none) ∧ evs = []) ∨
    ∃ w c, host.bind W.widen = some w ∧ evs = [.connect s w 443 c] ∧ a = if c = 0 then .none else .good ⟨c, 30000⟩

/-- `HTTPAPI_CloseConnection` -/
def CloseE (n : Nat) (a : Option Obj) (evs : List Ev) : Prop :=
  evs = if n = 0 then [] else match a with
    | none => []
    | some o => [.close o.con]

/-! ## Options -/

/-- `HTTPAPI_SetOption`; `v`: the number the value points to -/
def SetE (name : Option Text) (v : Option Nat) (a : Option Obj) (r : Res) (a' : Option Obj) : Prop :=
  match a, name, v with
  | some o, some t, some v =>
    if t = text "timeout" then r = .ok ∧ a' = some { o with timeout := v % 2 ^ 32 } else r = .invalidArg ∧ a' = a
  | _, _, _ => r = .invalidArg ∧ a' = a

/-- `HTTPAPI_CloneOption`: the copy -/
def CloneE (oom : Prop) (name : Option Text) (v : Option Nat) (out : Bool) (r : Res) (copy : Option Nat) : Prop :=
  match name, v, out with
  | some t, some v, true =>
    if t = text "timeout" then (r = .ok ∧ copy = some (v % 2 ^ 32)) ∨ (r = .error ∧ copy = none ∧ oom)
    else r = .invalidArg ∧ copy = none
  | _, _, _ => r = .invalidArg ∧ copy = none

/-! ## Requests -/

/-- the name of a method -/
def verbOf : Nat → Text
  | 0 => text "GET"
  | 1 => text "POST"
  | 2 => text "PUT"
  | 3 => text "DELETE"
  | _ => text "PATCH"

/-- the headers as they are sent: every line ends in CR LF -/
def reqText (hs : Hdrs) : Text := hs.flatMap fun p => p.1 ++ [58, 32] ++ p.2 ++ [13, 10]

/-- the buffer after `a` bytes were announced and `bs` arrived: the rest is left undefined -/
def grown (c : Content) (a : Nat) (bs : Text) : Content := some (c.getD [] ++ bytesV bs ++ List.replicate (a - bs.length) Val.undef)

/-- The body of the response is read into a buffer: content before, result, content afterwards, calls. -/
inductive BodyE (rel : Prop) (q : Nat) : Content → Res → Content → List Ev → Prop
  | failed {c} : BodyE rel q c .queryDataAvailableFailed c [.avail q none]
  | last {c} : BodyE rel q c .ok c [.avail q (some 0)]
  /-- no memory for the bytes -/
  | full {c a} : a ≠ 0 → (¬ rel ∨ maxObj < (c.getD []).length + a) → BodyE rel q c .error c [.avail q (some a)]
  | broken {c a} (tl : List Val) : a ≠ 0 → tl.length = a → BodyE rel q c .readDataFailed (some (c.getD [] ++ tl)) [.avail q (some a), .read q none]
  | nothing {c a} : a ≠ 0 → BodyE rel q c .readDataFailed (grown c a []) [.avail q (some a), .read q (some [])]
  | piece {c a bs r c' evs} : bs ≠ [] → bs.length ≤ a → BodyE rel q (grown c a bs) r c' evs →
      BodyE rel q c r c' (.avail q (some a) :: .read q (some bs) :: evs)

/-- the lines of a wide text, cut at CR and LF -/
def splitLines : Wide → Wide → List Wide
  | acc, [] => if acc = [] then [] else [acc]
  | acc, c :: cs => if c = 13 ∨ c = 10 then (if acc = [] then splitLines [] cs else acc :: splitLines [] cs) else splitLines (acc ++ [c]) cs
def linesOf (w : Wide) : List Wide := splitLines [] w

/-- name before the first colon, value after it -/
def nameOf (t : Text) : Text := t.takeWhile (· ≠ 58)
def valueOf (t : Text) : Text := (t.dropWhile (· ≠ 58)).drop 1

/-- The lines of the response are stored: headers before, result, headers afterwards, blocks lost.  Lines that cannot be converted, that
have no colon or for which there is no memory are passed over; a header that cannot be stored ends it, and its line is not released. -/
def LinesE (rel : Prop) (W : Codec) : List Wide → Hdrs → Res → Hdrs → Nat → Prop
  | [], hs, r, hs', k => r = .ok ∧ hs' = hs ∧ k = 0
  | w :: ws, hs, r, hs', k =>
    match W.narrow w with
    | none => LinesE rel W ws hs r hs' k
    | some t => (¬ rel ∧ LinesE rel W ws hs r hs' k) ∨
      if 58 ∈ t then ∃ r1 hs1, StoreE rel false (some hs) (some (nameOf t)) (some (valueOf t)) r1 (some hs1) ∧
        if r1 = .ok then LinesE rel W ws hs1 r hs' k else r = .httpHeadersFailed ∧ hs' = hs1 ∧ k = 1
      else LinesE rel W ws hs r hs' k

/-- the headers of the response are stored -/
def HeadersE (rel : Prop) (W : Codec) (q : Nat) (hs : Hdrs) (r : Res) (hs' : Hdrs) (evs : List Ev) (k : Nat) : Prop :=
  ∃ len,
    (r = .allocFailed ∧ hs' = hs ∧ ¬ rel ∧ evs = [.rawSize q len] ∧ k = 0) ∨
    -- WinHTTP does not give them: this is not reported
    (r = .ok ∧ hs' = hs ∧ evs = [.rawSize q len, .raw q none] ∧ k = 0) ∨
    ∃ w, evs = [.rawSize q len, .raw q (some w)] ∧ LinesE rel W (linesOf w) hs r hs' k

/-- the body of the response is stored, and then the headers; without a buffer the body is read all the same -/
def AnswerE (rel : Prop) (W : Codec) (q code : Nat) (x : Args) (r : Res) (x' : Args) (evs : List Ev) (k : Nat) : Prop :=
  (x.rcontent = none ∧ ¬ rel ∧ r = .error ∧ x' = { x with status := x.status.map fun _ => .int code } ∧ evs = [] ∧ k = 0) ∨
  ∃ r1 c' evs1, BodyE rel q (x.rcontent.getD none) r1 c' evs1 ∧
    (((r1 ≠ .ok ∨ x.rhdrs = none) ∧ r = r1 ∧ x' = { x with status := x.status.map (fun _ => .int code), rcontent := x.rcontent.map fun _ => c' } ∧
        evs = evs1 ∧ k = 0) ∨
     (r1 = .ok ∧ ∃ hs hs' evs2, x.rhdrs = some hs ∧ HeadersE rel W q hs r hs' evs2 k ∧
        x' = { x with status := x.status.map (fun _ => .int code), rcontent := x.rcontent.map (fun _ => c'), rhdrs := some hs' } ∧ evs = evs1 ++ evs2))

/-- the response is received -/
def ReceiveE (rel : Prop) (W : Codec) (q : Nat) (x : Args) (r : Res) (x' : Args) (evs : List Ev) (k : Nat) : Prop :=
  (r = .receiveResponseFailed ∧ x' = x ∧ evs = [.receive q false] ∧ k = 0) ∨
  (r = .queryHeadersFailed ∧ x' = x ∧ evs = [.receive q true, .status q none] ∧ k = 0) ∨
  ∃ code evs1, AnswerE rel W q code x r x' evs1 k ∧ evs = .receive q true :: .status q (some code) :: evs1

/-- the request `q` is sent -/
def OnE (rel : Prop) (W : Codec) (q timeout : Nat) (wh : Wide) (x : Args) (r : Res) (x' : Args) (evs : List Ev) (k : Nat) : Prop :=
  let t := Ev.timeouts q 0 60000 (asInt timeout) (asInt timeout)
  let s := Ev.send q wh (x.body.take (x.body.length % 2 ^ 32))
  (r = .setTimeoutsFailed ∧ x' = x ∧ evs = [t false] ∧ k = 0) ∨
  (r = .setOptionFailed ∧ x' = x ∧ evs = [t true, .security q 0 false] ∧ k = 0) ∨
  (r = .sendRequestFailed ∧ x' = x ∧ evs = [t true, .security q 0 true, s false] ∧ k = 0) ∨
  ∃ evs1, ReceiveE rel W q x r x' evs1 k ∧ evs = t true :: .security q 0 true :: s true :: evs1

/-- `HTTPAPI_ExecuteRequest`: number of users, connection, arguments before, result, arguments after, calls made, blocks lost -/
def ExecE (rel : Prop) (W : Codec) (n : Nat) (a : Option Obj) (x : Args) (r : Res) (x' : Args) (evs : List Ev) (k : Nat) : Prop :=
  if n = 0 then r = .notInit ∧ x' = x ∧ evs = [] ∧ k = 0
  else match a, x.path, x.hdrs with
  | some o, some path, some hs =>
    if 5 ≤ x.type then r = .invalidArg ∧ x' = x ∧ evs = [] ∧ k = 0
    else
      (r = .allocFailed ∧ (¬ rel ∨ maxObj < (reqText hs).length + 1) ∧ x' = x ∧ evs = [] ∧ k = 0) ∨
      (r = .stringProcessingError ∧ (¬ rel ∨ W.widen path = none ∨ W.widen (reqText hs) = none) ∧ x' = x ∧ evs = [] ∧ k = 0) ∨
      ∃ wp wh, W.widen path = some wp ∧ W.widen (reqText hs) = some wh ∧
        ((r = .openRequestFailed ∧ x' = x ∧ evs = [.openRequest o.con (verbOf x.type) wp 0] ∧ k = 0) ∨
         ∃ q evs1, q ≠ 0 ∧ OnE rel W q o.timeout wh x r x' evs1 k ∧ evs = .openRequest o.con (verbOf x.type) wp q :: (evs1 ++ [.close q]))
  | _, _, _ => r = .invalidArg ∧ x' = x ∧ evs = [] ∧ k = 0

end Verif.Wh
