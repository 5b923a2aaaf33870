import Verif.Curl.Model
import Verif.Headers.Props
import Verif.Buffer.Props
import Verif.Crt.Props
import Verif.World
/-! # What the calls of `httpapi.h` do on top of libcurl, and what is assumed of libcurl -/
namespace Verif.Curl
open Verif.Headers (Hdrs HdrR OHdr StoreE line)
open Verif.Buffer (Content Buf OBuf)
open Verif.Sas (text)

abbrev Text := List UInt8

/-! ## libcurl -/

/-- an option and its value; strings are copied by libcurl, other pointers are not followed -/
inductive Setting where
  | long (o : Long) (v : Int)
  | url (t : Text)
  | customRequest (t : Option Text)
  | httpHeader (l : Nat)
  | postFields (p : CharPtr)
  | writeHeader (p : Ptr)
  | headerFunction (f : Fn)
  | writeFunction (f : Fn)
  | writeData (p : Ptr)
  deriving DecidableEq, Repr

/-- the memory behind the value of an option, as far as it is read by `curl_easy_setopt` -/
def OptArg : Opt → Setting → HProp
  | .url s, .url t => CStr s t
  | .customRequest s, .customRequest t => Arg s t
  | .long o v, x => (x = .long o v) ⋏ emp
  | .httpHeader l, x => (x = .httpHeader l) ⋏ emp
  | .postFields p, x => (x = .postFields p) ⋏ emp
  | .writeHeader p, x => (x = .writeHeader p) ⋏ emp
  | .headerFunction f, x => (x = .headerFunction f) ⋏ emp
  | .writeFunction f, x => (x = .writeFunction f) ⋏ emp
  | .writeData p, x => (x = .writeData p) ⋏ emp
  | _, _ => False ⋏ emp

/-- the request method of an easy handle -/
inductive Method | get | post
  deriving DecidableEq, Repr

/-- the options of an easy handle -/
structure Cfg where
  method : Method := .get
  custom : Option Text := none
  url : Option Text := none
  headers : Nat := 0
  fields : CharPtr := .null
  size : Int := -1
  writeHeader : Ptr := 0
  headerFn : Fn := .null
  writeFn : Fn := .null
  writeData : Ptr := 0
  verbose : Int := 0
  timeout : Int := 0
  lowLimit : Int := 0
  lowTime : Int := 0
  fresh : Int := 0
  forbid : Int := 0
  version : Int := 0
  deriving DecidableEq, Repr

/-- `curl_easy_setopt`, as documented.  `CURLOPT_POSTFIELDS` also makes the request a `POST`. -/
def Cfg.set (k : Cfg) : Setting → Cfg
  | .long .verbose v => { k with verbose := v }
  | .long .timeoutMs v => { k with timeout := v }
  | .long .lowSpeedLimit v => { k with lowLimit := v }
  | .long .lowSpeedTime v => { k with lowTime := v }
  | .long .freshConnect v => { k with fresh := v }
  | .long .forbidReuse v => { k with forbid := v }
  | .long .httpVersion v => { k with version := v }
  | .long .httpGet v => if v = 0 then k else { k with method := .get }
  | .long .post v => { k with method := if v = 0 then .get else .post }
  | .long .postFieldSize v => { k with size := v }
  | .url t => { k with url := some t }
  | .customRequest t => { k with custom := t }
  | .httpHeader l => { k with headers := l }
  | .postFields p => { k with fields := p, method := .post }
  | .writeHeader p => { k with writeHeader := p }
  | .headerFunction f => { k with headerFn := f }
  | .writeFunction f => { k with writeFn := f }
  | .writeData p => { k with writeData := p }

/-- white space in a header line -/
def isSpace (c : UInt8) : Bool := c = 32 || (9 ≤ c && c ≤ 13)

/-- libcurl sends a custom header only if something is after the colon -/
def shown (l : Text) : Bool := ((l.dropWhile (· ≠ 58)).drop 1).any fun c => !isSpace c

/-- a request as libcurl sends it -/
structure Request where
  url : Text
  verb : Text
  headers : List Text
  body : Text
  timeout : Int
  lowLimit : Int
  lowTime : Int
  fresh : Int
  forbid : Int
  version : Int
  verbose : Int
  deriving DecidableEq, Repr

/-- the request of an easy handle; `lines`: the header list, `body`: the bytes behind `CURLOPT_POSTFIELDS` -/
def Cfg.request (k : Cfg) (url : Text) (lines : List Text) (body : Text) : Request :=
  { url := url
    verb := k.custom.getD (match k.method with | .get => text "GET" | .post => text "POST")
    headers := lines.filter shown
    body := body
    timeout := k.timeout, lowLimit := k.lowLimit, lowTime := k.lowTime, fresh := k.fresh, forbid := k.forbid, version := k.version
    verbose := k.verbose }

/-- Calls received by libcurl, and what it did. -/
inductive Ev where
  | globalInit (r : Int)
  | globalCleanup
  | easyInit (c : Nat)
  | easyCleanup (c : Nat)
  | set (c : Nat) (s : Setting) (r : Int)
  /-- `curl_easy_perform` was called and sent `q` -/
  | perform (c : Nat) (q : Request)
  /-- a piece of the response: header bytes, body bytes -/
  | header (c : Nat) (bs : Text)
  | body (c : Nat) (bs : Text)
  /-- `curl_easy_perform` returned `r` -/
  | done (c : Nat) (r : Int)
  /-- the response code was asked for -/
  | code (c : Nat) (r v : Int)
  deriving DecidableEq, Repr

/-- the options of the easy handle `c` after `tr`: a setting that was accepted counts -/
def cfgStep (c : Nat) (k : Cfg) : Ev → Cfg
  | .easyInit c' => if c' = c then {} else k
  | .set c' s r => if c' = c ∧ r = 0 then k.set s else k
  | _ => k
def cfg (c : Nat) (tr : List Ev) : Cfg := tr.foldl (cfgStep c) {}

/-- a running transfer: options, header lines, request body, and the response body so far -/
structure Transfer where
  cfg : Cfg
  lines : List Text
  body : Text
  got : Text

/-- a list of lines; `0` is the empty list -/
def Lines (Slist : Nat → List Text → HProp) (l : Nat) (ls : List Text) : HProp := if l = 0 then ((ls = []) ⋏ emp) else Slist l ls

/-- the memory of the request body: none for `GET`; otherwise `CURLOPT_POSTFIELDSIZE` bytes at `CURLOPT_POSTFIELDS`.  (Without
`CURLOPT_POSTFIELDS` and with another size than 0, libcurl would read from the standard input.) -/
def BodyR (k : Cfg) (bs : Text) : HProp :=
  match k.method with
  | .get => (bs = []) ⋏ emp
  | .post => (k.size = bs.length) ⋏ Data k.fields bs

/-- Memory for a further piece of the response body is not refused.  The first piece is free: see `DESIGN.md`. -/
def Room (rel : Prop) (got bs : Text) : Prop := bs = [] ∨ got = [] ∨ (rel ∧ (got ++ bs).length ≤ maxObj)

/-- what a callback is given -/
def Given (rel : Prop) (Net : List Ev → HProp) (Busy : Nat → Transfer → Nat → HProp) (tr : List Ev) (c : Nat) (t : Transfer) (n : Nat) (k : Call) : HProp :=
  match k.fn with
  | .null => False ⋏ emp
  | .headers => ∃∃ (bs : Text) (tail : List Val), (k.size * k.nmemb = bs.length ∧ t.cfg.headerFn = .headers ∧ k.userdata = t.cfg.writeHeader) ⋏
      Net (tr ++ [.header c bs]) ∗ Busy c t n ∗ k.ptr ↦ (bytesV bs ++ .byte 0 :: tail)
  | .content => ∃∃ (bs : Text) (tail : List Val), (k.size * k.nmemb = bs.length ∧ k.userdata = t.cfg.writeData ∧ Room rel t.got bs) ⋏
      Net (tr ++ [.body c bs]) ∗ Busy c { t with got := t.got ++ bs } n ∗ k.ptr ↦ (bytesV bs ++ tail)

/-- Contract of libcurl.  `Net tr`: its memory after exactly the calls `tr`.  `Global`: it is initialised.  `Easy c`: an easy handle,
obtained from `curl_easy_init`, given up to `curl_easy_cleanup`.  `Slist l ls`: a list of lines.  `Busy c t n`: `curl_easy_perform` is
running on `c`, with `n` callbacks to come; it holds the header list and the memory of the request body.  A callback is lent the memory
of its piece of the response (a header is followed by a NUL) and must report it as used completely. -/
structure Honours (rel : Prop) (lib : Lib) (Net : List Ev → HProp) (Global : HProp) (Easy : Nat → HProp) (Slist : Nat → List Text → HProp)
    (Busy : Nat → Transfer → Nat → HProp) : Prop where
  globalInit : ∀ tr, Triple rel (Net tr) lib.globalInit (fun r => Net (tr ++ [.globalInit r]) ∗ if r = 0 then Global else emp)
  globalCleanup : ∀ tr, Triple rel (Net tr ∗ Global) lib.globalCleanup (fun _ => Net (tr ++ [.globalCleanup]))
  easyInit : ∀ tr, Triple rel (Net tr) lib.easyInit (fun c => Net (tr ++ [.easyInit c]) ∗ if c = 0 then emp else Easy c)
  easyCleanup : ∀ c tr, Triple rel (Net tr ∗ Easy c) (lib.easyCleanup c) (fun _ => Net (tr ++ [.easyCleanup c]))
  setopt : ∀ c o s tr, Triple rel (Net tr ∗ Easy c ∗ OptArg o s) (lib.setopt c o) (fun r => Net (tr ++ [.set c s r]) ∗ Easy c ∗ OptArg o s)
  slistAppend : ∀ l ls s t, Triple rel (Lines Slist l ls ∗ CStr s t) (lib.slistAppend l s)
    (fun r => CStr s t ∗ if r = 0 then Lines Slist l ls else Slist r (ls ++ [t]))
  slistFreeAll : ∀ l ls, Triple rel (Lines Slist l ls) (lib.slistFreeAll l) (fun _ => emp)
  performBegin : ∀ c tr k url ls bs, cfg c tr = k → k.url = some url → k.writeFn = .content →
    Triple rel (Net tr ∗ Easy c ∗ Lines Slist k.headers ls ∗ BodyR k bs) (lib.performBegin c)
      (fun n => Net (tr ++ [.perform c (k.request url ls bs)]) ∗ Busy c ⟨k, ls, bs, []⟩ n)
  performNext : ∀ c t n tr, Triple rel (Net tr ∗ Busy c t (n + 1)) (lib.performNext c) (Given rel Net Busy tr c t n)
  performBack : ∀ c t n tr k b, Triple rel (Net tr ∗ Busy c t n ∗ k.ptr ↦ b) (lib.performBack c k (k.size * k.nmemb)) (fun _ => Net tr ∗ Busy c t n)
  performEnd : ∀ c t tr, Triple rel (Net tr ∗ Busy c t 0) (lib.performEnd c)
    (fun r => Net (tr ++ [.done c r]) ∗ Easy c ∗ Lines Slist t.cfg.headers t.lines ∗ BodyR t.cfg t.body)
  responseCode : ∀ c tr, Triple rel (Net tr ∗ Easy c) (lib.responseCode c) (fun x => Net (tr ++ [.code c x.1 x.2]) ∗ Easy c)

/-! ## Connections -/

/-- What a connection handle stands for; the options are kept as 64-bit words. -/
structure Obj where
  curl : Nat
  host : Text
  timeout : Nat
  limit : Nat
  time : Nat
  forbid : Nat
  fresh : Nat
  verbose : Nat
  deriving DecidableEq, Repr

/-- `HTTPAPI_Init`: number of users before and after -/
def InitE (n : Nat) (r : Res) (n' : Nat) (evs : List Ev) : Prop :=
  if n = 0 then (∃ e, e ≠ 0 ∧ r = .initFailed ∧ n' = 0 ∧ evs = [.globalInit e]) ∨ (r = .ok ∧ n' = 1 ∧ evs = [.globalInit 0])
  else r = .ok ∧ n' = n + 1 ∧ evs = []

/-- `HTTPAPI_Deinit` -/
def DeinitE (n : Nat) (n' : Nat) (evs : List Ev) : Prop :=
  n' = n - 1 ∧ evs = if n = 1 then [.globalCleanup] else []

/-- the connection just made -/
def fresh (c : Nat) (host : Text) : Obj := ⟨c, host, 242000, 0, 0, 0, 0, 0⟩

/-- what `HTTPAPI_CreateConnection` gives: nothing, a connection, or a handle that is not one -/
inductive Conn where
  | none
  | good (o : Obj)
  | broken
  deriving DecidableEq, Repr

/-- `HTTPAPI_CreateConnection` -/
def CreateE (oom : Prop) (host : Option Text) (a : Conn) (evs : List Ev) : Prop :=
  match host with
  | .none => a = .none ∧ evs = []
  | some h =>
    (a = .none ∧ oom ∧ evs = []) ∨
    (a = .broken ∧ (oom ∨ maxObj < h.length + 9) ∧ evs = []) ∨
    (a = .none ∧ evs = [.easyInit 0]) ∨
    (∃ c, c ≠ 0 ∧ a = .good (fresh c h) ∧ evs = [.easyInit c])

/-- `HTTPAPI_CloseConnection` of a connection -/
def CloseE (a : Option Obj) (evs : List Ev) : Prop :=
  evs = match a with
    | none => []
    | some o => [.easyCleanup o.curl]

/-! ## Options -/

/-- an option of a connection -/
inductive Name | timeout | limit | time | fresh | forbid | verbose
  deriving DecidableEq, Repr

def Name.text : Name → Text
  | .timeout => Sas.text "timeout"
  | .limit => Sas.text "CURLOPT_LOW_SPEED_LIMIT"
  | .time => Sas.text "CURLOPT_LOW_SPEED_TIME"
  | .fresh => Sas.text "CURLOPT_FRESH_CONNECT"
  | .forbid => Sas.text "CURLOPT_FORBID_REUSE"
  | .verbose => Sas.text "CURLOPT_VERBOSE"

def Name.all : List Name := [.timeout, .limit, .time, .fresh, .forbid, .verbose]

/-- the option with this name -/
def named (t : Text) : Option Name := Name.all.find? fun n => n.text = t

/-- the value as it is kept: `timeout` is an `unsigned int`, the others are `long` -/
def Name.value (n : Name) (v : Nat) : Nat := if n = .timeout then v % 2 ^ 32 else v

def Obj.put (o : Obj) (n : Name) (v : Nat) : Obj :=
  match n with
  | .timeout => { o with timeout := n.value v }
  | .limit => { o with limit := n.value v }
  | .time => { o with time := n.value v }
  | .fresh => { o with fresh := n.value v }
  | .forbid => { o with forbid := n.value v }
  | .verbose => { o with verbose := n.value v }

/-- `HTTPAPI_SetOption`; `v`: the word the value points to -/
def SetE (name : Option Text) (v : Option Nat) (a : Option Obj) (r : Res) (a' : Option Obj) : Prop :=
  match a, name, v with
  | some o, some t, some v =>
    match named t with
    | some n => r = .ok ∧ a' = some (o.put n v)
    | none => r = .invalidArg ∧ a' = a
  | _, _, _ => r = .invalidArg ∧ a' = a

/-- `HTTPAPI_CloneOption`: the copy -/
def CloneE (oom : Prop) (name : Option Text) (v : Option Nat) (out : Bool) (r : Res) (copy : Option Nat) : Prop :=
  match name, v, out with
  | some t, some v, true =>
    match named t with
    | some n => (r = .ok ∧ copy = some (n.value v)) ∨ (r = .error ∧ copy = none ∧ oom)
    | none => r = .invalidArg ∧ copy = none
  | _, _, _ => r = .invalidArg ∧ copy = none

/-! ## The response -/

/-- a piece of the response -/
inductive Piece where
  | header (bs : Text)
  | body (bs : Text)
  deriving DecidableEq, Repr

def Piece.ev (c : Nat) : Piece → Ev
  | .header bs => .header c bs
  | .body bs => .body c bs

/-- the body of the response -/
def bodyOf : List Piece → Text
  | [] => []
  | .header _ :: ps => bodyOf ps
  | .body bs :: ps => bs ++ bodyOf ps

/-- the lines of a piece of header: what is before a NUL, cut at CR and LF -/
def splitLines : Text → Text → List Text
  | acc, [] => if acc = [] then [] else [acc]
  | acc, c :: cs => if c = 13 ∨ c = 10 then (if acc = [] then splitLines [] cs else acc :: splitLines [] cs) else splitLines (acc ++ [c]) cs
def linesOf (bs : Text) : List Text := splitLines [] (bs.takeWhile (· ≠ 0))

/-- the headers in a piece of header: name before the first colon and value after it; other lines are no headers -/
def headersOf (bs : Text) : List (Text × Text) :=
  (linesOf bs).filterMap fun l => if 58 ∈ l then some (l.takeWhile (· ≠ 58), (l.dropWhile (· ≠ 58)).drop 1) else none

/-- the headers of the response, in order of arrival -/
def allHeaders : List Piece → List (Text × Text)
  | [] => []
  | .header bs :: ps => headersOf bs ++ allHeaders ps
  | .body _ :: ps => allHeaders ps

/-- the headers are added one after the other; a failure is ignored -/
inductive Absorbs (rel : Prop) : List (Text × Text) → Hdrs → Hdrs → Prop
  | nil {hs} : Absorbs rel [] hs hs
  | cons {n v l hs hs1 hs2 r} : StoreE rel false (some hs) (some n) (some v) r (some hs1) → Absorbs rel l hs1 hs2 → Absorbs rel ((n, v) :: l) hs hs2

/-! ## Requests -/

/-- the caller's arguments: the objects behind the pointers, `none` for `NULL` -/
structure Args where
  type : Nat
  path : Option Text
  hdrs : Option Hdrs
  content : Option Text
  /-- `contentLength` if `content` is `NULL`; otherwise it is the length of `content` -/
  len : Nat
  status : Option Val
  rhdrs : Option Hdrs
  rcontent : Option Content
  deriving DecidableEq, Repr

def Args.body (x : Args) : Text := x.content.getD []
/-- the header lines of a request -/
def allLines (hs : Hdrs) : List Text := hs.map fun p => p.1 ++ [58, 32] ++ p.2

/-- the verb libcurl is made to use.  A `GET` with content becomes a `POST`. -/
def verbOf (type : Nat) (body : Text) : Text :=
  match type with
  | 0 => if body = [] then text "GET" else text "POST"
  | 1 => text "POST"
  | 2 => text "PUT"
  | 3 => text "DELETE"
  | _ => text "PATCH"

/-- the request that is sent -/
def wanted (o : Obj) (path : Text) (hs : Hdrs) (x : Args) : Request :=
  { url := text "https://" ++ o.host ++ path
    verb := verbOf x.type x.body
    headers := (allLines hs).filter shown
    body := x.body
    timeout := toLong o.timeout, lowLimit := toLong o.limit, lowTime := toLong o.time, fresh := toLong o.fresh, forbid := toLong o.forbid
    version := HTTP_1_1, verbose := toLong o.verbose }

/-! The options set for a request, in order.  `l`: the header list, `p`: the content, `rh`: the response headers, `rcb`: where the response body is collected -/
def optionPlan (o : Obj) (path : Text) : List Setting :=
  [.long .verbose (toLong o.verbose), .url (text "https://" ++ o.host ++ path), .long .timeoutMs (toLong o.timeout), .long .lowSpeedLimit (toLong o.limit),
   .long .lowSpeedTime (toLong o.time), .long .freshConnect (toLong o.fresh), .long .forbidReuse (toLong o.forbid), .long .httpVersion HTTP_1_1]
def methodPlan : Nat → List Setting
  | 0 => [.long .httpGet 1, .customRequest none]
  | 1 => [.long .post 1, .customRequest none]
  | 2 => [.long .post 1, .customRequest (some (text "PUT"))]
  | 3 => [.long .post 1, .customRequest (some (text "DELETE"))]
  | _ => [.long .post 1, .customRequest (some (text "PATCH"))]
def contentPlan (type : Nat) (p : CharPtr) (body : Text) : List Setting :=
  if body ≠ [] then [.postFields p, .long .postFieldSize body.length]
  else if type ≠ 0 then [.postFields .null, .long .postFieldSize 0] else []
def callbackPlan (rh : Ptr) : List Setting :=
  [.writeHeader 0, .headerFunction .null, .writeFunction .content] ++ if rh ≠ 0 then [.writeHeader rh, .headerFunction .headers] else []

/-- all options accepted -/
def accepted (c : Nat) (plan : List Setting) : List Ev := plan.map fun s => .set c s 0
/-- one is refused: nothing more is set -/
def Refused (c : Nat) (plan : List Setting) (evs : List Ev) : Prop :=
  ∃ l1 s l2 e, plan = l1 ++ s :: l2 ∧ e ≠ 0 ∧ evs = accepted c l1 ++ [.set c s e]

/-- the result once the request was performed with the result `e` and the response `ps`; `evs`: what is asked of libcurl afterwards -/
def Answered (rel : Prop) (c : Nat) (ps : List Piece) (e : Int) (status : Option Val) (rcontent : Option Content)
    (r : Res) (status' : Option Val) (rcontent' : Option Content) (evs : List Ev) : Prop :=
  if e ≠ 0 then r = .openRequestFailed ∧ status' = status ∧ rcontent' = rcontent ∧ evs = []
  else ∃ e2 v, evs = [.code c e2 v] ∧
    if e2 ≠ 0 then r = .queryHeadersFailed ∧ status' = status ∧ rcontent' = rcontent
    else
      -- no memory for the body
      (r = .readDataFailed ∧ status' = status ∧ rcontent' = rcontent ∧ bodyOf ps ≠ [] ∧ ¬ rel) ∨
      (status' = status.map (fun _ => Sock.intV v) ∧
        -- the body is stored, unless it is empty
        ((r = .ok ∧ rcontent' = rcontent.map fun c => if bodyOf ps = [] then c else some (bytesV (bodyOf ps))) ∨
        -- no memory to store it
         (bodyOf ps ≠ [] ∧ rcontent ≠ none ∧ ¬ rel ∧ rcontent' = rcontent ∧ r = if v ≥ 300 then .insufficientResponseBuffer else .ok)))

/-- the request `q` is sent: arguments before, result, arguments after, calls made -/
def Sent (rel : Prop) (c : Nat) (q : Request) (x : Args) (r : Res) (x' : Args) (evs : List Ev) : Prop :=
  ∃ ps e tail rh' st' rc',
    evs = [.perform c q] ++ ps.map (Piece.ev c) ++ [.done c e] ++ tail ∧
    (match x.rhdrs with
      | some h => ∃ h', rh' = some h' ∧ Absorbs rel (allHeaders ps) h h'
      | none => rh' = none ∧ ∀ bs, Piece.header bs ∉ ps) ∧
    Answered rel c ps e x.status x.rcontent r st' rc' tail ∧ x' = { x with rhdrs := rh', status := st', rcontent := rc' }

/-- the options set for a request.  `l`: the header list, `p`: the content, `rh`: the response headers, `rcb`: where the response
body is collected -/
def restPlan (type : Nat) (p : CharPtr) (body : Text) (rh rcb : Ptr) (l : Nat) : List Setting :=
  .httpHeader l :: (contentPlan type p body ++ (callbackPlan rh ++ [.writeData rcb]))

/-- `HTTPAPI_ExecuteRequest`: arguments before, result, arguments after, calls made -/
def ExecE (rel : Prop) (p : CharPtr) (rh rcb : Ptr) (a : Option Obj) (x : Args) (r : Res) (x' : Args) (evs : List Ev) : Prop :=
  match a, x.path, x.hdrs with
  | some o, some path, some hs =>
    if x.content = none ∧ x.len > 0 then r = .invalidArg ∧ x' = x ∧ evs = []
    else
      -- no memory for the URL
      (r = .error ∧ x' = x ∧ evs = [] ∧ (¬ rel ∨ maxObj < o.host.length + path.length + 9)) ∨
      -- an option is refused
      (∃ l, r = .setOptionFailed ∧ x' = x ∧
        Refused o.curl (optionPlan o path ++ if x.type < 5 then methodPlan x.type ++ restPlan x.type p x.body rh rcb l else []) evs) ∨
      -- no such method
      (5 ≤ x.type ∧ r = .invalidArg ∧ x' = x ∧ evs = accepted o.curl (optionPlan o path)) ∨
      -- no memory for the header lines
      (x.type < 5 ∧ x' = x ∧ evs = accepted o.curl (optionPlan o path ++ methodPlan x.type) ∧
        ((r = .httpHeadersFailed ∧ ∃ l ∈ allLines hs, ¬ rel ∨ maxObj < l.length + 1) ∨ (r = .allocFailed ∧ hs ≠ []))) ∨
      -- the request is sent
      (x.type < 5 ∧ ∃ l evs', evs = accepted o.curl (optionPlan o path ++ methodPlan x.type ++ restPlan x.type p x.body rh rcb l) ++ evs' ∧
        Sent rel o.curl (wanted o path hs x) x r x' evs')
  | _, _, _ => r = .invalidArg ∧ x' = x ∧ evs = []

end Verif.Curl
