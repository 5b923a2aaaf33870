import Verif.Curl.Model
/-!
# Model of `adapters/httpapi_tirtos.c`

The functions of TI's `HTTPCli` are parameters (`Lib`).  A `HTTPCli_Handle` is an address, `0` is `NULL`; a `struct sockaddr` is a number,
and its port is passed separately.  `httpheaders.c` and `buffer.c` are their models.

The automatic `contentBuf` is given by its address (128 bytes).  An `int` that overflows is undefined behaviour.  Logging is left out.
-/
namespace Verif.Ti
open Verif.Headers Verif.Buffer
open Verif.Sas (text)
open Verif.Curl (strchr)

abbrev Res := Curl.Res

/-- the value of an enumerator of `HTTPAPI_RESULT`, inc/azure_c_shared_utility/httpapi.h:31-54 -/
def code : Res → Int
  | .ok => 0 | .invalidArg => 1 | .error => 2 | .openRequestFailed => 3 | .setOptionFailed => 4 | .sendRequestFailed => 5
  | .receiveResponseFailed => 6 | .queryHeadersFailed => 7 | .queryDataAvailableFailed => 8 | .readDataFailed => 9 | .alreadyInit => 10
  | .notInit => 11 | .httpHeadersFailed => 12 | .stringProcessingError => 13 | .allocFailed => 14 | .initFailed => 15
  | .insufficientResponseBuffer => 16 | .setTimeoutsFailed => 17

/-- the conversion of an `int` to `HTTPAPI_RESULT`; no other values are converted -/
def ofCode (n : Int) : Res :=
  match [Curl.Res.ok, .invalidArg, .error, .openRequestFailed, .setOptionFailed, .sendRequestFailed, .receiveResponseFailed, .queryHeadersFailed,
    .queryDataAvailableFailed, .readDataFailed, .alreadyInit, .notInit, .httpHeadersFailed, .stringProcessingError, .allocFailed, .initFailed,
    .insufficientResponseBuffer, .setTimeoutsFailed].find? fun r => code r = n with
  | some r => r
  | none => .error

/-- External functions (`ti/net/http/httpcli.h`).  A negative result is an error. -/
structure Lib where
  /-- result and address -/
  initSockAddr : (host : CharPtr) → M (Int × Nat)
  create : M Nat
  connect : (c addr port : Nat) → M Int
  disconnect : (c : Nat) → M Unit
  delete : (c : Nat) → M Unit
  sendRequest : (c : Nat) → (method path : CharPtr) → M Int
  sendField : (c : Nat) → (name value : CharPtr) → (last : Bool) → M Int
  sendRequestBody : (c : Nat) → CharPtr → Nat → M Int
  getResponseStatus : (c : Nat) → M Int
  /-- result and `*moreFlag` -/
  readResponseHeader : (c : Nat) → (buf : Ptr) → (len : Nat) → M (Int × Bool)
  readResponseBody : (c : Nat) → (buf : Ptr) → (len : Nat) → M (Int × Bool)

/-- adapters/httpapi_tirtos.c:14 -/
abbrev CONTENT_BUF_LEN : Nat := 128
/-- `HTTPStd_SECURE_PORT` -/
abbrev SECURE_PORT : Nat := 443
/-- `INT_MAX` -/
abbrev intMax : Nat := 2 ^ 31 - 1

/-- adapters/httpapi_tirtos.c:16-32 -/
def getHttpMethod (requestType : Nat) : CharPtr :=
  match requestType with
  | 0 => .str (text "GET")
  | 1 => .str (text "POST")
  | 2 => .str (text "PUT")
  | 3 => .str (text "DELETE")
  | 4 => .str (text "PATCH")
  | _ => .null

/-- adapters/httpapi_tirtos.c:43-45: the offset of `*headerValue` at loop exit -/
def skipSpaces (p : Ptr) (i : Nat) : M Nat := do
  let c ← loadByte p i
  if c = 32 then skipSpaces p (i + 1) else pure i
partial_fixpoint

/-- adapters/httpapi_tirtos.c:34-48: the offset of `*headerValue`; `none`: -1 is returned -/
def splitHeader (headerName : Ptr) : M (Option Nat) := do
  let w ← strchr headerName 58 0
  match w with
  | none => pure none
  | some i => do
    store headerName i (.byte 0)
    let v ← skipSpaces headerName (i + 1)
    pure (some v)

/-- adapters/httpapi_tirtos.c:50-53 -/
def HTTPAPI_Init : M Res := pure .ok

/-- adapters/httpapi_tirtos.c:55-57 -/
def HTTPAPI_Deinit : M Unit := pure ()

section
variable (lib : Lib)

/-- adapters/httpapi_tirtos.c:59-86 -/
def HTTPAPI_CreateConnection (hostName : CharPtr) : M Nat := do
  let x ← lib.initSockAddr hostName
  if x.1 < 0 then pure 0 else do
  let cli ← lib.create
  if cli = 0 then pure 0 else do
  let ret ← lib.connect cli x.2 SECURE_PORT
  if ret < 0 then do
    lib.delete cli
    pure 0
  else pure cli

/-- adapters/httpapi_tirtos.c:88-96 -/
def HTTPAPI_CloseConnection (handle : Nat) : M Unit := do
  if handle ≠ 0 then do
    lib.disconnect handle
    lib.delete handle
  else pure ()

/-- adapters/httpapi_tirtos.c:144-151: a header is split and sent; the result is `ret` -/
def sendHeader (cli : Nat) (hname : Ptr) : M Int := do
  let v ← splitHeader hname
  match v with
  | none => do
    free hname
    pure (-1)
  | some hvalue => do
    let ret ← lib.sendField cli (.heap hname 0) (.heap hname hvalue) false
    free hname
    pure ret

/-- adapters/httpapi_tirtos.c:137-157; the argument is `cnt` -/
def sendHeaders (cli : Nat) (headers : Ptr) : Nat → M Res
  | 0 => pure .ok
  | cnt + 1 => do
    let x ← HTTPHeaders_GetHeader headers cnt true
    match x with
    | (.ok, some hname) => do
      let ret ← sendHeader lib cli hname
      if ret < 0 then pure .sendRequestFailed else sendHeaders cli headers cnt
    | _ => pure .queryHeadersFailed

/-- adapters/httpapi_tirtos.c:200-208: `hname` and `cnt`; `none`: no memory (the old block is not released) -/
def grow (hname : Ptr) (cnt need : Nat) : M (Option (Ptr × Nat)) := do
  if cnt < need then do
    let q ← realloc hname need
    if q = 0 then pure none else pure (some (q, need))
  else pure (some (hname, cnt))

/-- adapters/httpapi_tirtos.c:217-230 -/
def addHeader (responseHeaders hname : Ptr) : M Res := do
  let v ← splitHeader hname
  match v with
  | none => pure .httpHeadersFailed
  | some hvalue => do
    let r ← HTTPHeaders_AddHeaderNameValuePair responseHeaders (.heap hname 0) (.heap hname hvalue)
    if r ≠ .ok then pure .httpHeadersFailed else pure .ok

/-- adapters/httpapi_tirtos.c:187-234: `hname` and `ret` at `headersDone` -/
def headerLoop (cli : Nat) (responseHeaders contentBuf hname : Ptr) (cnt offset : Nat) : M (Ptr × Res) := do
  let x ← lib.readResponseHeader cli contentBuf CONTENT_BUF_LEN
  if x.1 < 0 then pure (hname, .receiveResponseFailed)
  else if x.1 = 0 then pure (hname, .ok)
  else if intMax < offset + x.1.toNat then ub "signed overflow"
  else do
  let g ← grow hname cnt (offset + x.1.toNat)
  match g with
  | none => pure (0, .allocFailed)
  | some (hname, cnt) => do
    memcpy hname offset (.heap contentBuf 0) x.1.toNat
    if x.2 then headerLoop cli responseHeaders contentBuf hname cnt (offset + x.1.toNat) else do
    let e ← addHeader responseHeaders hname
    if e ≠ .ok then pure (hname, e) else headerLoop cli responseHeaders contentBuf hname cnt 0
partial_fixpoint

/-- adapters/httpapi_tirtos.c:257-274: a piece of the body; the result is `ret` -/
def storePiece (responseContent contentBuf : Ptr) (cnt offset : Nat) : M Int := do
  let r ← BUFFER_enlarge responseContent cnt
  if r ≠ 0 then pure (code .allocFailed) else do
  let x ← BUFFER_content responseContent true
  match x with
  | (0, some p) => do
    memcpy p offset (.heap contentBuf 0) cnt
    pure 0
  | _ => pure (code .allocFailed)

/-- adapters/httpapi_tirtos.c:246-278: `ret` at `contentDone` -/
def bodyLoop (cli : Nat) (responseContent contentBuf : Ptr) (offset : Nat) : M Int := do
  let x ← lib.readResponseBody cli contentBuf CONTENT_BUF_LEN
  if x.1 < 0 then pure (code .receiveResponseFailed)
  else if x.1 ≠ 0 then do
    let ret ← storePiece responseContent contentBuf x.1.toNat offset
    if ret ≠ 0 then pure ret
    else if intMax < offset + x.1.toNat then ub "signed overflow"
    else if x.2 then bodyLoop cli responseContent contentBuf (offset + x.1.toNat) else pure 0
  else if x.2 then bodyLoop cli responseContent contentBuf offset else pure 0
partial_fixpoint

/-- adapters/httpapi_tirtos.c:242-285 -/
def readBody (cli : Nat) (contentBuf responseContent : Ptr) : M Res := do
  if responseContent ≠ 0 then do
    let ret ← bodyLoop lib cli responseContent contentBuf 0
    if ret < 0 then do
      let _ ← BUFFER_unbuild responseContent
      pure (ofCode ret)
    else pure .ok
  else pure .ok

/-- adapters/httpapi_tirtos.c:175-285 -/
def receive (cli : Nat) (contentBuf statusCode responseHeaders responseContent : Ptr) : M Res := do
  let ret ← lib.getResponseStatus cli
  if ret < 0 then pure .receiveResponseFailed else do
  store statusCode 0 (.int ret.toNat)
  let x ← headerLoop lib cli responseHeaders contentBuf 0 0 0
  free x.1
  if x.2 ≠ .ok then pure x.2 else
  readBody lib cli contentBuf responseContent

/-- adapters/httpapi_tirtos.c:129-173: the request is sent -/
def send (cli : Nat) (requestType : Nat) (relativePath : CharPtr) (headers : Ptr) (cnt : Nat) (content : CharPtr) (contentLength : Nat) : M Res := do
  let ret ← lib.sendRequest cli (getHttpMethod requestType) relativePath
  if ret < 0 then pure .sendRequestFailed else do
  let r ← sendHeaders lib cli headers cnt
  if r ≠ .ok then pure r else do
  let ret ← lib.sendField cli .null .null true
  if ret < 0 then pure .sendRequestFailed else do
  if content ≠ .null ∧ contentLength ≠ 0 then do
    let ret ← lib.sendRequestBody cli content contentLength
    if ret < 0 then pure .sendRequestFailed else pure .ok
  else pure .ok

/-- adapters/httpapi_tirtos.c:98-286; `contentBuf`: the address of the automatic array -/
def HTTPAPI_ExecuteRequest (contentBuf : Ptr) (handle : Nat) (requestType : Nat) (relativePath : CharPtr) (httpHeadersHandle : Ptr) (content : CharPtr)
    (contentLength : Nat) (statusCode responseHeadersHandle responseContent : Ptr) : M Res := do
  storeN contentBuf 0 (List.replicate CONTENT_BUF_LEN (.byte 0))
  if handle = 0 ∨ getHttpMethod requestType = .null ∨ relativePath = .null ∨ statusCode = 0 ∨ responseHeadersHandle = 0 then pure .invalidArg
  else do
  let x ← HTTPHeaders_GetHeaderCount httpHeadersHandle true
  match x with
  | (.ok, some cnt) => do
    let r ← send lib handle requestType relativePath httpHeadersHandle cnt content contentLength
    if r ≠ .ok then pure r else
    receive lib handle contentBuf statusCode responseHeadersHandle responseContent
  | _ => pure .queryHeadersFailed

/-- adapters/httpapi_tirtos.c:288-292 -/
def HTTPAPI_SetOption (_handle : Nat) (_optionName : CharPtr) (_value : Ptr) : M Res := pure .invalidArg

/-- adapters/httpapi_tirtos.c:294-298 -/
def HTTPAPI_CloneOption (_optionName : CharPtr) (_value _savedValue : Ptr) : M Res := pure .invalidArg
end

end Verif.Ti
