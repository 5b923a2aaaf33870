import Verif.Curl.Model
/-!
# Model of `adapters/httpapi_winhttp.c`

The functions of WinHTTP and the two conversions between code pages are parameters (`Lib`).  A `HINTERNET` is an address, `0` is `NULL`.
`httpheaders.c` and `buffer.c` are their models.  A `wchar_t` has two bytes and is one slot that holds a number.

The three static variables are the slots of the block `g`: the state (0: not initialised, 1: initialised), the session, the number of
users.  Logging is left out (also the logging of the response body, lines 569-581).
-/
namespace Verif.Wh
open Verif.Headers Verif.Buffer
open Verif.Sas (text)
open Verif.Curl (strchr)

abbrev Res := Curl.Res

/-- External functions (`winhttp.h`, `stringapiset.h`). -/
structure Lib where
  /-- `MultiByteToWideChar(CP_ACP, 0, src, -1, dst, n)` -/
  widen : (src : CharPtr) → (dst : Ptr) → (n : Nat) → M Nat
  /-- `WideCharToMultiByte(CP_ACP, 0, src + off, -1, dst, n, NULL, NULL)` -/
  narrow : (src : Ptr) → (off : Nat) → (dst : Ptr) → (n : Nat) → M Nat
  /-- `WinHttpOpen` -/
  openSession : M Nat
  /-- `WinHttpConnect` -/
  connect : (session : Nat) → (host : Ptr) → (port : Nat) → M Nat
  /-- `WinHttpOpenRequest(c, verb, path, NULL, …, WINHTTP_FLAG_SECURE)` -/
  openRequest : (c : Nat) → (verb : List UInt8) → (path : Ptr) → M Nat
  /-- `WinHttpSetTimeouts` -/
  setTimeouts : (q : Nat) → (resolve connect send receive : Int) → M Bool
  /-- `WinHttpSetOption(q, WINHTTP_OPTION_SECURITY_FLAGS, &flags, 4)` -/
  setSecurity : (q : Nat) → (flags : Nat) → M Bool
  /-- `WinHttpSendRequest(q, headers, -1, content, len, total, 0)` -/
  sendRequest : (q : Nat) → (headers : Ptr) → (content : CharPtr) → (len total : Nat) → M Bool
  receiveResponse : (q : Nat) → M Bool
  /-- `WinHttpQueryHeaders(q, WINHTTP_QUERY_STATUS_CODE | WINHTTP_QUERY_FLAG_NUMBER, …)`: the code; `none`: `FALSE` is returned -/
  queryStatus : (q : Nat) → M (Option Nat)
  /-- `WinHttpQueryDataAvailable`; `none`: `FALSE` is returned -/
  queryDataAvailable : (q : Nat) → M (Option Nat)
  /-- `WinHttpReadData(q, buf + off, n, &received)`; `none`: `FALSE` is returned -/
  readData : (q : Nat) → (buf : Ptr) → (off n : Nat) → M (Option Nat)
  /-- `WinHttpQueryHeaders(q, WINHTTP_QUERY_RAW_HEADERS_CRLF, …, WINHTTP_NO_OUTPUT_BUFFER, &len, …)`: the value of `len` afterwards -/
  rawSize : (q : Nat) → (len : Nat) → M Nat
  /-- `WinHttpQueryHeaders(q, WINHTTP_QUERY_RAW_HEADERS_CRLF, …, buf, &len, …)` -/
  rawHeaders : (q : Nat) → (buf : Ptr) → (len : Nat) → M Bool
  /-- `WinHttpCloseHandle` -/
  closeHandle : (h : Nat) → M Unit

/-! Slots of the static variables, and of `HTTP_HANDLE_DATA` (adapters/httpapi_winhttp.c:61-71) -/
abbrev gState : Nat := 0
abbrev gSession : Nat := 1
abbrev gUsers : Nat := 2
abbrev fConn : Nat := 0
abbrev fTimeout : Nat := 1

/-- `INTERNET_DEFAULT_HTTPS_PORT` -/
abbrev HTTPS_PORT : Nat := 443

/-- the conversion of an `unsigned int` to `int` -/
def asInt (n : Nat) : Int := if n < 2 ^ 31 then (n : Int) else (n : Int) - 2 ^ 32

section
variable (lib : Lib)

/-- adapters/httpapi_winhttp.c:90-104, with `n` headers to come from `i` on: `toAlloc`; `none`: the loop is left with `i < headersCount`.
The sum does not wrap in the code because all the headers are in memory; here it is unbounded. -/
def sizeLoop (headers : Ptr) : Nat → Nat → Nat → M (Option Nat)
  | 0, _, toAlloc => pure (some toAlloc)
  | n + 1, i, toAlloc => do
    let x ← HTTPHeaders_GetHeader headers i true
    match x with
    | (.ok, some temp) => do
      let k ← strlen (.ofPtr temp)
      free temp
      sizeLoop headers n (i + 1) (toAlloc + k + 2)
    | _ => pure none

/-- adapters/httpapi_winhttp.c:122-136: `false`: the loop is left with `i < headersCount` -/
def joinLoop (headers result : Ptr) : Nat → Nat → M Bool
  | 0, _ => pure true
  | n + 1, i => do
    let x ← HTTPHeaders_GetHeader headers i true
    match x with
    | (.ok, some temp) => do
      strcat result (.ofPtr temp)
      strcat result (.str [13, 10])
      free temp
      joinLoop headers result n (i + 1)
    | _ => pure false

/-- adapters/httpapi_winhttp.c:74-152 -/
def ConstructHeadersString (httpHeadersHandle : Ptr) : M Ptr := do
  let x ← HTTPHeaders_GetHeaderCount httpHeadersHandle true
  match x with
  | (.ok, some headersCount) => do
    let s ← sizeLoop httpHeadersHandle headersCount 0 0
    match s with
    | none => pure 0
    | some toAlloc => do
      let result ← malloc (toAlloc + 1)
      if result = 0 then pure 0 else do
      store result 0 (.byte 0)
      let all ← joinLoop httpHeadersHandle result headersCount 0
      if all then pure result else do
      free result
      pure 0
  | _ => pure 0

/-- adapters/httpapi_winhttp.c:154-187 -/
def HTTPAPI_Init (g : Ptr) : M Res := do
  let n ← loadInt g gUsers
  if n = 0 then do
    let s ← lib.openSession
    store g gSession (.ptr s)
    if s = 0 then pure .initFailed else do
    store g gUsers (.int ((n + 1) % szMod))
    store g gState (.int 1)
    pure .ok
  else do
    store g gUsers (.int ((n + 1) % szMod))
    pure .ok

/-- adapters/httpapi_winhttp.c:189-208 -/
def HTTPAPI_Deinit (g : Ptr) : M Unit := do
  let n ← loadInt g gUsers
  if n > 0 then do
    store g gUsers (.int (n - 1))
    if n - 1 = 0 then do
      let s ← loadPtr g gSession
      if s ≠ 0 then do
        lib.closeHandle s
        store g gSession (.ptr 0)
        store g gState (.int 0)
      else pure ()
    else pure ()
  else pure ()

/-- adapters/httpapi_winhttp.c:242-268: `result` -/
def connectTo (g result hostNameTemp : Ptr) (size : Nat) (hostName : CharPtr) : M Ptr := do
  let k ← lib.widen hostName hostNameTemp size
  if k = 0 then do
    free result
    pure 0
  else do
    let s ← loadPtr g gSession
    let c ← lib.connect s hostNameTemp HTTPS_PORT
    store result fConn (.ptr c)
    let c ← loadPtr result fConn
    if c = 0 then do
      free result
      pure 0
    else do
      store result fTimeout (.int 30000)
      pure result

/-- adapters/httpapi_winhttp.c:210-274.  If the host name cannot be converted or there is no memory for it, `result` is returned as `malloc` made it. -/
def HTTPAPI_CreateConnection (g : Ptr) (hostName : CharPtr) : M Ptr := do
  let st ← loadInt g gState
  if st ≠ 1 then pure 0 else do
  let result ← mallocS 2
  if result = 0 then pure 0 else do
  let size ← lib.widen hostName 0 0
  if size = 0 then pure result else do
  let hostNameTemp ← mallocW (2 * size) size
  if hostNameTemp = 0 then pure result else do
  let result ← connectTo lib g result hostNameTemp size hostName
  free hostNameTemp
  pure result

/-- adapters/httpapi_winhttp.c:276-296 -/
def HTTPAPI_CloseConnection (g handle : Ptr) : M Unit := do
  let st ← loadInt g gState
  if st ≠ 1 then pure ()
  else if handle ≠ 0 then do
    let c ← loadPtr handle fConn
    if c ≠ 0 then do
      lib.closeHandle c
      store handle fConn (.ptr 0)
      free handle
    else free handle
  else pure ()

/-- adapters/httpapi_winhttp.c:322-348; `none`: `NULL` -/
def requestTypeString (requestType : Nat) : Option (List UInt8) :=
  match requestType with
  | 0 => some (text "GET")
  | 1 => some (text "POST")
  | 2 => some (text "PUT")
  | 3 => some (text "DELETE")
  | 4 => some (text "PATCH")
  | _ => none

/-- adapters/httpapi_winhttp.c:510-563: the bytes announced are read; `none`: the loop goes on -/
def readPiece (q buffer avail : Nat) : M (Option Res) := do
  let e ← BUFFER_enlarge buffer avail
  if e ≠ 0 then pure (some .error) else do
  let x ← BUFFER_content buffer true
  match x with
  | (0, some p) => do
    let y ← BUFFER_size buffer true
    match y with
    | (0, some size) => do
      let r ← lib.readData q p (size - avail) avail
      match r with
      | none => pure (some .readDataFailed)
      | some k => if k = 0 then pure (some .readDataFailed) else pure none
    | _ => pure (some .error)
  | _ => pure (some .error)

/-- adapters/httpapi_winhttp.c:492-567 -/
def readLoop (q buffer : Nat) : M Res := do
  let a ← lib.queryDataAvailable q
  match a with
  | none => pure .queryDataAvailableFailed
  | some avail =>
    if avail = 0 then pure .ok else do
    let r ← readPiece lib q buffer avail
    match r with
    | some e => pure e
    | none => readLoop q buffer
partial_fixpoint

/-- adapters/httpapi_winhttp.c:476-584 -/
def readBody (q : Nat) (code : Nat) (statusCode responseContent : Ptr) : M Res := do
  let buffer ← if responseContent ≠ 0 then pure responseContent else BUFFER_new
  if statusCode ≠ 0 then do
    store statusCode 0 (.int code)
    finish buffer
  else finish buffer
where
  finish (buffer : Ptr) : M Res := do
    if buffer = 0 then pure .error else do
    let r ← readLoop lib q buffer
    if responseContent ≠ 0 then pure r else do
    BUFFER_delete buffer
    pure r

/-- `wcstok_s(_, L"\r\n", _)`: skipping delimiters at the beginning -/
def skipDelims (p : Ptr) (i : Nat) : M Nat := do
  let c ← loadInt p i
  if c = 13 ∨ c = 10 then skipDelims p (i + 1) else pure i
partial_fixpoint

/-- `wcstok_s`: the end of the token -/
def tokenEnd (p : Ptr) (i : Nat) : M Nat := do
  let c ← loadInt p i
  if c = 0 ∨ c = 13 ∨ c = 10 then pure i else tokenEnd p (i + 1)
partial_fixpoint

/-- `wcstok_s(_, L"\r\n", _)` from position `i` of the block `p`: the token, and where the next search begins -/
def wcstok (p : Ptr) (i : Nat) : M (Option Nat × Nat) := do
  let b ← skipDelims p i
  let c ← loadInt p b
  if c = 0 then pure (none, b)
  else do
    let e ← tokenEnd p b
    let c ← loadInt p e
    if c = 0 then pure (some b, e)
    else do
      store p e (.int 0)
      pure (some b, e + 1)

/-- adapters/httpapi_winhttp.c:636-660; `false`: the header was refused and the loop is left (`tokenTemp` is not released) -/
def addLine (responseHeaders p token tokenTemp size : Nat) : M Bool := do
  let k ← lib.narrow p token tokenTemp size
  if k > 0 then do
    let w ← strchr tokenTemp 58 0
    match w with
    | some i => do
      store tokenTemp i (.byte 0)
      let r ← HTTPHeaders_AddHeaderNameValuePair responseHeaders (.heap tokenTemp 0) (.heap tokenTemp (i + 1))
      if r ≠ .ok then pure false else do
      free tokenTemp
      pure true
    | none => do
      free tokenTemp
      pure true
  else do
    free tokenTemp
    pure true

/-- adapters/httpapi_winhttp.c:621-662: a line of the response headers -/
def takeLine (responseHeaders p token : Nat) : M Bool := do
  let size ← lib.narrow p token 0 0
  if size = 0 then pure true else do
  let tokenTemp ← malloc size
  if tokenTemp = 0 then pure true else
  addLine lib responseHeaders p token tokenTemp size

/-- adapters/httpapi_winhttp.c:618-666 -/
def lineLoop (responseHeaders p : Ptr) (t : Option Nat × Nat) : M Res := do
  match t.1 with
  | none => pure .ok
  | some token => do
    let c ← loadInt p token
    if c = 0 then pure .ok else do
    let go ← takeLine lib responseHeaders p token
    if go then do
      let t ← wcstok p t.2
      lineLoop responseHeaders p t
    else pure .httpHeadersFailed
partial_fixpoint

/-- adapters/httpapi_winhttp.c:589-674 -/
def readHeaders (q responseHeaders : Nat) : M Res := do
  let len ← lib.rawSize q 8
  let p ← mallocW ((len + 2) % 2 ^ 32) ((len + 2) % 2 ^ 32 / 2)
  if p = 0 then pure .allocFailed else do
  let good ← lib.rawHeaders q p len
  if good then do
    let t ← wcstok p 0
    let r ← lineLoop lib responseHeaders p t
    free p
    pure r
  else do
    free p
    pure .ok

/-- adapters/httpapi_winhttp.c:450-675 -/
def receive (q : Nat) (statusCode responseHeaders responseContent : Ptr) : M Res := do
  let good ← lib.receiveResponse q
  if good = false then pure .receiveResponseFailed else do
  let s ← lib.queryStatus q
  match s with
  | none => pure .queryHeadersFailed
  | some code => do
    let r ← readBody lib q code statusCode responseContent
    if r = .ok ∧ responseHeaders ≠ 0 then readHeaders lib q responseHeaders else pure r

/-- adapters/httpapi_winhttp.c:411-679 -/
def onRequest (q timeout : Nat) (headers : Ptr) (content : CharPtr) (contentLength : Nat) (statusCode responseHeaders responseContent : Ptr) : M Res := do
  let good ← lib.setTimeouts q 0 60000 (asInt timeout) (asInt timeout)
  if good = false then pure .setTimeoutsFailed else do
  let good ← lib.setSecurity q 0
  if good = false then pure .setOptionFailed else do
  let good ← lib.sendRequest q headers content (contentLength % 2 ^ 32) (contentLength % 2 ^ 32)
  if good = false then pure .sendRequestFailed else
  receive lib q statusCode responseHeaders responseContent

/-- adapters/httpapi_winhttp.c:389-682 -/
def withHeaders (handle : Ptr) (verb : List UInt8) (path headers2 : Ptr) (headersTemp size : Nat) (content : CharPtr) (contentLength : Nat)
    (statusCode responseHeaders responseContent : Ptr) : M Res := do
  let k ← lib.widen (.heap headers2 0) headersTemp size
  if k = 0 then pure .stringProcessingError else do
  let c ← loadPtr handle fConn
  let q ← lib.openRequest c verb path
  if q = 0 then pure .openRequestFailed else do
  let timeout ← loadInt handle fTimeout
  let r ← onRequest lib q timeout headersTemp content contentLength statusCode responseHeaders responseContent
  lib.closeHandle q
  pure r

/-- adapters/httpapi_winhttp.c:372-686 -/
def withPath (handle : Ptr) (verb : List UInt8) (relativePath : CharPtr) (path size headers2 : Nat) (content : CharPtr) (contentLength : Nat)
    (statusCode responseHeaders responseContent : Ptr) : M Res := do
  let k ← lib.widen relativePath path size
  if k = 0 then pure .stringProcessingError else do
  let n ← lib.widen (.heap headers2 0) 0 0
  let headersTemp ← mallocW (2 * (n + 1)) (n + 1)
  if headersTemp = 0 then pure .stringProcessingError else do
  let r ← withHeaders lib handle verb path headers2 headersTemp n content contentLength statusCode responseHeaders responseContent
  free headersTemp
  pure r

/-- adapters/httpapi_winhttp.c:358-695 -/
def request (handle : Ptr) (verb : List UInt8) (relativePath : CharPtr) (httpHeadersHandle : Ptr) (content : CharPtr) (contentLength : Nat)
    (statusCode responseHeaders responseContent : Ptr) : M Res := do
  let headers2 ← ConstructHeadersString httpHeadersHandle
  if headers2 = 0 then pure .allocFailed else do
  let n ← lib.widen relativePath 0 0
  let path ← mallocW (2 * (n + 1)) (n + 1)
  if path = 0 then do
    free headers2
    pure .allocFailed
  else do
    let r ← withPath lib handle verb relativePath path n headers2 content contentLength statusCode responseHeaders responseContent
    free path
    free headers2
    pure r

/-- adapters/httpapi_winhttp.c:298-700 -/
def HTTPAPI_ExecuteRequest (g handle : Ptr) (requestType : Nat) (relativePath : CharPtr) (httpHeadersHandle : Ptr) (content : CharPtr)
    (contentLength : Nat) (statusCode responseHeadersHandle responseContent : Ptr) : M Res := do
  let st ← loadInt g gState
  if st ≠ 1 then pure .notInit
  else if handle = 0 ∨ relativePath = .null ∨ httpHeadersHandle = 0 then pure .invalidArg
  else match requestTypeString requestType with
  | none => pure .invalidArg
  | some verb => request lib handle verb relativePath httpHeadersHandle content contentLength statusCode responseHeadersHandle responseContent

/-- adapters/httpapi_winhttp.c:702-730; a `long` has 32 bits -/
def HTTPAPI_SetOption (handle : Ptr) (optionName : CharPtr) (value : Ptr) : M Res := do
  if handle = 0 ∨ optionName = .null ∨ value = 0 then pure .invalidArg
  else do
    let r ← strcmp (.str (text "timeout")) optionName
    if r = 0 then do
      let v ← loadInt value 0
      store handle fTimeout (.int (v % 2 ^ 32))
      pure .ok
    else pure .invalidArg

/-- adapters/httpapi_winhttp.c:732-769 -/
def HTTPAPI_CloneOption (optionName : CharPtr) (value savedValue : Ptr) : M Res := do
  if optionName = .null ∨ value = 0 ∨ savedValue = 0 then pure .invalidArg
  else do
    let r ← strcmp (.str (text "timeout")) optionName
    if r = 0 then do
      let temp ← mallocW 4 1
      if temp = 0 then pure .error
      else do
        let v ← loadInt value 0
        store temp 0 (.int (v % 2 ^ 32))
        store savedValue 0 (.ptr temp)
        pure .ok
    else pure .invalidArg
end

end Verif.Wh
