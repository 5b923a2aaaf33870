import Verif.Headers.Model
import Verif.Buffer.Model
import Verif.Crt.Model
import Verif.Sas.Model
import Verif.Sock.Model
/-!
# Model of `adapters/httpapi_curl.c`

The functions of libcurl are parameters (`Lib`).  A `CURL*` and a `struct curl_slist*` are addresses, `0` is `NULL`.
`curl_easy_perform` is split at the points where libcurl calls back: `performBegin` (how many callbacks there will be),
`performNext` (which one is next), `performBack` (it has returned), `performEnd` (the result); so it is assumed to end, but what
it does next may depend on everything before.  `httpheaders.c`, `buffer.c` and `crt_abstractions.c` are their models.

The automatic `responseContentBuffer` is given by its address (three slots), like the static `nUsersOfHTTPAPI` (one slot).
A `long` in memory is kept as 64-bit two's complement.  The static position of `strtok` is passed from call to call
(nothing else uses `strtok` in between).  `LogError` and `LogInfo` are left out.
-/
namespace Verif.Curl
open Verif.Headers Verif.Buffer Verif.Crt
open Verif.Sas (text)
open Verif.Sock (intV)

/-- `HTTPAPI_RESULT`, inc/azure_c_shared_utility/httpapi.h:31-54 -/
inductive Res
  | ok | invalidArg | error | openRequestFailed | setOptionFailed | sendRequestFailed | receiveResponseFailed | queryHeadersFailed
  | queryDataAvailableFailed | readDataFailed | alreadyInit | notInit | httpHeadersFailed | stringProcessingError | allocFailed
  | initFailed | insufficientResponseBuffer | setTimeoutsFailed
  deriving DecidableEq, Repr

/-- the options of type `long` that are used -/
inductive Long
  | verbose | timeoutMs | lowSpeedLimit | lowSpeedTime | freshConnect | forbidReuse | httpVersion | httpGet | post | postFieldSize
  deriving DecidableEq, Repr

/-- the functions given to libcurl: `NULL`, `HeadersWriteFunction`, `ContentWriteFunction` -/
inductive Fn | null | headers | content
  deriving DecidableEq, Repr

/-- an option and its value, as passed to `curl_easy_setopt` -/
inductive Opt where
  | long (o : Long) (v : Int)
  | url (s : CharPtr)
  | customRequest (s : CharPtr)
  | httpHeader (l : Nat)
  | postFields (p : CharPtr)
  | writeHeader (p : Ptr)
  | headerFunction (f : Fn)
  | writeFunction (f : Fn)
  | writeData (p : Ptr)
  deriving DecidableEq, Repr

/-- a callback made by libcurl -/
structure Call where
  fn : Fn
  ptr : Ptr
  size : Nat
  nmemb : Nat
  userdata : Ptr

/-- External functions; `CURLE_OK` is 0. -/
structure Lib where
  globalInit : M Int
  globalCleanup : M Unit
  easyInit : M Nat
  easyCleanup : (c : Nat) → M Unit
  setopt : (c : Nat) → Opt → M Int
  slistAppend : (l : Nat) → CharPtr → M Nat
  slistFreeAll : (l : Nat) → M Unit
  performBegin : (c : Nat) → M Nat
  performNext : (c : Nat) → M Call
  performBack : (c : Nat) → Call → (ret : Nat) → M Unit
  performEnd : (c : Nat) → M Int
  /-- `curl_easy_getinfo(c, CURLINFO_RESPONSE_CODE, &code)`: result and code -/
  responseCode : (c : Nat) → M (Int × Int)

/-! Fields of `HTTP_HANDLE_DATA` (21-31) and `HTTP_RESPONSE_CONTENT_BUFFER` (33-38) -/
abbrev fCurl : Nat := 0
abbrev fHost : Nat := 1
abbrev fTimeout : Nat := 2
abbrev fLimit : Nat := 3
abbrev fTime : Nat := 4
abbrev fForbid : Nat := 5
abbrev fFresh : Nat := 6
abbrev fVerbose : Nat := 7
abbrev gBuffer : Nat := 0
abbrev gSize : Nat := 1
abbrev gError : Nat := 2

/-- a `long` from its 64 bits -/
def toLong (n : Nat) : Int := if n % 2 ^ 64 < 2 ^ 63 then ((n % 2 ^ 64 : Nat) : Int) else ((n % 2 ^ 64 : Nat) : Int) - 2 ^ 64
def loadLong (p : Ptr) (off : Nat) : M Int := do
  let n ← loadInt p off
  pure (toLong n)

/-- `CURL_HTTP_VERSION_1_1` -/
abbrev HTTP_1_1 : Int := 2

section
variable (lib : Lib)

/-- adapters/httpapi_curl.c:42-65; `g`: address of `nUsersOfHTTPAPI` -/
def HTTPAPI_Init (g : Ptr) : M Res := do
  let n ← loadInt g 0
  if n = 0 then do
    let r ← lib.globalInit
    if r ≠ 0 then pure .initFailed
    else do
      let n ← loadInt g 0
      store g 0 (.int ((n + 1) % szMod))
      pure .ok
  else do
    store g 0 (.int ((n + 1) % szMod))
    pure .ok

/-- adapters/httpapi_curl.c:67-77 -/
def HTTPAPI_Deinit (g : Ptr) : M Unit := do
  let n ← loadInt g 0
  if n > 0 then do
    store g 0 (.int (n - 1))
    let n ← loadInt g 0
    if n = 0 then lib.globalCleanup else pure ()
  else pure ()

/-- adapters/httpapi_curl.c:96-97: the condition -/
def copyHost (d : Ptr) (hostURL_size : Nat) (hostName : CharPtr) : M Bool := do
  let u ← loadPtr d fHost
  let r ← strcpy_s u hostURL_size (.str (text "https://"))
  if r = 0 then do
    let u ← loadPtr d fHost
    let r ← strcat_s u hostURL_size hostName
    pure (decide (r = 0))
  else pure false

/-- adapters/httpapi_curl.c:79-129 -/
def HTTPAPI_CreateConnection (hostName : CharPtr) : M Ptr := do
  if hostName ≠ .null then do
    let d ← mallocS 8
    if d ≠ 0 then do
      let n8 ← strlen (.str (text "https://"))
      let n ← strlen hostName
      let hostURL_size := (n8 + n + 1) % szMod
      let u ← malloc hostURL_size
      store d fHost (.ptr u)
      let u ← loadPtr d fHost
      if u = 0 then pure d
      else do
        let good ← copyHost d hostURL_size hostName
        if good then do
          let c ← lib.easyInit
          store d fCurl (.ptr c)
          let c ← loadPtr d fCurl
          if c = 0 then do
            let u ← loadPtr d fHost
            free u
            free d
            pure 0
          else do
            store d fTimeout (.int (242 * 1000))
            store d fTime (.int 0)
            store d fLimit (.int 0)
            store d fForbid (.int 0)
            store d fFresh (.int 0)
            store d fVerbose (.int 0)
            pure d
        else do
          let u ← loadPtr d fHost
          free u
          free d
          pure 0
    else pure 0
  else pure 0

/-- adapters/httpapi_curl.c:131-140 -/
def HTTPAPI_CloseConnection (handle : Ptr) : M Unit := do
  if handle ≠ 0 then do
    let u ← loadPtr handle fHost
    free u
    let c ← loadPtr handle fCurl
    lib.easyCleanup c
    free handle
  else pure ()

/-! ## Callbacks -/

/-- the delimiters `"\r\n"` -/
def isDelim (c : UInt8) : Bool := c = 13 || c = 10

/-- C `strtok(_, "\r\n")`: skipping delimiters at the beginning -/
def skipDelims (p : Ptr) (i : Nat) : M Nat := do
  let c ← loadByte p i
  if isDelim c then skipDelims p (i + 1) else pure i
partial_fixpoint

/-- C `strtok`: the end of the token -/
def tokenEnd (p : Ptr) (i : Nat) : M Nat := do
  let c ← loadByte p i
  if c = 0 ∨ isDelim c then pure i else tokenEnd p (i + 1)
partial_fixpoint

/-- C `strtok(_, "\r\n")` from position `i` of the block `p`: the token and where the next search begins -/
def strtok (p : Ptr) (i : Nat) : M (Option Nat × Nat) := do
  let b ← skipDelims p i
  let c ← loadByte p b
  if c = 0 then pure (none, b)
  else do
    let e ← tokenEnd p b
    let c ← loadByte p e
    if c = 0 then pure (some b, e)
    else do
      store p e (.byte 0)
      pure (some b, e + 1)

/-- C `strchr(p + i, ch)` -/
def strchr (p : Ptr) (ch : UInt8) (i : Nat) : M (Option Nat) := do
  let c ← loadByte p i
  if c = ch then pure (some i) else if c = 0 then pure none else strchr p ch (i + 1)
partial_fixpoint

/-- adapters/httpapi_curl.c:153-163: a header line, or something without a colon -/
def addLine (h p token : Ptr) : M Unit := do
  let w ← strchr p 58 token
  match w with
  | some whereIsColon => do
    store p whereIsColon (.byte 0)
    let _ ← HTTPHeaders_AddHeaderNameValuePair h (.heap p token) (.heap p (whereIsColon + 1))
    store p whereIsColon (.byte 58)
  | none => pure ()

/-- adapters/httpapi_curl.c:150-165 -/
def tokenLoop (h p : Ptr) (t : Option Nat × Nat) : M Unit := do
  match t.1 with
  | none => pure ()
  | some token => do
    let c ← loadByte p token
    if c ≠ 0 then do
      addLine h p token
      let t ← strtok p t.2
      tokenLoop h p t
    else pure ()
partial_fixpoint

/-- adapters/httpapi_curl.c:142-169 -/
def HeadersWriteFunction (ptr : Ptr) (size nmemb : Nat) (userdata : Ptr) : M Nat := do
  if ptr ≠ 0 then do
    let t ← strtok ptr 0
    tokenLoop userdata ptr t
    pure ((size * nmemb) % szMod)
  else pure ((size * nmemb) % szMod)

/-- adapters/httpapi_curl.c:171-197 -/
def ContentWriteFunction (ptr : Ptr) (size nmemb : Nat) (userdata : Ptr) : M Nat := do
  let n := (size * nmemb) % szMod
  if userdata ≠ 0 ∧ ptr ≠ 0 ∧ n > 0 then do
    let b ← loadPtr userdata gBuffer
    let have_ ← loadInt userdata gSize
    let newBuffer ← realloc b ((have_ + n) % szMod)
    if newBuffer ≠ 0 then do
      store userdata gBuffer (.ptr newBuffer)
      let b ← loadPtr userdata gBuffer
      let have_ ← loadInt userdata gSize
      memcpy b have_ (.heap ptr 0) n
      store userdata gSize (.int ((have_ + n) % szMod))
      pure n
    else do
      store userdata gError (.int 1)
      let b ← loadPtr userdata gBuffer
      if b ≠ 0 then do
        free b
        pure n
      else pure n
  else pure n

/-- the callback `k` is made -/
def deliver (k : Call) : M Nat :=
  match k.fn with
  | .null => ub "call of a null function"
  | .headers => HeadersWriteFunction k.ptr k.size k.nmemb k.userdata
  | .content => ContentWriteFunction k.ptr k.size k.nmemb k.userdata

/-- the callbacks made during `curl_easy_perform` -/
def callbacks (c : Nat) : Nat → M Unit
  | 0 => pure ()
  | n + 1 => do
    let k ← lib.performNext c
    let r ← deliver k
    lib.performBack c k r
    callbacks c n

/-- `curl_easy_perform` -/
def perform (c : Nat) : M Int := do
  let n ← lib.performBegin c
  callbacks lib c n
  lib.performEnd c

/-! ## Requests -/

/-- `curl_easy_setopt(httpHandleData->curl, …)` -/
def setO (h : Ptr) (o : Opt) : M Int := do
  let c ← loadPtr h fCurl
  lib.setopt c o

/-- `curl_easy_setopt(httpHandleData->curl, o, httpHandleData->f)` -/
def setF (h : Ptr) (o : Long) (f : Nat) : M Int := do
  let c ← loadPtr h fCurl
  let v ← loadLong h f
  lib.setopt c (.long o v)

/-- adapters/httpapi_curl.c:235-281; `HTTPAPI_OK` if the `else` branch of 282 is reached -/
def applyOptions (h tempHostURL : Ptr) (size : Nat) (relativePath : CharPtr) : M Res := do
  let r ← setF lib h .verbose fVerbose
  if r ≠ 0 then pure .setOptionFailed else do
  let u ← loadPtr h fHost
  let r ← strcpy_s tempHostURL size (.ofPtr u)
  if r ≠ 0 then pure .stringProcessingError else do
  let r ← strcat_s tempHostURL size relativePath
  if r ≠ 0 then pure .stringProcessingError else do
  let r ← setO lib h (.url (.heap tempHostURL 0))
  if r ≠ 0 then pure .setOptionFailed else do
  let r ← setF lib h .timeoutMs fTimeout
  if r ≠ 0 then pure .setOptionFailed else do
  let r ← setF lib h .lowSpeedLimit fLimit
  if r ≠ 0 then pure .setOptionFailed else do
  let r ← setF lib h .lowSpeedTime fTime
  if r ≠ 0 then pure .setOptionFailed else do
  let r ← setF lib h .freshConnect fFresh
  if r ≠ 0 then pure .setOptionFailed else do
  let r ← setF lib h .forbidReuse fForbid
  if r ≠ 0 then pure .setOptionFailed else do
  let r ← setO lib h (.long .httpVersion HTTP_1_1)
  if r ≠ 0 then pure .setOptionFailed else pure .ok

/-- two options, the second only if the first is accepted -/
def setBoth (h : Ptr) (o1 o2 : Opt) : M Res := do
  let r ← setO lib h o1
  if r ≠ 0 then pure .setOptionFailed else do
  let r ← setO lib h o2
  if r ≠ 0 then pure .setOptionFailed else pure .ok

/-- adapters/httpapi_curl.c:284-375; `HTTPAPI_REQUEST_TYPE` (httpapi.h:56-62) is numbered GET, POST, PUT, DELETE, PATCH -/
def applyMethod (h : Ptr) (requestType : Nat) : M Res :=
  match requestType with
  | 0 => setBoth lib h (.long .httpGet 1) (.customRequest .null)
  | 1 => setBoth lib h (.long .post 1) (.customRequest .null)
  | 2 => setBoth lib h (.long .post 1) (.customRequest (.str (text "PUT")))
  | 3 => setBoth lib h (.long .post 1) (.customRequest (.str (text "DELETE")))
  | 4 => setBoth lib h (.long .post 1) (.customRequest (.str (text "PATCH")))
  | _ => pure .invalidArg

/-- adapters/httpapi_curl.c:383-409: the result and `headers`; the arguments are `headersCount - i`, `i`, `headers` -/
def headerLoop (httpHeadersHandle : Ptr) : Nat → Nat → Nat → M (Res × Nat)
  | 0, _, headers => pure (.ok, headers)
  | n + 1, i, headers => do
    let x ← HTTPHeaders_GetHeader httpHeadersHandle i true
    match x with
    | (.ok, some tempBuffer) => do
      let newHeaders ← lib.slistAppend headers (.heap tempBuffer 0)
      if newHeaders = 0 then do
        free tempBuffer
        pure (.allocFailed, headers)
      else do
        free tempBuffer
        headerLoop httpHeadersHandle n (i + 1) newHeaders
    | _ => pure (.httpHeadersFailed, headers)

/-- adapters/httpapi_curl.c:421-446 -/
def applyContent (h : Ptr) (requestType : Nat) (content : CharPtr) (contentLength : Nat) : M Res :=
  if content ≠ .null ∧ contentLength > 0 then
    setBoth lib h (.postFields content) (.long .postFieldSize (toLong contentLength))
  else if requestType ≠ 0 then
    setBoth lib h (.postFields .null) (.long .postFieldSize 0)
  else pure .ok

/-- adapters/httpapi_curl.c:450-468 -/
def applyCallbacks (h responseHeadersHandle : Ptr) : M Res := do
  let r ← setO lib h (.writeHeader 0)
  if r ≠ 0 then pure .setOptionFailed else do
  let r ← setO lib h (.headerFunction .null)
  if r ≠ 0 then pure .setOptionFailed else do
  let r ← setO lib h (.writeFunction .content)
  if r ≠ 0 then pure .setOptionFailed else do
  if responseHeadersHandle ≠ 0 then
    setBoth lib h (.writeHeader responseHeadersHandle) (.headerFunction .headers)
  else pure .ok

/-- adapters/httpapi_curl.c:515-526: the result after filling the response content -/
def fillContent (rcb responseContent : Ptr) : M Res := do
  if responseContent ≠ 0 then do
    let n ← loadInt rcb gSize
    if n > 0 then do
      let b ← loadPtr rcb gBuffer
      let n ← loadInt rcb gSize
      let r ← BUFFER_build responseContent (.ofPtr b) n
      if r ≠ 0 then pure .insufficientResponseBuffer else pure .ok
    else pure .ok
  else pure .ok

/-- adapters/httpapi_curl.c:509-512 -/
def fillStatus (statusCode : Ptr) (httpCode : Int) : M Unit :=
  if statusCode ≠ 0 then store statusCode 0 (intV httpCode) else pure ()

/-- adapters/httpapi_curl.c:485-539 -/
def execute (h rcb statusCode responseContent : Ptr) : M Res := do
  let c ← loadPtr h fCurl
  let curlRes ← perform lib c
  if curlRes ≠ 0 then pure .openRequestFailed
  else do
    let c ← loadPtr h fCurl
    let x ← lib.responseCode c
    if x.1 ≠ 0 then pure .queryHeadersFailed
    else do
      let e ← loadInt rcb gError
      if e ≠ 0 then pure .readDataFailed
      else do
        fillStatus statusCode x.2
        let r ← fillContent rcb responseContent
        if x.2 ≥ 300 then pure r else pure .ok

/-- adapters/httpapi_curl.c:472-545 -/
def receive (h rcb statusCode responseContent : Ptr) : M Res := do
  store rcb gBuffer (.ptr 0)
  store rcb gSize (.int 0)
  store rcb gError (.int 0)
  let r ← setO lib h (.writeData rcb)
  let r ← if r ≠ 0 then pure .setOptionFailed else execute lib h rcb statusCode responseContent
  let b ← loadPtr rcb gBuffer
  if b ≠ 0 then do
    free b
    pure r
  else pure r

/-- adapters/httpapi_curl.c:413-549 -/
def withHeaders (h rcb : Ptr) (requestType headers : Nat) (content : CharPtr) (contentLength : Nat) (statusCode rhdrs rcontent : Ptr) : M Res := do
  let r ← setO lib h (.httpHeader headers)
  if r ≠ 0 then pure .setOptionFailed else do
  let r ← applyContent lib h requestType content contentLength
  if r ≠ .ok then pure r else do
  let r ← applyCallbacks lib h rhdrs
  if r ≠ .ok then pure r else receive lib h rcb statusCode rcontent

/-- adapters/httpapi_curl.c:235-553 -/
def withURL (h rcb tempHostURL : Ptr) (size requestType : Nat) (relativePath : CharPtr) (hdrs : Ptr) (headersCount : Nat)
    (content : CharPtr) (contentLength : Nat) (statusCode rhdrs rcontent : Ptr) : M Res := do
  let r ← applyOptions lib h tempHostURL size relativePath
  if r ≠ .ok then pure r else do
  let r ← applyMethod lib h requestType
  if r ≠ .ok then pure r else do
  let x ← headerLoop lib hdrs headersCount 0 0
  let r ← if x.1 = .ok then withHeaders lib h rcb requestType x.2 content contentLength statusCode rhdrs rcontent else pure x.1
  lib.slistFreeAll x.2
  pure r

/-- adapters/httpapi_curl.c:199-559; `rcb`: address of `responseContentBuffer` -/
def HTTPAPI_ExecuteRequest (rcb handle : Ptr) (requestType : Nat) (relativePath : CharPtr) (httpHeadersHandle : Ptr) (content : CharPtr)
    (contentLength : Nat) (statusCode responseHeadersHandle responseContent : Ptr) : M Res := do
  if handle = 0 ∨ relativePath = .null ∨ httpHeadersHandle = 0 ∨ (content = .null ∧ contentLength > 0) then pure .invalidArg
  else do
    let x ← HTTPHeaders_GetHeaderCount httpHeadersHandle true
    match x with
    | (.ok, some headersCount) => do
      let u ← loadPtr handle fHost
      let n1 ← strlen (.ofPtr u)
      let n2 ← strlen relativePath
      let size := (n1 + n2 + 1) % szMod
      let tempHostURL ← malloc size
      if tempHostURL = 0 then pure .error
      else do
        let r ← withURL lib handle rcb tempHostURL size requestType relativePath httpHeadersHandle headersCount content contentLength
          statusCode responseHeadersHandle responseContent
        free tempHostURL
        pure r
    | _ => pure .invalidArg
end

/-! ## Options -/

/-- adapters/httpapi_curl.c:561-614 -/
def HTTPAPI_SetOption (handle : Ptr) (optionName : CharPtr) (value : Ptr) : M Res := do
  if handle = 0 ∨ optionName = .null ∨ value = 0 then pure .invalidArg
  else do
    let r ← strcmp (.str (text "timeout")) optionName
    if r = 0 then do
      let v ← loadInt value 0
      store handle fTimeout (.int (v % 2 ^ 32))
      pure .ok
    else do
    let r ← strcmp (.str (text "CURLOPT_LOW_SPEED_LIMIT")) optionName
    if r = 0 then do
      let v ← loadInt value 0
      store handle fLimit (.int v)
      pure .ok
    else do
    let r ← strcmp (.str (text "CURLOPT_LOW_SPEED_TIME")) optionName
    if r = 0 then do
      let v ← loadInt value 0
      store handle fTime (.int v)
      pure .ok
    else do
    let r ← strcmp (.str (text "CURLOPT_FRESH_CONNECT")) optionName
    if r = 0 then do
      let v ← loadInt value 0
      store handle fFresh (.int v)
      pure .ok
    else do
    let r ← strcmp (.str (text "CURLOPT_FORBID_REUSE")) optionName
    if r = 0 then do
      let v ← loadInt value 0
      store handle fForbid (.int v)
      pure .ok
    else do
    let r ← strcmp (.str (text "CURLOPT_VERBOSE")) optionName
    if r = 0 then do
      let v ← loadInt value 0
      store handle fVerbose (.int v)
      pure .ok
    else pure .invalidArg

/-- adapters/httpapi_curl.c:648-652: the condition -/
def isLongOption (optionName : CharPtr) : M Bool := do
  let r ← strcmp (.str (text "CURLOPT_LOW_SPEED_LIMIT")) optionName
  if r = 0 then pure true else do
  let r ← strcmp (.str (text "CURLOPT_LOW_SPEED_TIME")) optionName
  if r = 0 then pure true else do
  let r ← strcmp (.str (text "CURLOPT_FRESH_CONNECT")) optionName
  if r = 0 then pure true else do
  let r ← strcmp (.str (text "CURLOPT_FORBID_REUSE")) optionName
  if r = 0 then pure true else do
  let r ← strcmp (.str (text "CURLOPT_VERBOSE")) optionName
  pure (decide (r = 0))

/-- adapters/httpapi_curl.c:616-676 -/
def HTTPAPI_CloneOption (optionName : CharPtr) (value savedValue : Ptr) : M Res := do
  if optionName = .null ∨ value = 0 ∨ savedValue = 0 then pure .invalidArg
  else do
    let r ← strcmp (.str (text "timeout")) optionName
    if r = 0 then do
      let temp ← mallocW 4 1
      if temp = 0 then pure .error
      else do
        let v ← loadInt value 0
        store temp 0 (.int (v % 2 ^ 32))
        store savedValue 0 (.ptr temp)
        pure .ok
    else do
      let long ← isLongOption optionName
      if long then do
        let temp ← mallocW 8 1
        if temp = 0 then pure .error
        else do
          let v ← loadInt value 0
          store temp 0 (.int v)
          store savedValue 0 (.ptr temp)
          pure .ok
      else pure .invalidArg

end Verif.Curl
