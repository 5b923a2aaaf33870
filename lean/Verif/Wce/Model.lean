import Verif.Mb.Model
import Verif.Wce.HookModel
/-!
# Model of `adapters/httpapi_wince.c`

A client of HTTP/1.1 on a secure socket of Windows CE.  Winsock is a parameter (`Lib`).

The functions that read (`readLine`, `readChunk`, `skipN`, adapters/httpapi_wince.c:253-315) and the parts of `HTTPAPI_ExecuteRequest` that send the request and read the response
(414-676) have the text of those of `adapters/httpapi_mbed.cpp`, with `send(fd, …, 0)` and `recv(fd, …, 0)` for the methods of the connection; so they are the functions of `Verif.Mb.Model`
on these two (`Lib.stream`).  `_snprintf`, that returns a negative number if the text does not fit, is `snprintf` there: both are the same failure.

`SOCKET` is an unsigned type, `INVALID_SOCKET` its largest value, so `socket(…) < 0` (357) is false.  `int result` of 372 hides `result` of the function: when no connection is made, the function
returns a variable that was never set; its value is `Lib.junk`.  The simplifications of `Verif.Mb.Model` are those here (`size_t` of 64 bits, `new`); `strcpy_s` is the one of
`crt_abstractions.c`, as if the handler for invalid parameters returned.  Logging is left out.
-/
namespace Verif.Wce
open Verif.Crt (strcpy_s)
open Verif.Headers (HTTPHeaders_GetHeaderCount)

abbrev Res := Curl.Res

/-- Winsock -/
structure Lib where
  /-- `WSAStartup(MAKEWORD(2, 2), &wsaData)`: its result, and the bytes of `wsaData.wVersion` -/
  startup : M (Int × Nat × Nat)
  /-- `WSACleanup` -/
  cleanup : M Unit
  /-- `socket(AF_INET, SOCK_STREAM, IPPROTO_TCP)` -/
  socket : M Nat
  /-- `gethostbyname`: the first address; `none`: NULL -/
  resolve : CharPtr → M (Option Nat)
  /-- `setsockopt(s, SOL_SOCKET, SO_SECURE, SO_SEC_SSL)` -/
  secure : Nat → M Int
  /-- `WSAIoctl(s, SO_SSL_SET_VALIDATE_CERT_HOOK, SSLValidateCertHook)` -/
  hook : Nat → M Int
  /-- `WSAIoctl(s, SO_SSL_SET_PROTOCOLS, SSL_PROTOCOL_TLS1)` -/
  tls : Nat → M Int
  /-- `WSAGetLastError` -/
  lastError : M Int
  /-- `connect` to an address and a port -/
  connect : Nat → (address port : Nat) → M Int
  /-- `closesocket` -/
  close : Nat → M Unit
  /-- `send(fd, p, n, 0)` -/
  send : Nat → CharPtr → Int → M Int
  /-- `recv(fd, p + off, n, 0)` -/
  recv : Nat → (p : Ptr) → (off : Nat) → Int → M Int
  /-- the value of a variable that was not set -/
  junk : M Res

/-- what the functions shared with `httpapi_mbed.cpp` use -/
def Lib.stream (lib : Lib) : Mb.Lib where
  construct _ := pure ()
  destruct _ := pure ()
  isConnected _ := pure true
  connect _ _ _ := pure 0
  close _ := pure ()
  loadCertificate _ _ _ := pure true
  sendAll := lib.send
  receive := lib.recv

/-- `INVALID_SOCKET`, `(SOCKET)-1` -/
abbrev INVALID : Nat := szMod - 1
/-- the slot of `_sock_fd`; slots 0-63 are `host`, adapters/httpapi_wince.c:26-32 -/
abbrev fFd : Nat := 64
/-- the slot of `_remoteHost` (the address) -/
abbrev fAddr : Nat := 65

/-- `%3u` of `sscanf`: what follows; `none`: no match -/
def scanU3 (s : Text) : Option Text :=
  let s := s.dropWhile Mb.isspace
  let x := Mb.sign s
  let width := if x.2.length < s.length then 2 else 3
  let d := (x.2.take width).takeWhile Mb.isDigit
  if d = [] then none else some (x.2.drop d.length)

/-- how many of the next `n` numbers, with points between them, `sscanf` reads -/
def conv : Nat → Text → Nat
  | 0, _ => 0
  | n + 1, s =>
    match scanU3 s with
    | none => 0
    | some (46 :: rest) => conv n rest + 1
    | some _ => 1

/-- the numbers that `sscanf(host, "%3u.%3u.%3u.%3u", …)` stores, adapters/httpapi_wince.c:372-374 -/
def conversions (host : Text) : Nat := conv 4 host

section
variable (lib : Lib)

/-- adapters/httpapi_wince.c:171-199 -/
def HTTPAPI_Init : M Res := do
  let x ← lib.startup
  if x.1 ≠ 0 then pure .initFailed else
  if x.2.1 ≠ 2 ∨ x.2.2 ≠ 2 then do
    lib.cleanup
    pure .initFailed
  else pure .ok

/-- adapters/httpapi_wince.c:201-204 -/
def HTTPAPI_Deinit : M Unit := lib.cleanup

/-- adapters/httpapi_wince.c:206-233; `new HTTP_HANDLE_DATA()` sets the members to 0 -/
def HTTPAPI_CreateConnection (hostName : CharPtr) : M Ptr := do
  if hostName ≠ .null then do
    let handle ← Mb.new 128 66
    storeN handle 0 (List.replicate 64 (.byte 0) ++ [.int 0, .int 0])
    let r ← strcpy_s handle Mb.MAX_HOSTNAME hostName
    if r ≠ 0 then do
      free handle
      pure 0
    else do
      store handle fFd (.int INVALID)
      pure handle
  else pure 0

/-- adapters/httpapi_wince.c:235-251 -/
def HTTPAPI_CloseConnection (h : Ptr) : M Unit := do
  if h ≠ 0 then do
    let fd ← loadInt h fFd
    if fd ≠ INVALID then do
      lib.close fd
      store h fFd (.int INVALID)
      free h
    else free h
  else pure ()

/-- adapters/httpapi_wince.c:124-169; `g`: the address of `g_SslOptions`; SOCKET_ERROR is -1 -/
def SSLInit (g : Ptr) (s opt : Nat) : M Int := do
  store g 0 (.int opt)
  let r ← lib.secure s
  if r = -1 then lib.lastError else do
  let r ← lib.hook s
  if r = -1 then lib.lastError else do
  let r ← lib.tls s
  if r = -1 then lib.lastError else pure 0

/-- adapters/httpapi_wince.c:354-412: `none`: there is a connection; otherwise what the function returns.  The addresses of `address[2]` and `address[3]`, where `sscanf` stores four
bytes, are less than four bytes from the end of the array. -/
def ensureConnected (g h : Ptr) : M (Option Res) := do
  let fd ← loadInt h fFd
  if fd ≠ INVALID then pure none else do
  let s ← lib.socket
  store h fFd (.int s)
  store h fAddr (.int 0)
  let host ← cstr (.heap h 0)
  if 3 ≤ conversions host then ub "store out of bounds" else do
  let a ← lib.resolve (.heap h 0)
  match a with
  | none => do
    let r ← lib.junk
    pure (some r)
  | some a => do
    store h fAddr (.int a)
    let e ← SSLInit lib g s SSL_OPT_DEFAULT
    if e ≠ 0 then do
      let r ← lib.junk
      pure (some r)
    else do
    let e ← lib.connect s a 443
    if e < 0 then do
      lib.close s
      store h fFd (.int INVALID)
      let r ← lib.junk
      pure (some r)
    else pure none

/-- adapters/httpapi_wince.c:414-676 -/
def exchange (fd : Nat) (buf cp : Ptr) (requestType : Nat) (relativePath : CharPtr) (httpHeadersHandle : Ptr) (headersCount : Nat) (content : CharPtr)
    (contentLength : Nat) (statusCode responseHeadersHandle responseContent : Ptr) : M Res := do
  let r ← Mb.send lib.stream fd buf (Mb.methodName requestType) relativePath httpHeadersHandle headersCount content contentLength
  if r ≠ .ok then pure r else
  Mb.receive lib.stream fd buf cp statusCode responseHeadersHandle responseContent

/-- adapters/httpapi_wince.c:319-681; `buf`, `cp`: the addresses of the automatic arrays -/
def HTTPAPI_ExecuteRequest (g buf cp : Ptr) (handle : Ptr) (requestType : Nat) (relativePath : CharPtr) (httpHeadersHandle : Ptr) (content : CharPtr)
    (contentLength : Nat) (statusCode responseHeadersHandle responseContent : Ptr) : M Res := do
  if handle = 0 ∨ relativePath = .null ∨ httpHeadersHandle = 0 ∨ Mb.methodName requestType = .null then pure .invalidArg else do
  let x ← HTTPHeaders_GetHeaderCount httpHeadersHandle true
  match x with
  | (.ok, some headersCount) => do
    let e ← ensureConnected lib g handle
    match e with
    | some r => pure r
    | none => do
      let fd ← loadInt handle fFd
      exchange lib fd buf cp requestType relativePath httpHeadersHandle headersCount content contentLength statusCode responseHeadersHandle responseContent
  | _ => pure .invalidArg
end

/-- adapters/httpapi_wince.c:683-701: there are no options -/
def HTTPAPI_SetOption (_handle : Ptr) (_optionName _value : CharPtr) : M Res := pure .invalidArg

/-- adapters/httpapi_wince.c:703-722 -/
def HTTPAPI_CloneOption (optionName value : CharPtr) (savedValue : Ptr) : M Res := do
  if optionName = .null ∨ value = .null ∨ savedValue = 0 then pure .invalidArg else do
  store savedValue 0 (.ptr 0)
  pure .invalidArg

end Verif.Wce
