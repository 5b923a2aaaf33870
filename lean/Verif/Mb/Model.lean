import Verif.Curl.Model
import Verif.Crt.Model
/-!
# Model of `adapters/httpapi_mbed.cpp`

A client of HTTP/1.1 on a `WolfSSLConnection`, whose methods are parameters (`Lib`); the connection object of a handle, a member of it (`con`), is a block of memory
of its own, and the handle keeps its address.
`httpheaders.c`, `buffer.c` and `crt_abstractions.c` are their models.  The functions that read (`readLine`, `readChunk`, `skipN`, the loops over
headers and chunks) are the same in `adapters/httpapi_wince.c:253-315` and `:479-690`, on a socket.

The automatic arrays `buf` (4096 bytes) and `c` of `readLine` (1 byte) are given by their addresses.  `new` that finds no memory ends the program
(it throws, nothing catches).  `size_t` has 64 bits, `int` 32; `sscanf(" %d", &bodyLength)`, that writes an `int` through the address of a `size_t`, sets
its low half (the high half is 0).  `sscanf` that reads a number that is not representable is undefined behaviour (C11 7.21.6.2p10).  `isspace`, `strncasecmp`
and `strcasecmp` are those of the C locale.  Logging is left out.
-/
namespace Verif.Mb
open Verif.Headers Verif.Buffer
open Verif.Sas (text)
open Verif.Curl (strchr fillStatus)
open Verif.Crt (strcpy_s)

abbrev Res := Curl.Res
abbrev Text := List UInt8

/-- Methods of `WolfSSLConnection` (adapters/wolfssl_connection.h) -/
structure Lib where
  construct : (con : Nat) → M Unit
  destruct : (con : Nat) → M Unit
  isConnected : (con : Nat) → M Bool
  connect : (con : Nat) → (host : CharPtr) → (port : Nat) → M Int
  close : (con : Nat) → M Unit
  loadCertificate : (con : Nat) → CharPtr → (size : Nat) → M Bool
  sendAll : (con : Nat) → CharPtr → (length : Int) → M Int
  /-- `receive(p + off, length)` -/
  receive : (con : Nat) → (p : Ptr) → (off : Nat) → (length : Int) → M Int

/-! ## The C library -/

/-- the conversion of a `size_t` to `int` -/
def toI32 (n : Nat) : Int := if n % 2 ^ 32 < 2 ^ 31 then (n % 2 ^ 32 : Nat) else (n % 2 ^ 32 : Nat) - 2 ^ 32

/-- `isspace` -/
def isspace (c : UInt8) : Bool := c == 32 || (9 ≤ c && c ≤ 13)

/-- `tolower` -/
def lower (c : UInt8) : UInt8 := if 65 ≤ c ∧ c ≤ 90 then c + 32 else c

/-- `strncasecmp(t, lit, strlen(lit)) == 0`, for `lit` in lower case -/
def startsCI (lit t : Text) : Bool := (t.take lit.length).map lower == lit

def isDigit (c : UInt8) : Bool := 48 ≤ c && c ≤ 57
def isHex (c : UInt8) : Bool := isDigit c || (65 ≤ c && c ≤ 70) || (97 ≤ c && c ≤ 102)
/-- the value of a digit -/
def digitVal (c : UInt8) : Nat := if isDigit c then c.toNat - 48 else if c ≤ 70 then c.toNat - 55 else c.toNat - 87
/-- the value of digits -/
def value (base : Nat) (d : Text) : Nat := d.foldl (fun n c => base * n + digitVal c) 0

/-- an optional sign: whether it is a minus, and what follows -/
def sign : Text → Bool × Text
  | 45 :: s => (true, s)
  | 43 :: s => (false, s)
  | s => (false, s)

/-- `%d` of `sscanf`: the number and what follows; `none`: no match -/
def scanInt (s : Text) : Option (Int × Text) :=
  let x := sign (s.dropWhile isspace)
  let d := x.2.takeWhile isDigit
  if d = [] then none else some (if x.1 then -(value 10 d : Int) else value 10 d, x.2.dropWhile isDigit)

/-- the prefix `0x` of a hexadecimal number -/
def hexPrefix : Text → Text
  | 48 :: 120 :: s => s
  | 48 :: 88 :: s => s
  | s => s

/-- `%x` of `sscanf`, stored in an `int`; `none`: no match -/
def scanHex (s : Text) : Option Int :=
  let x := sign (s.dropWhile isspace)
  let d := (hexPrefix x.2).takeWhile isHex
  if d = [] then none else some (if x.1 then -(value 16 d : Int) else value 16 d)

/-- `sscanf(buf, "HTTP/%*d.%*d %d %*[^\r\n]", &ret)`: the number stored; `none`: the result is not 1 -/
def scanStatus (s : Text) : Option Int :=
  if s.take 5 ≠ text "HTTP/" then none else
  match scanInt (s.drop 5) with
  | some (_, 46 :: s) =>
    match scanInt s with
    | some (_, s) => (scanInt s).map (·.1)
    | none => none
  | _ => none

/-- a number fits in `int` -/
def fitsInt (z : Int) : Prop := -2 ^ 31 ≤ z ∧ z < 2 ^ 31
instance (z : Int) : Decidable (fitsInt z) := by unfold fitsInt; exact inferInstance
/-- a number is converted to `unsigned int` by `strtoul`, a minus sign being applied afterwards -/
def fitsHex (z : Int) : Prop := -2 ^ 32 < z ∧ z < 2 ^ 32
instance (z : Int) : Decidable (fitsHex z) := by unfold fitsHex; exact inferInstance

/-- adapters/httpapi_mbed.cpp:22 -/
abbrev TEMP_BUFFER_SIZE : Nat := 4096
/-- adapters/httpapi_mbed.cpp:21 -/
abbrev MAX_HOSTNAME : Nat := 64
/-- the slot of `certificate` in the object; slots 0-63 are `host`, adapters/httpapi_mbed.cpp:28-34 -/
abbrev fCert : Nat := 64
/-- the slot with the address of `con` -/
abbrev fCon : Nat := 65
/-- the size of `con` -/
abbrev conSlots : Nat := 8

/-- `new`: the program ends if there is no memory -/
def new (bytes slots : Nat) : M Ptr := do
  let p ← mallocW bytes slots
  if p = 0 then (fun _ => none) else pure p

/-- adapters/httpapi_mbed.cpp:36-46 -/
def HTTPAPI_Init : M Res := pure .ok
/-- adapters/httpapi_mbed.cpp:48-51 -/
def HTTPAPI_Deinit : M Unit := pure ()

/-- adapters/httpapi_mbed.cpp:179-184 -/
def methodName (requestType : Nat) : CharPtr :=
  match requestType with
  | 0 => .str (text "GET")
  | 1 => .str (text "POST")
  | 2 => .str (text "PUT")
  | 3 => .str (text "DELETE")
  | 4 => .str (text "PATCH")
  | _ => .null

section
variable (lib : Lib)

/-- adapters/httpapi_mbed.cpp:53-77; `new HTTP_HANDLE_DATA()` sets the members to 0 and constructs `con` -/
def HTTPAPI_CreateConnection (hostName : CharPtr) : M Ptr := do
  if hostName ≠ .null then do
    let handle ← new 128 66
    let con ← new conSlots conSlots
    storeN handle 0 (List.replicate 64 (.byte 0) ++ [.ptr 0, .ptr con])
    lib.construct con
    let r ← strcpy_s handle MAX_HOSTNAME hostName
    if r ≠ 0 then do
      lib.destruct con
      free con
      free handle
      pure 0
    else do
      store handle fCert (.ptr 0)
      pure handle
  else pure 0

/-- adapters/httpapi_mbed.cpp:79-96 -/
def HTTPAPI_CloseConnection (h : Ptr) : M Unit := do
  if h ≠ 0 then do
    let con ← loadPtr h fCon
    let b ← lib.isConnected con
    if b then lib.close con else pure ()
    let c ← loadPtr h fCert
    if c ≠ 0 then free c else pure ()
    lib.destruct con
    free con
    free h
  else pure ()

/-! ## Reading -/

/-- adapters/httpapi_mbed.cpp:106-116; `p`: the offset of `p` in `buf`; `cp`: the address of `c` -/
def readLineLoop (con : Nat) (buf cp : Ptr) (size p : Nat) : M Int := do
  let c ← loadByte cp 0
  if c ≠ 13 then
    if p + 1 ≥ size then pure (-1) else do
    store buf p (.byte c)
    let r ← lib.receive con cp 0 1
    if r < 0 then pure (-1) else readLineLoop con buf cp size (p + 1)
  else do
    store buf p (.byte 0)
    let r ← lib.receive con cp 0 1
    if r < 0 then pure (-1) else do
    let c ← loadByte cp 0
    if c ≠ 10 then pure (-1) else pure p
partial_fixpoint

/-- adapters/httpapi_mbed.cpp:98-117; `c` is not initialised -/
def readLine (con : Nat) (buf cp : Ptr) (size : Nat) : M Int := do
  store cp 0 .undef
  let r ← lib.receive con cp 0 1
  if r < 0 then pure (-1) else readLineLoop lib con buf cp size 0

/-- adapters/httpapi_mbed.cpp:119-141; `buf + off`: the pointer passed -/
def readChunk (con : Nat) (buf : Ptr) (off size offset : Nat) : M Int := do
  if size > 0 then do
    let r ← lib.receive con buf ((off + offset) % szMod) (toI32 size)
    let cur := (r % szMod).toNat
    if cur = 0 then pure (toI32 offset)
    else readChunk con buf off ((size + szMod - cur) % szMod) ((offset + cur) % szMod)
  else pure (toI32 offset)
partial_fixpoint

/-- adapters/httpapi_mbed.cpp:143-160 -/
def skipN (con : Nat) (buf : Ptr) (size org n : Nat) : M Int := do
  if n > size then do
    let r ← readChunk lib con buf 0 size 0
    if r < 0 then pure (-1) else skipN con buf size org (n - size)
  else do
    let r ← readChunk lib con buf 0 n 0
    if r < 0 then pure (-1) else pure (toI32 org)
partial_fixpoint

/-! ## A request -/

/-- adapters/httpapi_mbed.cpp:235-260; `n`: how many are left -/
def sendHeaders (con : Nat) (headers : Ptr) (i : Nat) : Nat → M Res
  | 0 => pure .ok
  | n + 1 => do
    let x ← HTTPHeaders_GetHeader headers i true
    match x with
    | (.ok, some header) => do
      let l ← strlen (.heap header 0)
      let r ← lib.sendAll con (.heap header 0) (toI32 l)
      if r < 0 then do
        free header
        pure .sendRequestFailed
      else do
      let r ← lib.sendAll con (.str [13, 10]) 2
      if r < 0 then do
        free header
        pure .sendRequestFailed
      else do
      free header
      sendHeaders con headers (i + 1) n
    | _ => pure .httpHeadersFailed

/-- adapters/httpapi_mbed.cpp:220-279 -/
def send (con : Nat) (buf : Ptr) (method relativePath : CharPtr) (headers : Ptr) (headersCount : Nat) (content : CharPtr) (contentLength : Nat) : M Res := do
  let m ← cstr method
  let u ← cstr relativePath
  let t := m ++ [32] ++ u ++ text " HTTP/1.1" ++ [13, 10]
  storeN buf 0 (bytesV (t.take (TEMP_BUFFER_SIZE - 1) ++ [0]))
  if t.length ≥ TEMP_BUFFER_SIZE then pure .stringProcessingError else do
  let l ← strlen (.heap buf 0)
  let r ← lib.sendAll con (.heap buf 0) (toI32 l)
  if r < 0 then pure .sendRequestFailed else do
  let e ← sendHeaders lib con headers 0 headersCount
  if e ≠ .ok then pure e else do
  let r ← lib.sendAll con (.str [13, 10]) 2
  if r < 0 then pure .sendRequestFailed else do
  if content ≠ .null ∧ contentLength > 0 then do
    let r ← lib.sendAll con content (toI32 contentLength)
    if r < 0 then pure .sendRequestFailed else pure .ok
  else pure .ok

/-- adapters/httpapi_mbed.cpp:200-218 -/
def ensureConnected (h con : Ptr) : M Res := do
  let b ← lib.isConnected con
  if b then pure .ok else do
  let c ← loadPtr h fCert
  let good ← if c ≠ 0 then do
      let l ← strlen (.heap c 0)
      lib.loadCertificate con (.heap c 0) (l + 1)
    else pure true
  if good = false then pure .error else do
  let r ← lib.connect con (.heap h 0) 443
  if r ≠ 0 then pure .error else pure .ok

/-- adapters/httpapi_mbed.cpp:311-329: `bodyLength` and `chunked`; `none`: HTTPAPI_READ_DATA_FAILED -/
def lineEffect (buf : Ptr) (bodyLength : Nat) (chunked : Bool) : M (Option (Nat × Bool)) := do
  let t ← cstr (.heap buf 0)
  if startsCI (text "content-length:") t then
    match scanInt (t.drop 15) with
    | none => pure none
    | some (z, _) => if fitsInt z then pure (some ((z % 2 ^ 32).toNat, chunked)) else ub "number not representable"
  else if startsCI (text "transfer-encoding:") t then
    pure (some (bodyLength, if ((t.drop 18).dropWhile isspace).map lower = text "chunked" then true else chunked))
  else pure (some (bodyLength, chunked))

/-- adapters/httpapi_mbed.cpp:331-336 -/
def addLine (rh buf : Ptr) : M Unit := do
  let w ← strchr buf 58 0
  match w with
  | none => pure ()
  | some i =>
    if rh ≠ 0 then do
      store buf i (.byte 0)
      let _ ← HTTPHeaders_AddHeaderNameValuePair rh (.heap buf 0) (.heap buf (i + 1))
      pure ()
    else pure ()

/-- adapters/httpapi_mbed.cpp:301-344: `bodyLength` and `chunked`; `none`: HTTPAPI_READ_DATA_FAILED.  The call of `readLine` before the loop (302) and the one
at the end of the loop (338), that are followed by the same test, are the same call here. -/
def readHeaders (con : Nat) (buf cp rh : Ptr) (bodyLength : Nat) (chunked : Bool) : M (Option (Nat × Bool)) := do
  let r ← readLine lib con buf cp TEMP_BUFFER_SIZE
  if r < 0 then pure none else do
  let c ← loadByte buf 0
  if c = 0 then pure (some (bodyLength, chunked)) else do
  let e ← lineEffect buf bodyLength chunked
  match e with
  | none => pure none
  | some (bodyLength, chunked) => do
    addLine rh buf
    readHeaders con buf cp rh bodyLength chunked
partial_fixpoint

/-- adapters/httpapi_mbed.cpp:353-364: `receivedContent`; `none`: it is not initialised -/
def prepare (rc : Ptr) (bodyLength : Nat) : M (Option Ptr) := do
  let r ← BUFFER_pre_build rc bodyLength
  if r ≠ 0 then pure none else do
  let x ← BUFFER_content rc true
  match x with
  | (0, some p) => pure (some p)
  | _ => do
    let _ ← BUFFER_unbuild rc
    pure none

/-- adapters/httpapi_mbed.cpp:349-386 -/
def plainBody (con : Nat) (buf rc : Ptr) (bodyLength : Nat) : M Res := do
  if bodyLength ≠ 0 then
    if rc ≠ 0 then do
      let w ← prepare rc bodyLength
      match w with
      | none => ub "use of a pointer that is not initialised"
      | some p => do
        let r ← readChunk lib con p 0 bodyLength 0
        if r < 0 then pure .readDataFailed else pure .ok
    else do
      let _ ← skipN lib con buf TEMP_BUFFER_SIZE bodyLength bodyLength
      pure .ok
  else pure .ok

/-- adapters/httpapi_mbed.cpp:412-413, 459-460: whether CR LF could be read -/
def skipCrlf (con : Nat) (buf : Ptr) : M Bool := do
  let r ← readChunk lib con buf 0 2 0
  if r < 0 then pure false else do
  let a ← loadByte buf 0
  if a ≠ 13 then pure false else do
  let b ← loadByte buf 1
  pure (b == 10)

/-- adapters/httpapi_mbed.cpp:427-440: `receivedContent` (`none`: it is not initialised) and `result` -/
def enlarge (rc : Ptr) (n : Nat) (received : Option Ptr) (result : Res) : M (Option Ptr × Res) := do
  let r ← BUFFER_enlarge rc n
  if r ≠ 0 then do
    let _ ← BUFFER_unbuild rc
    pure (received, .allocFailed)
  else do
  let x ← BUFFER_content rc true
  match x with
  | (0, some p) => pure (some p, result)
  | _ => do
    let _ ← BUFFER_unbuild rc
    pure (received, .allocFailed)

/-- adapters/httpapi_mbed.cpp:425-457: the data of a chunk; `received` and `result`; `none`: HTTPAPI_READ_DATA_FAILED -/
def chunkData (con : Nat) (buf rc : Ptr) (size : Nat) (z : Int) (received : Option Ptr) (result : Res) : M (Option (Option Ptr × Res)) := do
  let n := (z % szMod).toNat
  if rc ≠ 0 then do
    let x ← enlarge rc n received result
    match x.1 with
    | none => ub "use of a pointer that is not initialised"
    | some p => do
      let r ← readChunk lib con p size n 0
      if r < 0 then pure none else pure (some x)
  else do
    let r ← skipN lib con buf TEMP_BUFFER_SIZE n n
    if r < 0 then pure none else pure (some (received, result))

/-- adapters/httpapi_mbed.cpp:392-468 -/
def chunkLoop (con : Nat) (buf cp rc : Ptr) (size : Nat) (received : Option Ptr) (result : Res) : M Res := do
  let r ← readLine lib con buf cp TEMP_BUFFER_SIZE
  if r < 0 then pure .readDataFailed else do
  let t ← cstr (.heap buf 0)
  match scanHex t with
  | none => pure .receiveResponseFailed
  | some u =>
    if ¬ fitsHex u then ub "number not representable" else do
    let z := toI32 (u % 2 ^ 32).toNat
    if z = 0 then do
      let ok ← skipCrlf lib con buf
      if ok then pure result else do
      let _ ← BUFFER_unbuild rc
      pure .readDataFailed
    else do
    let x ← chunkData lib con buf rc size z received result
    match x with
    | none => pure .readDataFailed
    | some (received, result) => do
      let ok ← skipCrlf lib con buf
      if ok then chunkLoop con buf cp rc ((size + (z % szMod).toNat) % szMod) received result else pure .readDataFailed
partial_fixpoint

/-- adapters/httpapi_mbed.cpp:281-470 -/
def receive (con : Nat) (buf cp statusCode rh rc : Ptr) : M Res := do
  let r ← readLine lib con buf cp TEMP_BUFFER_SIZE
  if r < 0 then pure .readDataFailed else do
  let t ← cstr (.heap buf 0)
  match scanStatus t with
  | none => pure .readDataFailed
  | some z =>
    if ¬ fitsInt z then ub "number not representable" else do
    fillStatus statusCode z
    let x ← readHeaders lib con buf cp rh 0 false
    match x with
    | none => pure .readDataFailed
    | some (bodyLength, chunked) =>
      if chunked then chunkLoop lib con buf cp rc 0 none .ok else plainBody lib con buf rc bodyLength

/-- adapters/httpapi_mbed.cpp:164-474; `buf`, `cp`: the addresses of the automatic arrays -/
def HTTPAPI_ExecuteRequest (buf cp : Ptr) (handle : Ptr) (requestType : Nat) (relativePath : CharPtr) (httpHeadersHandle : Ptr) (content : CharPtr)
    (contentLength : Nat) (statusCode responseHeadersHandle responseContent : Ptr) : M Res := do
  if handle = 0 ∨ relativePath = .null ∨ httpHeadersHandle = 0 ∨ methodName requestType = .null then pure .invalidArg else do
  let x ← HTTPHeaders_GetHeaderCount httpHeadersHandle true
  match x with
  | (.ok, some headersCount) => do
    let con ← loadPtr handle fCon
    let r ← ensureConnected lib handle con
    if r ≠ .ok then pure r else do
    let r ← send lib con buf (methodName requestType) relativePath httpHeadersHandle headersCount content contentLength
    if r ≠ .ok then pure r else
    receive lib con buf cp statusCode responseHeadersHandle responseContent
  | _ => pure .invalidArg

/-! ## Options -/

/-- adapters/httpapi_mbed.cpp:476-515; a certificate of 2³¹-1 bytes or more, whose length is not an `int`, is undefined behaviour -/
def HTTPAPI_SetOption (handle : Ptr) (optionName value : CharPtr) : M Res := do
  if handle = 0 ∨ optionName = .null ∨ value = .null then pure .invalidArg else do
  let r ← strcmp (.str (text "TrustedCerts")) optionName
  if r = 0 then do
    let old ← loadPtr handle fCert
    if old ≠ 0 then free old else pure ()
    let len ← strlen value
    if len ≥ 2 ^ 31 - 1 then ub "length not representable" else do
    let c ← new (len + 1) (len + 1)
    store handle fCert (.ptr c)
    strcpy c 0 value
    pure .ok
  else pure .invalidArg

/-- adapters/httpapi_mbed.cpp:517-551 -/
def HTTPAPI_CloneOption (optionName value : CharPtr) (savedValue : Ptr) : M Res := do
  if optionName = .null ∨ value = .null ∨ savedValue = 0 then pure .invalidArg else do
  let r ← strcmp (.str (text "TrustedCerts")) optionName
  if r = 0 then do
    let certLen ← strlen value
    let tempCert ← malloc (certLen + 1)
    if tempCert = 0 then pure .invalidArg else do
    strcpy tempCert 0 value
    store savedValue 0 (.ptr tempCert)
    pure .ok
  else pure .invalidArg
end

end Verif.Mb
