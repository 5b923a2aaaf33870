import Verif.List.Model
import Verif.Headers.Model
import Verif.Hmac.Model
/-!
# Model of `adapters/socketio_berkeley.c`

The socket functions of the operating system and the user's callbacks are parameters (`Os`); a function pointer is an
address, `0` is `NULL`.  `int`s in memory are kept as 32-bit two's complement.  `list.c` is the model of `Verif/List`.

`while` loops that need not end are given a bound on the number of iterations: the result `false` means that the call is
still running after that many iterations.  Theorems range over all bounds, so they cover every state between two
iterations of a call that never returns.

Left out: `LogError`, `LOG(logger_log, …)`; the formatting of the port by `sprintf("%u")` (the unsigned value is passed
on); the `addrHint` structure.  Callbacks do not call back into the same handle while it is in use.
Nonzero `int` results are the `__LINE__` of the source.
-/
namespace Verif.Sock
open Verif.List Verif.Headers

/-- `IO_STATE`, adapters/socketio_berkeley.c:25-32 -/
inductive IO_STATE | closed | opening | opn | closing | error
  deriving DecidableEq, Repr

def IO_STATE.code : IO_STATE → Nat
  | .closed => 0 | .opening => 1 | .opn => 2 | .closing => 3 | .error => 4

/-- External functions.  `send` is given the bytes it reads (see `sendTo`); `recv` is called with a buffer of one byte: it returns the
count and the byte.  `getaddrinfo` returns the error code and the result pointer. -/
structure Os where
  socket : M Int
  getaddrinfo : (hostname : CharPtr) → (port : Nat) → M (Int × Nat)
  connect : (fd : Int) → (ai : Nat) → M Int
  freeaddrinfo : (ai : Nat) → M Unit
  getfl : (fd : Int) → M Int
  setfl : (fd : Int) → (flags : Int) → M Int
  shutdown : (fd : Int) → M Int
  close : (fd : Int) → M Int
  send : (fd : Int) → (bytes : List UInt8) → M Int
  recv : (fd : Int) → M (Int × UInt8)
  on_io_open_complete : (fn ctx : Nat) → (ok : Bool) → M Unit
  on_io_close_complete : (fn ctx : Nat) → M Unit
  on_send_complete : (fn ctx : Nat) → (ok : Bool) → M Unit
  on_bytes_received : (fn ctx : Nat) → (bytes : List UInt8) → M Unit
  on_io_error : (fn ctx : Nat) → M Unit

/-- an `int` in memory -/
def intV (z : Int) : Val := .int (z % 2 ^ 32).toNat
def loadI (p : Ptr) (off : Nat) : M Int := do
  let n ← loadInt p off
  pure (if n < 2 ^ 31 then (n : Int) else (n : Int) - 2 ^ 32)

/-- `INVALID_SOCKET`, adapters/socketio_berkeley.c:23 -/
def INVALID_SOCKET : Int := -1

/-- `O_NONBLOCK` (Linux); `flags | O_NONBLOCK` for a nonnegative `flags` -/
def orNonblock (flags : Int) : Int := ((flags.toNat ||| 2048 : Nat) : Int)

/-! Fields of `SOCKET_IO_INSTANCE` (43-55) and `PENDING_SOCKET_IO` (34-41) -/
abbrev fSocket : Nat := 0
abbrev fLog : Nat := 1
abbrev fOnBytes : Nat := 2
abbrev fOnErr : Nat := 3
abbrev fOnBytesCtx : Nat := 4
abbrev fOnErrCtx : Nat := 5
abbrev fHost : Nat := 6
abbrev fPort : Nat := 7
abbrev fState : Nat := 8
abbrev fList : Nat := 9
abbrev gBytes : Nat := 0
abbrev gSize : Nat := 1
abbrev gOnSend : Nat := 2
abbrev gCtx : Nat := 3
abbrev gList : Nat := 4

def stateV (s : IO_STATE) : Val := .int s.code

/-- `SOCKETIO_CONFIG`, inc/azure_c_shared_utility/socketio.h:15-20; `accepted_socket`: the `int` it points to (`none`: `NULL`) -/
structure Config where
  hostname : CharPtr
  port : Int
  accepted_socket : Option Int

section
variable (os : Os)

/-- the call `send(fd, buf, size, 0)`: it reads `size` bytes at `buf` -/
def sendTo (fd : Int) (buf : CharPtr) (size : Nat) : M Int := do
  let bytes ← Hmac.readBytes buf size
  os.send fd bytes

/-- adapters/socketio_berkeley.c:68-74 -/
def indicate_error (s : Ptr) : M Unit := do
  let fn ← loadPtr s fOnErr
  if fn ≠ 0 then do
    let ctx ← loadPtr s fOnErrCtx
    os.on_io_error fn ctx
  else pure ()

/-- adapters/socketio_berkeley.c:76-116 -/
def add_pending_io (s : Ptr) (buffer : CharPtr) (size : Nat) (on_send_complete callback_context : Nat) : M Int := do
  let p ← mallocS 5
  if p = 0 then pure 82 else do
  let b ← malloc size
  store p gBytes (.ptr b)
  if b = 0 then do
    free p
    pure 91
  else do
  store p gSize (.int size)
  store p gOnSend (.ptr on_send_complete)
  store p gCtx (.ptr callback_context)
  let l ← loadPtr s fList
  store p gList (.ptr l)
  memcpy b 0 buffer size
  let l ← loadPtr s fList
  let r ← list_add l p
  if r = 0 then do
    let b ← loadPtr p gBytes
    free b
    free p
    pure 106
  else pure 0

/-- adapters/socketio_berkeley.c:142-156: hostname and socket of a new instance -/
def initTarget (result : Ptr) (c : Config) : M Unit := do
  if c.hostname ≠ .null then do
    let n ← strlen c.hostname
    let p ← malloc (n + 1)
    store result fHost (.ptr p)
    if p ≠ 0 then do
      strcpy p 0 c.hostname
      store result fSocket (intV INVALID_SOCKET)
    else
      store result fSocket (intV INVALID_SOCKET)
  else do
    store result fHost (.ptr 0)
    match c.accepted_socket with
    | none => ub "dereference of NULL"
    | some fd => store result fSocket (intV fd)

/-- adapters/socketio_berkeley.c:118-184 -/
def socketio_create (io_create_parameters : Option Config) (logger_log : Nat) : M Ptr :=
  match io_create_parameters with
  | none => pure 0
  | some c => do
    let result ← mallocS 10
    if result ≠ 0 then do
      let l ← list_create
      store result fList (.ptr l)
      if l = 0 then do
        free result
        pure 0
      else do
        initTarget result c
        let h ← loadPtr result fHost
        let fd ← loadI result fSocket
        if h = 0 ∧ fd = INVALID_SOCKET then do
          let l ← loadPtr result fList
          list_destroy l
          free result
          pure 0
        else do
          store result fPort (intV c.port)
          store result fOnBytes (.ptr 0)
          store result fOnErr (.ptr 0)
          store result fOnBytesCtx (.ptr 0)
          store result fOnErrCtx (.ptr 0)
          store result fLog (.ptr logger_log)
          store result fState (stateV .closed)
          pure result
    else pure result

/-- the loop of `socketio_destroy`, adapters/socketio_berkeley.c:199-210 -/
def clearLoop (s : Ptr) (first_pending_io : Ptr) : M Unit := do
  if first_pending_io ≠ 0 then do
    let p ← list_item_get_value first_pending_io
    if p ≠ 0 then do
      let b ← loadPtr p gBytes
      free b
      free p
      let l ← loadPtr s fList
      let _ ← list_remove l first_pending_io
      let first ← list_get_head_item l
      clearLoop s first
    else do
      let l ← loadPtr s fList
      let _ ← list_remove l first_pending_io
      let first ← list_get_head_item l
      clearLoop s first
  else pure ()
partial_fixpoint

/-- adapters/socketio_berkeley.c:186-216 -/
def socketio_destroy (s : Ptr) : M Unit := do
  if s ≠ 0 then do
    let fd ← loadI s fSocket
    if fd ≠ INVALID_SOCKET then do
      let _ ← os.close fd
      let l ← loadPtr s fList
      let first ← list_get_head_item l
      clearLoop s first
      let l ← loadPtr s fList
      list_destroy l
      let h ← loadPtr s fHost
      free h
      free s
    else do
      let l ← loadPtr s fList
      let first ← list_get_head_item l
      clearLoop s first
      let l ← loadPtr s fList
      list_destroy l
      let h ← loadPtr s fHost
      free h
      free s
  else pure ()

/-- the pointer kept in a `char*` field -/
def hostArg (h : Ptr) : CharPtr := if h = 0 then .null else .heap h 0

/-- the assignments of the callbacks, adapters/socketio_berkeley.c:238-243 and 303-309 (in another order), and the call of
`on_io_open_complete`, 245-248 and 311-314 -/
def becomeOpen (s : Ptr) (onOpen onOpenCtx onBytes onBytesCtx onErr onErrCtx : Nat) : M Unit := do
  store s fOnBytesCtx (.ptr onBytesCtx)
  store s fOnBytes (.ptr onBytes)
  store s fOnErr (.ptr onErr)
  store s fOnErrCtx (.ptr onErrCtx)
  store s fState (stateV .opn)
  if onOpen ≠ 0 then os.on_io_open_complete onOpen onOpenCtx true else pure ()

/-- close the socket and forget it, adapters/socketio_berkeley.c:275-276, 285-286, 297-298 -/
def dropSocket (s : Ptr) : M Unit := do
  let fd ← loadI s fSocket
  let _ ← os.close fd
  store s fSocket (intV INVALID_SOCKET)

/-- adapters/socketio_berkeley.c:281-318: everything between `getaddrinfo` and `freeaddrinfo` -/
def connectPart (s : Ptr) (ai : Nat) (onOpen onOpenCtx onBytes onBytesCtx onErr onErrCtx : Nat) : M Int := do
  let fd ← loadI s fSocket
  let err ← os.connect fd ai
  if err ≠ 0 then do
    dropSocket os s
    pure 287
  else do
    let fd ← loadI s fSocket
    let flags ← os.getfl fd
    if flags = -1 then do
      dropSocket os s
      pure 299
    else do
      let fd ← loadI s fSocket
      let r ← os.setfl fd (orNonblock flags)
      if r = -1 then do
        dropSocket os s
        pure 299
      else do
        becomeOpen os s onOpen onOpenCtx onBytes onBytesCtx onErr onErrCtx
        pure 0

/-- adapters/socketio_berkeley.c:218-326 -/
def socketio_open (s : Ptr) (onOpen onOpenCtx onBytes onBytesCtx onErr onErrCtx : Nat) : M Int := do
  if s = 0 then pure 226 else do
  let st ← loadInt s fState
  if st ≠ IO_STATE.closed.code then pure 233 else do
  let fd ← loadI s fSocket
  if fd ≠ INVALID_SOCKET then do
    becomeOpen os s onOpen onOpenCtx onBytes onBytesCtx onErr onErrCtx
    pure 0
  else do
    let r ← os.socket
    store s fSocket (intV r)
    let fd ← loadI s fSocket
    if fd < 0 then pure 261 else do
    let port ← loadInt s fPort
    let h ← loadPtr s fHost
    let x ← os.getaddrinfo (hostArg h) port
    if x.1 ≠ 0 then do
      dropSocket os s
      pure 277
    else do
      let result ← connectPart os s x.2 onOpen onOpenCtx onBytes onBytesCtx onErr onErrCtx
      os.freeaddrinfo x.2
      pure result

/-- adapters/socketio_berkeley.c:328-361: the result is overwritten with 0 (line 357) -/
def socketio_close (s : Ptr) (onClose ctx : Nat) : M Int := do
  if s = 0 then pure 334 else do
  let st ← loadInt s fState
  if st = IO_STATE.closed.code ∨ st = IO_STATE.closing.code then pure 0 else do
  let fd ← loadI s fSocket
  let _ ← os.shutdown fd
  let _ ← os.close fd
  store s fSocket (intV INVALID_SOCKET)
  store s fState (stateV .closed)
  if onClose ≠ 0 then do
    os.on_io_close_complete onClose ctx
    pure 0
  else pure 0

/-- adapters/socketio_berkeley.c:363-440.  The comparison `send_result != size` converts to `size_t`. -/
def socketio_send (s : Ptr) (buffer : CharPtr) (size : Nat) (on_send_complete callback_context : Nat) : M Int := do
  if s = 0 ∨ buffer = .null ∨ size = 0 then pure 373 else do
  let st ← loadInt s fState
  if st ≠ IO_STATE.opn.code then pure 381 else do
  let l ← loadPtr s fList
  let first_pending_io ← list_get_head_item l
  if first_pending_io ≠ 0 then do
    let r ← add_pending_io s buffer size on_send_complete callback_context
    if r ≠ 0 then pure 391 else pure 0
  else do
    let fd ← loadI s fSocket
    let send_result ← sendTo os fd buffer size
    if (send_result % szMod).toNat ≠ size then do
      if send_result = INVALID_SOCKET then do
        indicate_error os s
        pure 407
      else do
        let r ← add_pending_io s (addPtr buffer send_result.toNat) (size - send_result.toNat) on_send_complete callback_context
        if r ≠ 0 then pure 415 else pure 0
    else do
      if on_send_complete ≠ 0 then do
        os.on_send_complete on_send_complete callback_context true
        pure 0
      else pure 0

/-- the end of one round: take the pending IO off the list, adapters/socketio_berkeley.c:484-491 -/
def finishPending (s : Ptr) (p first_pending_io : Ptr) : M Unit := do
  let b ← loadPtr p gBytes
  free b
  free p
  let l ← loadPtr s fList
  let r ← list_remove l first_pending_io
  if r ≠ 0 then do
    store s fState (stateV .error)
    indicate_error os s
  else pure ()

/-- one round of the loop for a pending IO `p`, adapters/socketio_berkeley.c:463-492 -/
def sendRound (s : Ptr) (p first_pending_io : Ptr) : M Unit := do
  let fd ← loadI s fSocket
  let b ← loadPtr p gBytes
  let size ← loadInt p gSize
  let send_result ← sendTo os fd (.heap b 0) size
  let size ← loadInt p gSize
  if (send_result % szMod).toNat ≠ size then do
    if send_result = INVALID_SOCKET then do
      let b ← loadPtr p gBytes
      free b
      free p
      let l ← loadPtr s fList
      let _ ← list_remove l first_pending_io
      store s fState (stateV .error)
      indicate_error os s
    else do
      let b ← loadPtr p gBytes
      let size ← loadInt p gSize
      memmove b 0 send_result.toNat (size - send_result.toNat)
  else do
    let fn ← loadPtr p gOnSend
    if fn ≠ 0 then do
      let ctx ← loadPtr p gCtx
      os.on_send_complete fn ctx true
      finishPending os s p first_pending_io
    else
      finishPending os s p first_pending_io

/-- adapters/socketio_berkeley.c:451-495: at most `n` rounds; `false` if it has not ended by then -/
def sendLoop (s : Ptr) : (n : Nat) → (first_pending_io : Ptr) → M Bool
  | 0, first_pending_io => pure (decide (first_pending_io = 0))
  | n + 1, first_pending_io => do
    if first_pending_io = 0 then pure true else do
    let p ← list_item_get_value first_pending_io
    if p = 0 then do
      store s fState (stateV .error)
      indicate_error os s
      pure true
    else do
      sendRound os s p first_pending_io
      let l ← loadPtr s fList
      let first ← list_get_head_item l
      sendLoop s n first

/-- adapters/socketio_berkeley.c:497-514: at most `n` rounds; `false` if it has not ended by then -/
def recvLoop (s : Ptr) : (n : Nat) → M Bool
  | 0 => pure false
  | n + 1 => do
    let fd ← loadI s fSocket
    let x ← os.recv fd
    if x.1 > 0 then do
      let fn ← loadPtr s fOnBytes
      if fn ≠ 0 then do
        let ctx ← loadPtr s fOnBytesCtx
        os.on_bytes_received fn ctx [x.2]
        recvLoop s n
      else recvLoop s n
    else pure true

/-- adapters/socketio_berkeley.c:442-518 -/
def socketio_dowork (n m : Nat) (s : Ptr) : M Bool := do
  if s = 0 then pure true else do
  let st ← loadInt s fState
  if st ≠ IO_STATE.opn.code then pure true else do
  let l ← loadPtr s fList
  let first ← list_get_head_item l
  let fin ← sendLoop os s n first
  if fin then recvLoop os s m else pure false

/-- adapters/socketio_berkeley.c:520-524 -/
def socketio_setoption (_s : Ptr) (_optionName _value : Nat) : Int := 523

end
end Verif.Sock
