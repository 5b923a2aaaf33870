import Verif.Sock.Model
/-!
# Model of `adapters/socketio_win32.c`

As the model of `socketio_berkeley.c` (`Verif/Sock`), with Winsock in place of the Berkeley sockets.  `add_pending_io` (68-110) and `socketio_create` (112-176)
are the same text as there, and are not repeated: `Sock.add_pending_io`, `Sock.socketio_create` (only `logger_log`'s type differs).

A `SOCKET` is kept like an `int`, `INVALID_SOCKET` (`~0`) is -1.  Buffers given to `socketio_send` are smaller than 2³¹ bytes, so that the conversion `(int)size`
changes nothing.  `WSAGetLastError` is a parameter of its own: it may return anything, also after a call that did not fail.
Left out: `LogError`, `LOG`, the formatting of the port, the `addrHint` structure.  Callbacks do not call back into the same handle.
-/
namespace Verif.Sw
open Verif.List Verif.Headers
open Verif.Sock (IO_STATE intV loadI INVALID_SOCKET fSocket fOnBytes fOnErr fOnBytesCtx fOnErrCtx fHost fPort fState fList gBytes gSize gOnSend gCtx stateV Config
  add_pending_io hostArg clearLoop)

/-- Winsock and the callbacks -/
structure Os where
  socket : M Int
  getaddrinfo : (hostname : CharPtr) → (port : Nat) → M (Int × Nat)
  connect : (fd : Int) → (ai : Nat) → M Int
  freeaddrinfo : (ai : Nat) → M Unit
  /-- `ioctlsocket(fd, FIONBIO, &1)` -/
  ioctl : (fd : Int) → M Int
  close : (fd : Int) → M Int
  send : (fd : Int) → (bytes : List UInt8) → M Int
  recv : (fd : Int) → M (Int × UInt8)
  /-- `WSAGetLastError` -/
  lastError : M Int
  on_io_open_complete : (fn ctx : Nat) → (ok : Bool) → M Unit
  on_io_close_complete : (fn ctx : Nat) → M Unit
  on_send_complete : (fn ctx : Nat) → (ok : Bool) → M Unit
  on_bytes_received : (fn ctx : Nat) → (bytes : List UInt8) → M Unit
  on_io_error : (fn ctx : Nat) → M Unit

def WSAEWOULDBLOCK : Int := 10035

section
variable (os : Os)

/-- the call `send(fd, buf, (int)size, 0)`: it reads `size` bytes at `buf` -/
def sendTo (fd : Int) (buf : CharPtr) (size : Nat) : M Int := do
  let bytes ← Hmac.readBytes buf size
  os.send fd bytes

/-- adapters/socketio_win32.c:60-66 -/
def indicate_error (s : Ptr) : M Unit := do
  let fn ← loadPtr s fOnErr
  if fn ≠ 0 then do
    let ctx ← loadPtr s fOnErrCtx
    os.on_io_error fn ctx
  else pure ()

/-- adapters/socketio_win32.c:178-208; the socket is closed even if there is none.  The loop 187-198 is that of `socketio_berkeley.c` (`Sock.clearLoop`). -/
def socketio_destroy (s : Ptr) : M Unit := do
  if s ≠ 0 then do
    let fd ← loadI s fSocket
    let _ ← os.close fd
    let l ← loadPtr s fList
    let first ← list_get_head_item l
    clearLoop s first
    let l ← loadPtr s fList
    list_destroy l
    let h ← loadPtr s fHost
    if h ≠ 0 then do
      free h
      free s
    else
      free s
  else pure ()

/-- the assignments of the callbacks, adapters/socketio_win32.c:228-234 and 288-294 (in another order), and the call of
`on_io_open_complete`, 236-239 and 296-299 -/
def becomeOpen (s : Ptr) (onOpen onOpenCtx onBytes onBytesCtx onErr onErrCtx : Nat) : M Unit := do
  store s fOnBytesCtx (.ptr onBytesCtx)
  store s fOnBytes (.ptr onBytes)
  store s fOnErr (.ptr onErr)
  store s fOnErrCtx (.ptr onErrCtx)
  store s fState (stateV .opn)
  if onOpen ≠ 0 then os.on_io_open_complete onOpen onOpenCtx true else pure ()

/-- close the socket and forget it, adapters/socketio_win32.c:264-265, 275-276, 282-283 -/
def dropSocket (s : Ptr) : M Unit := do
  let fd ← loadI s fSocket
  let _ ← os.close fd
  store s fSocket (intV INVALID_SOCKET)

/-- adapters/socketio_win32.c:270-302: everything between `getaddrinfo` and `freeaddrinfo` -/
def connectPart (s : Ptr) (ai : Nat) (onOpen onOpenCtx onBytes onBytesCtx onErr onErrCtx : Nat) : M Int := do
  let fd ← loadI s fSocket
  let err ← os.connect fd ai
  if err ≠ 0 then do
    dropSocket os s
    pure 277
  else do
    let fd ← loadI s fSocket
    let r ← os.ioctl fd
    if r ≠ 0 then do
      dropSocket os s
      pure 284
    else do
      becomeOpen os s onOpen onOpenCtx onBytes onBytesCtx onErr onErrCtx
      pure 0

/-- adapters/socketio_win32.c:210-311 -/
def socketio_open (s : Ptr) (onOpen onOpenCtx onBytes onBytesCtx onErr onErrCtx : Nat) : M Int := do
  if s = 0 then pure 218 else do
  let st ← loadInt s fState
  if st ≠ IO_STATE.closed.code then pure 225 else do
  let fd ← loadI s fSocket
  if fd ≠ INVALID_SOCKET then do
    becomeOpen os s onOpen onOpenCtx onBytes onBytesCtx onErr onErrCtx
    pure 0
  else do
    let r ← os.socket
    store s fSocket (intV r)
    let fd ← loadI s fSocket
    if fd = INVALID_SOCKET then pure 249 else do
    let port ← loadInt s fPort
    let h ← loadPtr s fHost
    let x ← os.getaddrinfo (hostArg h) port
    if x.1 ≠ 0 then do
      dropSocket os s
      pure 266
    else do
      let result ← connectPart os s x.2 onOpen onOpenCtx onBytes onBytesCtx onErr onErrCtx
      os.freeaddrinfo x.2
      pure result

/-- adapters/socketio_win32.c:313-347 -/
def socketio_close (s : Ptr) (onClose ctx : Nat) : M Int := do
  if s = 0 then pure 320 else do
  let st ← loadInt s fState
  if st ≠ IO_STATE.opn.code ∧ st ≠ IO_STATE.opening.code then pure 329 else do
  let fd ← loadI s fSocket
  let _ ← os.close fd
  store s fSocket (intV INVALID_SOCKET)
  store s fState (stateV .closed)
  if onClose ≠ 0 then do
    os.on_io_close_complete onClose ctx
    pure 0
  else pure 0

/-- adapters/socketio_win32.c:349-431.  The comparison `send_result != size` converts to `size_t`. -/
def socketio_send (s : Ptr) (buffer : CharPtr) (size : Nat) (on_send_complete callback_context : Nat) : M Int := do
  if s = 0 ∨ buffer = .null ∨ size = 0 then pure 359 else do
  let st ← loadInt s fState
  if st ≠ IO_STATE.opn.code then pure 367 else do
  let l ← loadPtr s fList
  let first_pending_io ← list_get_head_item l
  if first_pending_io ≠ 0 then do
    let r ← add_pending_io s buffer size on_send_complete callback_context
    if r ≠ 0 then pure 377 else pure 0
  else do
    let fd ← loadI s fSocket
    let send_result ← sendTo os fd buffer size
    if (send_result % szMod).toNat ≠ size then do
      let e ← os.lastError
      if e ≠ WSAEWOULDBLOCK then do
        indicate_error os s
        pure 394
      else do
        let r ← add_pending_io s buffer size on_send_complete callback_context
        if r ≠ 0 then pure 402 else pure 0
    else do
      if on_send_complete ≠ 0 then do
        os.on_send_complete on_send_complete callback_context true
        pure 0
      else pure 0

/-- the end of one round: take the pending IO off the list, adapters/socketio_win32.c:475-481 -/
def finishPending (s : Ptr) (p first_pending_io : Ptr) : M Unit := do
  let b ← loadPtr p gBytes
  free b
  free p
  let l ← loadPtr s fList
  let r ← list_remove l first_pending_io
  if r ≠ 0 then indicate_error os s else pure ()

/-- one round of the loop for a pending IO `p`, adapters/socketio_win32.c:453-482 -/
def sendRound (s : Ptr) (p first_pending_io : Ptr) : M Unit := do
  let fd ← loadI s fSocket
  let b ← loadPtr p gBytes
  let size ← loadInt p gSize
  let send_result ← sendTo os fd (.heap b 0) size
  let size ← loadInt p gSize
  if (send_result % szMod).toNat ≠ size then do
    let e ← os.lastError
    if e ≠ WSAEWOULDBLOCK then do
      let b ← loadPtr p gBytes
      free b
      free p
      let l ← loadPtr s fList
      let _ ← list_remove l first_pending_io
      pure ()
    else pure ()
  else do
    let fn ← loadPtr p gOnSend
    if fn ≠ 0 then do
      let ctx ← loadPtr p gCtx
      os.on_send_complete fn ctx true
      finishPending os s p first_pending_io
    else
      finishPending os s p first_pending_io

/-- adapters/socketio_win32.c:442-485: at most `n` rounds; `false` if it has not ended by then -/
def sendLoop (s : Ptr) : (n : Nat) → (first_pending_io : Ptr) → M Bool
  | 0, first_pending_io => pure (decide (first_pending_io = 0))
  | n + 1, first_pending_io => do
    if first_pending_io = 0 then pure true else do
    let p ← list_item_get_value first_pending_io
    if p = 0 then do
      indicate_error os s
      pure true
    else do
      sendRound os s p first_pending_io
      let l ← loadPtr s fList
      let first ← list_get_head_item l
      sendLoop s n first

/-- adapters/socketio_win32.c:487-514: at most `n` rounds; `false` if it has not ended by then -/
def recvLoop (s : Ptr) : (n : Nat) → M Bool
  | 0 => pure false
  | n + 1 => do
    let fd ← loadI s fSocket
    let x ← os.recv fd
    if x.1 > 0 then do
      let fn ← loadPtr s fOnBytes
      if fn ≠ 0 then do
        let ctx ← loadPtr s fOnBytesCtx
        os.on_bytes_received fn ctx [x.2]
        recvLoop s n
      else recvLoop s n
    else do
      let e ← os.lastError
      if e ≠ WSAEWOULDBLOCK ∧ e ≠ 0 then do
        indicate_error os s
        pure true
      else pure true

/-- adapters/socketio_win32.c:433-517 -/
def socketio_dowork (n m : Nat) (s : Ptr) : M Bool := do
  if s = 0 then pure true else do
  let st ← loadInt s fState
  if st ≠ IO_STATE.opn.code then pure true else do
  let l ← loadPtr s fList
  let first ← list_get_head_item l
  let fin ← sendLoop os s n first
  if fin then recvLoop os s m else pure false

/-- adapters/socketio_win32.c:519-523 -/
def socketio_setoption (_s : Ptr) (_optionName _value : Nat) : Int := 522

end
end Verif.Sw
