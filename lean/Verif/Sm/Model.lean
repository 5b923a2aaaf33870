import Verif.Sock.Model
/-!
# Model of `adapters/socketio_mbed.c` and of the wrappers of `adapters/tcpsocketconnection_c.cpp` it calls

As the model of `socketio_berkeley.c` (`Verif/Sock`), with mbed's `TCPSocketConnection` objects in place of descriptors.  `add_pending_io` (69-107) is the same
text as there: `Sock.add_pending_io` (the line numbers it returns differ, none is 0); so is the loop of `socketio_destroy` that clears the queue (`Sock.clearLoop`).

An object of type `TCPSocketConnection` is known by a number from 0 to 2³¹ - 1; the handle `NULL` is kept as -1.  Buffers given to `socketio_send` are smaller
than 2³¹ bytes, so that the conversion of the size to the `int` parameter of the wrappers changes nothing.  The buffer `recv_bytes` on the stack is the list of
bytes `receive` returns.
Left out: `LOG`.  Callbacks do not call back into the same handle.
-/
namespace Verif.Sm
open Verif.List Verif.Headers
open Verif.Sock (IO_STATE intV loadI fSocket fLog fOnBytes fOnErr fOnBytesCtx fOnErrCtx fHost fPort fState fList gBytes gSize gOnSend gCtx stateV
  add_pending_io hostArg clearLoop)

/-- the methods of `TCPSocketConnection`, and the callbacks -/
structure Os where
  /-- `new TCPSocketConnection()` -/
  create : M Int
  connect : (c : Int) → (host : CharPtr) → (port : Int) → M Int
  /-- `set_blocking(false, 0)` -/
  set_nonblocking : (c : Int) → M Unit
  close : (c : Int) → M Unit
  /-- `delete` of an object -/
  delete : (c : Int) → M Unit
  send : (c : Int) → (bytes : List UInt8) → M Int
  /-- `receive` into a buffer of that size: the result, and the bytes it wrote -/
  receive : (c : Int) → (length : Nat) → M (Int × List UInt8)
  on_io_open_complete : (fn ctx : Nat) → (ok : Bool) → M Unit
  on_io_close_complete : (fn ctx : Nat) → M Unit
  on_send_complete : (fn ctx : Nat) → (ok : Bool) → M Unit
  on_bytes_received : (fn ctx : Nat) → (bytes : List UInt8) → M Unit
  on_io_error : (fn ctx : Nat) → M Unit

/-- the handle `NULL` -/
def NULL : Int := -1

/-- adapters/socketio_mbed.c:16 -/
def UNABLE_TO_COMPLETE : Int := -2

/-- calling a method of the object `c` points to -/
def method (c : Int) (m : M α) : M α := if c = NULL then ub "method of NULL" else m

section
variable (os : Os)

/-- adapters/tcpsocketconnection_c.cpp:11-14 -/
def tcpsocketconnection_create : M Int := os.create

/-- adapters/tcpsocketconnection_c.cpp:16-20, with `blocking = false`, `timeout = 0` -/
def tcpsocketconnection_set_blocking (c : Int) : M Unit := method c (os.set_nonblocking c)

/-- adapters/tcpsocketconnection_c.cpp:22-25; `delete NULL` does nothing -/
def tcpsocketconnection_destroy (c : Int) : M Unit := if c = NULL then pure () else os.delete c

/-- adapters/tcpsocketconnection_c.cpp:27-31 -/
def tcpsocketconnection_connect (c : Int) (host : CharPtr) (port : Int) : M Int := method c (os.connect c host port)

/-- adapters/tcpsocketconnection_c.cpp:39-43 -/
def tcpsocketconnection_close (c : Int) : M Unit := method c (os.close c)

/-- adapters/tcpsocketconnection_c.cpp:45-49: `send` reads `length` bytes at `data` -/
def tcpsocketconnection_send (c : Int) (data : CharPtr) (length : Nat) : M Int := do
  let bytes ← Hmac.readBytes data length
  method c (os.send c bytes)

/-- adapters/tcpsocketconnection_c.cpp:57-61 -/
def tcpsocketconnection_receive (c : Int) (length : Nat) : M (Int × List UInt8) := method c (os.receive c length)

/-- adapters/socketio_mbed.c:61-67 -/
def indicate_error (s : Ptr) : M Unit := do
  let fn ← loadPtr s fOnErr
  if fn ≠ 0 then do
    let ctx ← loadPtr s fOnErrCtx
    os.on_io_error fn ctx
  else pure ()

/-- `SOCKETIO_CONFIG`, inc/azure_c_shared_utility/socketio.h:15-20, without the accepted socket, that is not looked at -/
structure Config where
  hostname : CharPtr
  port : Int

/-- adapters/socketio_mbed.c:109-155 -/
def socketio_create (io_create_parameters : Option Config) (logger_log : Nat) : M Ptr :=
  match io_create_parameters with
  | none => pure 0
  | some c => do
    let result ← mallocS 10
    if result ≠ 0 then do
      let l ← list_create
      store result fList (.ptr l)
      if l = 0 then do
        free result
        pure 0
      else do
        let n ← strlen c.hostname
        let h ← malloc (n + 1)
        store result fHost (.ptr h)
        if h = 0 then do
          let l ← loadPtr result fList
          list_destroy l
          free result
          pure 0
        else do
          strcpy h 0 c.hostname
          store result fPort (intV c.port)
          store result fOnBytes (.ptr 0)
          store result fOnErr (.ptr 0)
          store result fLog (.ptr logger_log)
          store result fOnBytesCtx (.ptr 0)
          store result fOnErrCtx (.ptr 0)
          store result fState (stateV .closed)
          store result fSocket (intV NULL)
          pure result
    else pure result

/-- adapters/socketio_mbed.c:157-184 -/
def socketio_destroy (s : Ptr) : M Unit := do
  if s ≠ 0 then do
    let c ← loadI s fSocket
    tcpsocketconnection_destroy os c
    let l ← loadPtr s fList
    let first ← list_get_head_item l
    clearLoop s first
    let l ← loadPtr s fList
    list_destroy l
    let h ← loadPtr s fHost
    free h
    free s
  else pure ()

/-- adapters/socketio_mbed.c:186-233.  The state is not looked at. -/
def socketio_open (s : Ptr) (onOpen onOpenCtx onBytes onBytesCtx onErr onErrCtx : Nat) : M Int := do
  if s = 0 then pure 193 else do
  let c ← tcpsocketconnection_create os
  store s fSocket (intV c)
  let c ← loadI s fSocket
  if c = NULL then pure 200 else do
  let h ← loadPtr s fHost
  let port ← loadI s fPort
  let r ← tcpsocketconnection_connect os c (hostArg h) port
  if r ≠ 0 then do
    let c ← loadI s fSocket
    tcpsocketconnection_destroy os c
    store s fSocket (intV NULL)
    pure 208
  else do
    let c ← loadI s fSocket
    tcpsocketconnection_set_blocking os c
    store s fOnBytes (.ptr onBytes)
    store s fOnBytesCtx (.ptr onBytesCtx)
    store s fOnErr (.ptr onErr)
    store s fOnErrCtx (.ptr onErrCtx)
    store s fState (stateV .opn)
    if onOpen ≠ 0 then do
      os.on_io_open_complete onOpen onOpenCtx true
      pure 0
    else pure 0

/-- adapters/socketio_mbed.c:235-268 -/
def socketio_close (s : Ptr) (onClose ctx : Nat) : M Int := do
  if s = 0 then pure 241 else do
  let st ← loadInt s fState
  if st = IO_STATE.closed.code ∨ st = IO_STATE.closing.code then pure 250 else do
  let c ← loadI s fSocket
  tcpsocketconnection_close os c
  store s fSocket (intV NULL)
  store s fState (stateV .closed)
  if onClose ≠ 0 then do
    os.on_io_close_complete onClose ctx
    pure 0
  else pure 0

/-- adapters/socketio_mbed.c:270-342.  The comparison `send_result != size` converts to `size_t`. -/
def socketio_send (s : Ptr) (buffer : CharPtr) (size : Nat) (on_send_complete callback_context : Nat) : M Int := do
  if s = 0 ∨ buffer = .null ∨ size = 0 then pure 279 else do
  let st ← loadInt s fState
  if st ≠ IO_STATE.opn.code then pure 286 else do
  let l ← loadPtr s fList
  let first_pending_io ← list_get_head_item l
  if first_pending_io ≠ 0 then do
    let r ← add_pending_io s buffer size on_send_complete callback_context
    if r ≠ 0 then pure 295 else pure 0
  else do
    let c ← loadI s fSocket
    let send_result ← tcpsocketconnection_send os c buffer size
    if (send_result % szMod).toNat ≠ size then do
      let n := (if send_result < 0 then 0 else send_result).toNat
      let r ← add_pending_io s (addPtr buffer n) (size - n) on_send_complete callback_context
      if r ≠ 0 then pure 315 else pure 0
    else do
      if on_send_complete ≠ 0 then do
        os.on_send_complete on_send_complete callback_context true
        pure 0
      else pure 0

/-- the end of one round: take the pending IO off the list, adapters/socketio_mbed.c:390-396 -/
def finishPending (s : Ptr) (p first_pending_io : Ptr) : M Unit := do
  let b ← loadPtr p gBytes
  free b
  free p
  let l ← loadPtr s fList
  let r ← list_remove l first_pending_io
  if r ≠ 0 then do
    store s fState (stateV .error)
    indicate_error os s
  else pure ()

/-- one round of the loop for a pending IO `p`, adapters/socketio_mbed.c:364-397; `false`: `break` -/
def sendRound (s : Ptr) (p first_pending_io : Ptr) : M Bool := do
  let c ← loadI s fSocket
  let b ← loadPtr p gBytes
  let size ← loadInt p gSize
  let send_result ← tcpsocketconnection_send os c (.heap b 0) size
  let size ← loadInt p gSize
  if (send_result % szMod).toNat ≠ size then do
    if send_result < 0 then do
      if send_result < UNABLE_TO_COMPLETE then do
        store s fState (stateV .error)
        indicate_error os s
        pure false
      else pure false
    else do
      let b ← loadPtr p gBytes
      let size ← loadInt p gSize
      memmove b 0 send_result.toNat (size - send_result.toNat)
      pure true
  else do
    let fn ← loadPtr p gOnSend
    if fn ≠ 0 then do
      let ctx ← loadPtr p gCtx
      os.on_send_complete fn ctx true
      finishPending os s p first_pending_io
      pure true
    else do
      finishPending os s p first_pending_io
      pure true

/-- adapters/socketio_mbed.c:354-400: at most `n` rounds; `false` if it has not ended by then -/
def sendLoop (s : Ptr) : (n : Nat) → (first_pending_io : Ptr) → M Bool
  | 0, first_pending_io => pure (decide (first_pending_io = 0))
  | n + 1, first_pending_io => do
    if first_pending_io = 0 then pure true else do
    let p ← list_item_get_value first_pending_io
    if p = 0 then do
      store s fState (stateV .error)
      indicate_error os s
      pure true
    else do
      let go ← sendRound os s p first_pending_io
      if go then do
        let l ← loadPtr s fList
        let first ← list_get_head_item l
        sendLoop s n first
      else pure true

/-- adapters/socketio_mbed.c:402-414: at most `n` rounds; `false` if it has not ended by then -/
def recvLoop (s : Ptr) : (n : Nat) → M Bool
  | 0 => pure false
  | n + 1 => do
    let c ← loadI s fSocket
    let x ← tcpsocketconnection_receive os c 128
    if x.1 > 0 then do
      let fn ← loadPtr s fOnBytes
      if fn ≠ 0 then do
        let ctx ← loadPtr s fOnBytesCtx
        os.on_bytes_received fn ctx x.2
        recvLoop s n
      else recvLoop s n
    else pure true

/-- adapters/socketio_mbed.c:344-417 -/
def socketio_dowork (n m : Nat) (s : Ptr) : M Bool := do
  if s = 0 then pure true else do
  let st ← loadInt s fState
  if st ≠ IO_STATE.opn.code then pure true else do
  let l ← loadPtr s fList
  let first ← list_get_head_item l
  let fin ← sendLoop os s n first
  if fin then recvLoop os s m else pure false

/-- adapters/socketio_mbed.c:419-423 -/
def socketio_setoption (_s : Ptr) (_optionName _value : Nat) : Int := 422

end
end Verif.Sm
