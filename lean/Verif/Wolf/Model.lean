import Verif.Game

/-
The model of `src/tlsio_wolfssl.c`: every function of the file except the trivial
`tlsio_wolfssl_init` / `_deinit` (lines 254-264, two calls of wolfSSL set-up functions) and
`tlsio_wolfssl_get_interface_description` (lines 519-522, returns the address of a constant).

Everything the file calls is a call out (`Op`): the allocator, wolfSSL, the lower IO (`xio_*`), and
the callbacks of the user.  wolfSSL calls back into the module (`on_io_recv`, `on_io_send`,
`on_handshake_done`) from `wolfSSL_connect`, `wolfSSL_read` and `wolfSSL_write`.

Simplifications, everywhere: a pointer is a number, 0 is NULL; the failure code `__LINE__` is the
line number in the file; a read of a structure field that was never written is undefined behaviour
(`Prog.ub`), as is any access to an instance that is not alive, or outside a block.
The block `socket_io_read_bytes` points to is kept with the instance (`block`): no other pointer to
it is ever made.  Storing through a pointer of wolfSSL is a call out (`copyOut`).
-/
namespace Verif.Wolf
open Verif.Game

/-- `IO_OPEN_RESULT` (inc/azure_c_shared_utility/xio.h). -/
inductive OpenResult where
  | ok | error | cancelled
  deriving DecidableEq, Repr

/-- `TLSIO_STATE_ENUM` (src/tlsio_wolfssl.c 18-26). -/
inductive State where
  | notOpen | openingUnderlyingIo | inHandshake | opened | closing | error
  deriving DecidableEq, Repr

/-- `TLS_IO_INSTANCE` (src/tlsio_wolfssl.c 28-47); `none`: not initialised. -/
structure Inst where
  socket_io : Option Nat := none
  on_bytes_received : Option Nat := none
  on_io_open_complete : Option Nat := none
  on_io_close_complete : Option Nat := none
  on_io_error : Option Nat := none
  on_bytes_received_context : Option Nat := none
  on_io_open_complete_context : Option Nat := none
  on_io_close_complete_context : Option Nat := none
  on_io_error_context : Option Nat := none
  logger_log : Option Nat := none
  ssl : Option Nat := none
  ssl_context : Option Nat := none
  tlsio_state : Option State := none
  socket_io_read_bytes : Option Nat := none
  socket_io_read_byte_count : Option Nat := none
  on_send_complete : Option Nat := none
  on_send_complete_callback_context : Option Nat := none
  /-- the block `socket_io_read_bytes` points to; `none`: a byte never written -/
  block : List (Option UInt8) := []

/-- `TLSIO_CONFIG` (inc/azure_c_shared_utility/tlsio.h): the host name (a pointer) and the port.
It is copied into the `SOCKETIO_CONFIG` at lines 282-284, whose `accepted_socket` is NULL. -/
structure Config where
  hostname : Nat
  port : Int
  deriving DecidableEq, Repr

/-- The arguments of `tlsio_wolfssl_open` (line 376): three callbacks with their contexts. -/
structure Cbs where
  openFn : Nat
  openCtx : Nat
  bytesFn : Nat
  bytesCtx : Nat
  errFn : Nat
  errCtx : Nat
  deriving DecidableEq, Repr

/-- The calls out. -/
inductive Op where
  /-- `malloc` and `free` of an instance -/
  | malloc (n : Nat)
  | free (p : Nat)
  /-- `realloc` and `free` of the block for received bytes -/
  | realloc (p n : Nat)
  | freeBuf (p : Nat)
  /-- `wolfSSL_CTX_new(wolfTLSv1_client_method())`, `wolfSSL_CTX_free` -/
  | ctxNew
  | ctxFree (ctx : Nat)
  /-- `socketio_get_interface_description` -/
  | getInterface
  /-- `xio_create(interface, &socketio_config, logger_log)`, `xio_destroy` -/
  | xioCreate (iface : Nat) (cfg : Config) (logger : Nat)
  | xioDestroy (io : Nat)
  /-- `wolfSSL_new`, `wolfSSL_free` -/
  | sslNew (ctx : Nat)
  | sslFree (ssl : Nat)
  /-- `wolfSSL_set_using_nonblock(ssl, 1)`, `wolfSSL_SetIOSend(ctx, on_io_send)`,
  `wolfSSL_SetIORecv(ctx, on_io_recv)`, `wolfSSL_SetHsDoneCb(ssl, on_handshake_done, c)`,
  `wolfSSL_SetIOWriteCtx(ssl, c)`, `wolfSSL_SetIOReadCtx(ssl, c)` -/
  | setNonblock (ssl : Nat)
  | setIoSend (ctx : Nat)
  | setIoRecv (ctx : Nat)
  | setHsDone (ssl c : Nat)
  | setWriteCtx (ssl c : Nat)
  | setReadCtx (ssl c : Nat)
  /-- `wolfSSL_connect` -/
  | connect (ssl : Nat)
  /-- `wolfSSL_read(ssl, buffer, num)`: the bytes read are the answer -/
  | sslRead (ssl : Nat) (num : Int)
  /-- `wolfSSL_write(ssl, buffer, num)`: `bs` is what the buffer holds -/
  | sslWrite (ssl : Nat) (bs : Bytes) (num : Int)
  /-- `memcpy(buf, ..)` into a buffer of wolfSSL -/
  | copyOut (buf : Nat) (bs : Bytes)
  /-- `xio_open(io, on_underlying_io_open_complete, c1, on_underlying_io_bytes_received, c2,
  on_underlying_io_error, c3)` -/
  | xioOpen (io c1 c2 c3 : Nat)
  /-- `xio_close(io, on_underlying_io_close_complete, c)` -/
  | xioClose (io c : Nat)
  /-- `xio_send(io, buf, size, fn, ctx)`: `bs` is what the buffer holds -/
  | xioSend (io : Nat) (bs : Bytes) (size : Nat) (fn ctx : Nat)
  /-- `xio_dowork` -/
  | xioDowork (io : Nat)
  /-- `xio_setoption(io, name, value)` -/
  | xioSetOption (io : Nat) (name : Bytes) (value : Nat)
  /-- the callbacks of the user -/
  | onOpen (fn ctx : Nat) (r : OpenResult)
  | onClose (fn ctx : Nat)
  | onError (fn ctx : Nat)
  | onBytes (fn ctx : Nat) (bs : Bytes)
  /-- `wolfSSL_CTX_load_verify_buffer(ctx, value, size, SSL_FILETYPE_PEM)` -/
  | loadVerify (ctx value size : Nat)
  deriving DecidableEq, Repr

/-- The functions that can be entered: those of the interface (lines 49-58), called by the user, the
callbacks given to the lower IO, and those given to wolfSSL. -/
inductive Call where
  | create (cfg : Option Config) (logger : Nat)
  | destroy (h : Nat)
  | open (h : Nat) (cbs : Cbs)
  | close (h : Nat) (fn ctx : Nat)
  /-- the buffer holds `bs`, the size is its length -/
  | send (h : Nat) (bs : Bytes) (fn ctx : Nat)
  | dowork (h : Nat)
  /-- `text`: the string `value` points to, if the option is `"TrustedCerts"` -/
  | setoption (h : Nat) (name : Option Bytes) (value : Nat) (text : Bytes)
  | uOpen (h : Nat) (r : OpenResult)
  | uClose (h : Nat)
  | uError (h : Nat)
  | uBytes (h : Nat) (bs : Bytes)
  /-- `on_io_recv`: at most `sz` bytes may be stored at `buf` -/
  | wRecv (h buf : Nat) (sz : Int)
  /-- `on_io_send`: the buffer holds `bs`, the size is its length -/
  | wSend (h : Nat) (bs : Bytes)
  /-- `on_handshake_done` -/
  | wDone (h : Nat)
  deriving DecidableEq, Repr

abbrev P := Prog Inst Op
abbrev Event := Ev Op Call

/-- A `size_t` as an `int`. -/
def toInt (n : Nat) : Int := Int.bmod n (2 ^ 32)

/-- An `int` as a `size_t`. -/
def toSize (n : Int) : Nat := (n % 2 ^ 64).toNat

/-- Read a field. -/
def rd {α : Type} (h : Nat) (f : Inst → Option α) : P α :=
  .load h fun i => match f i with
    | none => .ub
    | some v => .ret v

/-- Assign a field. -/
def wr (h : Nat) (f : Inst → Inst) : P Unit := .modify h f (.ret ())

/-- Store into the block of the instance; `none`: outside the block. -/
def st (h : Nat) (f : List (Option UInt8) → Option (List (Option UInt8))) : P Unit :=
  .load h fun i => match f i.block with
    | none => .ub
    | some b => .modify h (fun i => { i with block := b }) (.ret ())

/-- Call out for a number. -/
def call (h : Nat) (o : Op) : P Int := .call h o fun n _ => .ret n

/-- Call out for bytes. -/
def callB (h : Nat) (o : Op) : P (Int × Bytes) := .call h o fun n bs => .ret (n, bs)

/-- Call out for a pointer. -/
def callP (h : Nat) (o : Op) : P Nat := .call h o fun n _ => .ret n.toNat

/-- The contents after `realloc` to `n` bytes. -/
def resize (b : List (Option UInt8)) (n : Nat) : List (Option UInt8) :=
  b.take n ++ List.replicate (n - b.length) none

/-- The contents after `memcpy(block + off, bs, size)`. -/
def copyIn (off : Nat) (bs : Bytes) (b : List (Option UInt8)) : Option (List (Option UInt8)) :=
  if off + bs.length ≤ b.length then some (b.take off ++ bs.map some ++ b.drop (off + bs.length))
  else none

/-- The contents after `memmove(block, block + from, m)`. -/
def moveDown (frm m : Nat) (b : List (Option UInt8)) : Option (List (Option UInt8)) :=
  if frm + m ≤ b.length then some ((b.drop frm).take m ++ b.drop m) else none

/-- The first `n` bytes; `none`: outside the block, or never written. -/
def firstBytes (n : Nat) (b : List (Option UInt8)) : Option Bytes :=
  if n ≤ b.length then (b.take n).mapM id else none

/-- `realloc(socket_io_read_bytes, n)`: the answer, and the contents if it is not NULL.  With a
block and size 0 the C library may do anything. -/
def reallocBlock (h n : Nat) : P Nat := do
  let p ← rd h (·.socket_io_read_bytes)
  if p ≠ 0 ∧ n = 0 then .ub
  else do
    let q ← callP h (.realloc p n)
    if q = 0 then pure q
    else do
      st h fun b => some (resize b n)
      pure q

/-- src/tlsio_wolfssl.c 60-66 -/
def indicate_error (h : Nat) : P Unit := do
  let fn ← rd h (·.on_io_error)
  if fn = 0 then pure ()
  else do
    let ctx ← rd h (·.on_io_error_context)
    let _ ← call h (.onError fn ctx)

/-- src/tlsio_wolfssl.c 68-74 -/
def indicate_open_complete (h : Nat) (open_result : OpenResult) : P Unit := do
  let fn ← rd h (·.on_io_open_complete)
  if fn = 0 then pure ()
  else do
    let ctx ← rd h (·.on_io_open_complete_context)
    let _ ← call h (.onOpen fn ctx open_result)

/-- src/tlsio_wolfssl.c 82-92: one round of the loop of `decode_ssl_received_bytes`; `true`: go
round again.  `buffer` has 64 bytes, and that is the number passed. -/
def decode_round (h : Nat) : P Bool := do
  let (rcv_bytes, buffer) ← callB h (.sslRead (← rd h (·.ssl)) 64)
  if rcv_bytes > 0 then do
    let fn ← rd h (·.on_bytes_received)
    if fn = 0 then pure true
    else do
      let ctx ← rd h (·.on_bytes_received_context)
      let _ ← call h (.onBytes fn ctx buffer)
      pure true
  else pure false

/-- src/tlsio_wolfssl.c 180-187: one round of the loop of `on_io_recv`; `true`: go round again. -/
def recv_round (h : Nat) : P Bool := do
  if (← rd h (·.socket_io_read_byte_count)) = 0 then do
    let _ ← call h (.xioDowork (← rd h (·.socket_io)))
    if (← rd h (·.tlsio_state)) = .opened then pure false else pure true
  else pure false

/-- The two loops of the module, by number. -/
def loop (j : Nat) : P Bool := if j % 2 = 0 then decode_round (j / 2) else recv_round (j / 2)

/-- src/tlsio_wolfssl.c 76-95: the result is always 0. -/
def decode_ssl_received_bytes (h : Nat) : P Int := .spin (2 * h) (.ret 0)

/-- src/tlsio_wolfssl.c 97-117.  `SSL_SUCCESS` is 1. -/
def on_underlying_io_open_complete (h : Nat) (open_result : OpenResult) : P Unit := do
  if open_result ≠ .ok then do
    wr h fun i => { i with tlsio_state := some .error }
    indicate_open_complete h .error
  else do
    wr h fun i => { i with tlsio_state := some .inHandshake }
    if (← call h (.connect (← rd h (·.ssl)))) ≠ 1 then indicate_open_complete h .error else pure ()

/-- src/tlsio_wolfssl.c 119-135 -/
def on_underlying_io_bytes_received (h : Nat) (buffer : Bytes) : P Unit := do
  let count ← rd h (·.socket_io_read_byte_count)
  let q ← reallocBlock h ((count + buffer.length) % 2 ^ 64)
  if q = 0 then do
    wr h fun i => { i with tlsio_state := some .error }
    indicate_error h
  else do
    wr h fun i => { i with socket_io_read_bytes := some q }
    st h (copyIn count buffer)
    wr h fun i => { i with socket_io_read_byte_count := some ((count + buffer.length) % 2 ^ 64) }

/-- src/tlsio_wolfssl.c 137-159 -/
def on_underlying_io_error (h : Nat) : P Unit := do
  match ← rd h (·.tlsio_state) with
  | .openingUnderlyingIo | .inHandshake => do
    wr h fun i => { i with tlsio_state := some .error }
    indicate_open_complete h .error
  | .opened => do
    wr h fun i => { i with tlsio_state := some .error }
    indicate_error h
  | _ => pure ()

/-- src/tlsio_wolfssl.c 161-172 -/
def on_underlying_io_close_complete (h : Nat) : P Unit := do
  if (← rd h (·.tlsio_state)) = .closing then do
    let fn ← rd h (·.on_io_close_complete)
    if fn = 0 then pure ()
    else do
      let ctx ← rd h (·.on_io_close_complete_context)
      let _ ← call h (.onClose fn ctx)
  else pure ()

/-- src/tlsio_wolfssl.c 200-213: give back what is not needed any more. -/
def shrink (h : Nat) : P Unit := do
  let count ← rd h (·.socket_io_read_byte_count)
  if count > 0 then do
    let q ← reallocBlock h count
    if q ≠ 0 then wr h fun i => { i with socket_io_read_bytes := some q } else pure ()
  else do
    let _ ← call h (.freeBuf (← rd h (·.socket_io_read_bytes)))
    wr h fun i => { i with socket_io_read_bytes := some 0, block := [] }

/-- src/tlsio_wolfssl.c 195-214: hand over `result` bytes. -/
def take (h buf : Nat) (result : Nat) : P Unit := do
  let bs ← rd h (fun i => firstBytes result i.block)
  let _ ← call h (.copyOut buf bs)
  let count ← rd h (·.socket_io_read_byte_count)
  st h (moveDown result (count - result))
  wr h fun i => { i with socket_io_read_byte_count := some (count - result) }
  shrink h

/-- src/tlsio_wolfssl.c 174-221.  `result` is an `int`: the conversion from `size_t` is made; where
`result` is positive it is at most the count.  `WOLFSSL_CBIO_ERR_WANT_READ` is -2. -/
def on_io_recv (h buf : Nat) (sz : Int) : P Int := .spin (2 * h + 1) <| do
  let count ← rd h (·.socket_io_read_byte_count)
  let result := if toInt count > sz then sz else toInt count
  if result > 0 then do
    take h buf result.toNat
    pure result
  else if result = 0 then do
    if (← rd h (·.tlsio_state)) = .opened then pure (-2) else pure result
  else pure result

/-- src/tlsio_wolfssl.c 223-240 -/
def on_io_send (h : Nat) (buf : Bytes) : P Int := do
  let io ← rd h (·.socket_io)
  let fn ← rd h (·.on_send_complete)
  let ctx ← rd h (·.on_send_complete_callback_context)
  if (← call h (.xioSend io buf buf.length fn ctx)) ≠ 0 then do
    wr h fun i => { i with tlsio_state := some .error }
    indicate_error h
    pure 0
  else pure buf.length

/-- src/tlsio_wolfssl.c 242-252 -/
def on_handshake_done (h : Nat) : P Int := do
  if (← rd h (·.tlsio_state)) = .inHandshake then do
    wr h fun i => { i with tlsio_state := some .opened }
    indicate_open_complete h .ok
    pure 0
  else pure 0

/-- src/tlsio_wolfssl.c 311-313, 320-322 and 329-331 (the same three times): free the context and
the instance, return NULL.  `free` ends the life of the instance. -/
def drop1 (p : Nat) : P Int := do
  let _ ← call p (.ctxFree (← rd p (·.ssl_context)))
  let _ ← call p (.free p)
  .dispose p (.ret 0)

/-- src/tlsio_wolfssl.c 335-347: the context, the lower IO and the SSL object are there. -/
def create_set (p : Nat) : P Int := do
  wr p fun i => { i with socket_io_read_bytes := some 0 }
  wr p fun i => { i with socket_io_read_byte_count := some 0 }
  wr p fun i => { i with on_send_complete := some 0 }
  wr p fun i => { i with on_send_complete_callback_context := some 0 }
  let _ ← call p (.setNonblock (← rd p (·.ssl)))
  let _ ← call p (.setIoSend (← rd p (·.ssl_context)))
  let _ ← call p (.setIoRecv (← rd p (·.ssl_context)))
  let _ ← call p (.setHsDone (← rd p (·.ssl)) p)
  let _ ← call p (.setWriteCtx (← rd p (·.ssl)) p)
  let _ ← call p (.setReadCtx (← rd p (·.ssl)) p)
  wr p fun i => { i with tlsio_state := some .notOpen }
  pure p

/-- src/tlsio_wolfssl.c 308-348: the lower IO and the SSL object. -/
def create_io (p : Nat) (cfg : Config) (logger : Nat) : P Int := do
  let iface ← callP p .getInterface
  if iface = 0 then drop1 p
  else do
    let io ← callP p (.xioCreate iface cfg logger)
    wr p fun i => { i with socket_io := some io }
    if io = 0 then drop1 p
    else do
      let ssl ← callP p (.sslNew (← rd p (·.ssl_context)))
      wr p fun i => { i with ssl := some ssl }
      if ssl = 0 then drop1 p else create_set p

/-- src/tlsio_wolfssl.c 266-356.  The instance has 17 fields of 8 bytes (an `enum` is padded). -/
def tlsio_wolfssl_create (cfg : Option Config) (logger : Nat) : P Int := do
  match cfg with
  | none => pure 0
  | some cfg => do
    let p ← callP 0 (.malloc 136)
    if p = 0 then pure 0
    else do
      .init p {} (.ret ())
      wr p fun i => { i with on_bytes_received := some 0 }
      wr p fun i => { i with on_bytes_received_context := some 0 }
      wr p fun i => { i with on_io_open_complete := some 0 }
      wr p fun i => { i with on_io_open_complete_context := some 0 }
      wr p fun i => { i with on_io_close_complete := some 0 }
      wr p fun i => { i with on_io_close_complete_context := some 0 }
      wr p fun i => { i with on_io_error := some 0 }
      wr p fun i => { i with on_io_error_context := some 0 }
      wr p fun i => { i with logger_log := some logger }
      let ctx ← callP p .ctxNew
      wr p fun i => { i with ssl_context := some ctx }
      if ctx = 0 then do
        let _ ← call p (.free p)
        .dispose p (.ret 0)
      else create_io p cfg logger

/-- src/tlsio_wolfssl.c 366-369 -/
def free_block (h : Nat) : P Unit := do
  let p ← rd h (·.socket_io_read_bytes)
  if p = 0 then pure ()
  else do
    let _ ← call h (.freeBuf p)

/-- src/tlsio_wolfssl.c 358-374 -/
def tlsio_wolfssl_destroy (h : Nat) : P Unit := do
  if h = 0 then pure ()
  else do
    let _ ← call h (.sslFree (← rd h (·.ssl)))
    let _ ← call h (.ctxFree (← rd h (·.ssl_context)))
    free_block h
    let _ ← call h (.xioDestroy (← rd h (·.socket_io)))
    let _ ← call h (.free h)
    .dispose h (.ret ())

/-- src/tlsio_wolfssl.c 376-429 -/
def tlsio_wolfssl_open (h : Nat) (cbs : Cbs) : P Int := do
  if h = 0 then pure 382
  else if (← rd h (·.tlsio_state)) ≠ .notOpen then pure 390
  else do
    wr h fun i => { i with on_bytes_received := some cbs.bytesFn }
    wr h fun i => { i with on_bytes_received_context := some cbs.bytesCtx }
    wr h fun i => { i with on_io_open_complete := some cbs.openFn }
    wr h fun i => { i with on_io_open_complete_context := some cbs.openCtx }
    wr h fun i => { i with on_io_error := some cbs.errFn }
    wr h fun i => { i with on_io_error_context := some cbs.errCtx }
    wr h fun i => { i with tlsio_state := some .openingUnderlyingIo }
    if (← call h (.xioOpen (← rd h (·.socket_io)) h h h)) ≠ 0 then do
      wr h fun i => { i with tlsio_state := some .notOpen }
      pure 408
    else do
      wr h fun i => { i with tlsio_state := some .inHandshake }
      if (← call h (.connect (← rd h (·.ssl)))) ≠ 1 then pure 418 else pure 0

/-- src/tlsio_wolfssl.c 431-466 -/
def tlsio_wolfssl_close (h : Nat) (fn ctx : Nat) : P Int := do
  if h = 0 then pure 437
  else do
    let st ← rd h (·.tlsio_state)
    if st = .notOpen ∨ st = .closing then pure 446
    else do
      wr h fun i => { i with tlsio_state := some .closing }
      wr h fun i => { i with on_io_close_complete := some fn }
      wr h fun i => { i with on_io_close_complete_context := some ctx }
      if (← call h (.xioClose (← rd h (·.socket_io)) h)) ≠ 0 then pure 456 else pure 0

/-- src/tlsio_wolfssl.c 468-502.  `res` is compared with the size as a `size_t`. -/
def tlsio_wolfssl_send (h : Nat) (buffer : Bytes) (fn ctx : Nat) : P Int := do
  if h = 0 then pure 474
  else if (← rd h (·.tlsio_state)) ≠ .opened then pure 482
  else do
    wr h fun i => { i with on_send_complete := some fn }
    wr h fun i => { i with on_send_complete_callback_context := some ctx }
    let res ← call h (.sslWrite (← rd h (·.ssl)) buffer (toInt buffer.length))
    if toSize res ≠ buffer.length then pure 492 else pure 0

/-- src/tlsio_wolfssl.c 504-517 -/
def tlsio_wolfssl_dowork (h : Nat) : P Unit := do
  if h = 0 then pure ()
  else do
    let st ← rd h (·.tlsio_state)
    if st ≠ .notOpen ∧ st ≠ .error then do
      let _ ← decode_ssl_received_bytes h
      let _ ← call h (.xioDowork (← rd h (·.socket_io)))
    else pure ()

/-- `"TrustedCerts"` (src/tlsio_wolfssl.c 536). -/
def trustedCerts : Bytes := [84, 114, 117, 115, 116, 101, 100, 67, 101, 114, 116, 115]

/-- src/tlsio_wolfssl.c 524-554.  `strlen` of NULL is undefined. -/
def tlsio_wolfssl_setoption (h : Nat) (optionName : Option Bytes) (value : Nat) (text : Bytes) :
    P Int := do
  match optionName with
  | none => pure 530
  | some name =>
    if h = 0 then pure 530
    else if name = trustedCerts then do
      let ctx ← rd h (·.ssl_context)
      if value = 0 then .ub
      else if (← call h (.loadVerify ctx value (text.length + 1))) ≠ 1 then pure 541 else pure 0
    else call h (.xioSetOption (← rd h (·.socket_io)) name value)

/-- The functions, by name.  A `void` function returns 0. -/
def body : Call → P Int
  | .create cfg logger => tlsio_wolfssl_create cfg logger
  | .destroy h => do tlsio_wolfssl_destroy h; pure 0
  | .open h cbs => tlsio_wolfssl_open h cbs
  | .close h fn ctx => tlsio_wolfssl_close h fn ctx
  | .send h bs fn ctx => tlsio_wolfssl_send h bs fn ctx
  | .dowork h => do tlsio_wolfssl_dowork h; pure 0
  | .setoption h name value text => tlsio_wolfssl_setoption h name value text
  | .uOpen h r => do on_underlying_io_open_complete h r; pure 0
  | .uClose h => do on_underlying_io_close_complete h; pure 0
  | .uError h => do on_underlying_io_error h; pure 0
  | .uBytes h bs => do on_underlying_io_bytes_received h bs; pure 0
  | .wRecv h buf sz => on_io_recv h buf sz
  | .wSend h bs => on_io_send h bs
  | .wDone h => on_handshake_done h

/-! ### The environment -/

/-- An `int`. -/
def isInt (n : Int) : Bool := decide (-(2 ^ 31) ≤ n ∧ n < 2 ^ 31)

/-- A pointer. -/
def isPtr (n : Int) : Bool := decide (0 ≤ n)

/-- What a call out may answer.  `malloc` gives NULL or a block that is not an instance in use;
`realloc` refuses `2^56` bytes and more; `wolfSSL_read` gives at most as many bytes as were asked
for, and says how many; the rest answer any `int` or pointer there is. -/
def valid (heap : Heap Inst) : Op → Int → Bytes → Bool
  | .malloc _, n, _ => isPtr n && (n == 0 || (heap n.toNat).isNone)
  | .realloc _ m, n, _ => isPtr n && (n == 0 || decide (m < 2 ^ 56))
  | .ctxNew, n, _ | .getInterface, n, _ | .xioCreate .., n, _ | .sslNew _, n, _ => isPtr n
  | .sslRead _ num, n, bs => isInt n && decide (n ≤ num) && bs.length == n.toNat
  | _, n, _ => isInt n

/-- The rules of one environment. -/
structure Policy where
  /-- May an instance be destroyed while a function is in progress? -/
  destroyInside : Bool
  /-- May the lower IO deliver no bytes at all? -/
  emptyChunks : Bool

/-- The calls out that may come back in: the callbacks of the user, the lower IO, and wolfSSL while
it connects, reads and writes. -/
def reenters : Op → Bool
  | .xioOpen .. | .xioClose .. | .xioDowork _ | .xioSetOption .. | .xioSend .. => true
  | .onOpen .. | .onClose .. | .onError .. | .onBytes .. => true
  | .connect _ | .sslRead .. | .sslWrite .. => true
  | _ => false

/-- Handles are NULL or alive; the lower IO and wolfSSL call back for live instances; buffers are
shorter than `2^56` bytes; what the lower IO delivers is not empty
(`adapters/socketio_berkeley.c` calls back only if `recv` has given something). -/
def legal (pol : Policy) (empty : Bool) (heap : Heap Inst) : Call → Bool
  | .create .. => true
  | .destroy h => (empty || pol.destroyInside) && (h == 0 || (heap h).isSome)
  | .open h _ | .close h _ _ | .dowork h => h == 0 || (heap h).isSome
  | .setoption h name value _ =>
    (h == 0 || (heap h).isSome) && (name != some trustedCerts || value != 0)
  | .send h bs _ _ => (h == 0 || (heap h).isSome) && decide (bs.length < 2 ^ 56)
  | .uOpen h _ | .uClose h | .uError h | .wDone h => (heap h).isSome
  | .uBytes h bs => (heap h).isSome && decide (bs.length < 2 ^ 56) && (pol.emptyChunks || !bs.isEmpty)
  | .wRecv h _ sz => (heap h).isSome && isInt sz
  | .wSend h bs => (heap h).isSome && decide (bs.length < 2 ^ 31)

/-- The module in its environment. -/
def sys (pol : Policy) : Sys Inst Op Call where
  body := body
  loop := loop
  valid := valid
  reenters := reenters
  legal := legal pol

/-- The standard environment. -/
def std : Policy := ⟨false, false⟩

end Verif.Wolf
