import Verif.Game

/-
The model of `src/tlsio_schannel.c`: every function of the file except
`tlsio_schannel_get_interface_description` (lines 844-847, returns the address of a constant).

Everything the file calls is a call out (`Op`): the allocator, the security support provider
interface of Windows (SSPI), the lower IO (`xio_*`), and the callbacks of the user.

Simplifications, everywhere: a pointer is a number, 0 is NULL; the failure code `__LINE__` is the
line number in the file (`false` for the two helpers that resize the receive buffer and for
`send_chunk`, whose callers only compare with 0); a read of a structure field that was never written
is undefined behaviour (`Prog.ub`), as is any access to an instance that is not alive, or outside a
block.  The block `received_bytes` points to is kept with the instance (`block`): no other pointer
to it is ever kept.  A `SECURITY_STATUS` is a signed 32-bit number.  What SSPI stores in the buffer
descriptions passed to it is read by calls of their own, at the place where the file reads it
(`ctxMade`, `hsMissing`, `hsExtra`, `plain`, `decMissing`, `decExtra`, `header`, `trailer`).
Logging (the `LOG` and `LogError` lines, with `FormatMessage`, lines 383-396, 443-447, 765-770) is
left out.
-/
namespace Verif.Schan
open Verif.Game

/-- `IO_OPEN_RESULT` (inc/azure_c_shared_utility/xio.h). -/
inductive OpenResult where
  | ok | error | cancelled
  deriving DecidableEq, Repr

/-- `TLSIO_STATE` (src/tlsio_schannel.c 22-31). -/
inductive State where
  | notOpen | openingUnderlyingIo | clientHelloSent | serverHelloReceived | opened | closing | error
  deriving DecidableEq, Repr

/-- `TLS_IO_INSTANCE` (src/tlsio_schannel.c 33-54); `none`: not initialised. -/
structure Inst where
  socket_io : Option Nat := none
  on_io_open_complete : Option Nat := none
  on_io_close_complete : Option Nat := none
  on_bytes_received : Option Nat := none
  on_io_error : Option Nat := none
  on_io_open_complete_context : Option Nat := none
  on_io_close_complete_context : Option Nat := none
  on_bytes_received_context : Option Nat := none
  on_io_error_context : Option Nat := none
  logger_log : Option Nat := none
  security_context : Option Nat := none
  tlsio_state : Option State := none
  host_name : Option Nat := none
  credential_handle : Option Nat := none
  credential_handle_allocated : Option Bool := none
  received_bytes : Option Nat := none
  received_byte_count : Option Nat := none
  buffer_size : Option Nat := none
  needed_bytes : Option Nat := none
  /-- the block `received_bytes` points to; `none`: a byte never written -/
  block : List (Option UInt8) := []
  /-- not in the code: `on_underlying_io_bytes_received` is in progress.  Only the rules for the
  environment look at it (`legal`). -/
  receiving : Bool := false

/-- `TLSIO_CONFIG` (inc/azure_c_shared_utility/tlsio.h): the host name (a pointer, and the text it
points to) and the port.  They are copied into the `SOCKETIO_CONFIG` at lines 539-541, whose
`accepted_socket` is NULL. -/
structure Config where
  hostname : Nat
  text : Bytes
  port : Int
  deriving DecidableEq, Repr

/-- The arguments of `tlsio_schannel_open` (line 616): three callbacks with their contexts. -/
structure Cbs where
  openFn : Nat
  openCtx : Nat
  bytesFn : Nat
  bytesCtx : Nat
  errFn : Nat
  errCtx : Nat
  deriving DecidableEq, Repr

/-- What `xio_send` is called with: the client hello (line 172), the next token of the handshake
(line 337), a record for the user (line 759). -/
inductive Sent where
  | hello | token | data
  deriving DecidableEq, Repr

/-- Where the size of the receive buffer is set from. -/
inductive Site where
  /-- after the client hello (line 181) -/
  | hello
  /-- bytes have come (line 220) -/
  | chunk
  /-- the handshake needs more bytes (line 294) -/
  | hsMore
  /-- the handshake has finished (line 317) -/
  | hsDone
  /-- the handshake goes on (line 359) -/
  | hsNext
  /-- a record is not complete (line 431) -/
  | dataMore
  /-- a record has been decrypted (line 473) -/
  | dataNext
  deriving DecidableEq, Repr

/-- The calls out. -/
inductive Op where
  /-- `malloc` and `free` of an instance -/
  | malloc (n : Nat)
  | free (p : Nat)
  /-- `malloc`, `strcpy` and `free` for the host name -/
  | mallocHost (n : Nat)
  | copyHost (p : Nat) (text : Bytes)
  | freeHost (p : Nat)
  /-- `malloc` and `free` of the buffer for an encrypted record -/
  | mallocOut (n : Nat)
  | freeOut (p : Nat)
  /-- `realloc` and `free` of the block for received bytes -/
  | realloc (site : Site) (p n : Nat)
  | freeBuf (p : Nat)
  /-- `socketio_get_interface_description` -/
  | getInterface
  /-- `xio_create(interface, &socketio_config, logger_log)`, `xio_destroy` -/
  | xioCreate (iface : Nat) (cfg : Config) (logger : Nat)
  | xioDestroy (io : Nat)
  /-- `AcquireCredentialsHandle`: the handle, or 0 if the status is not `SEC_E_OK` -/
  | acquire
  /-- `FreeCredentialHandle` -/
  | freeCred (cred : Nat)
  /-- the first `InitializeSecurityContext`: the status, and the token put out -/
  | initFirst (cred host : Nat)
  /-- the context it has made -/
  | ctxMade
  /-- the next `InitializeSecurityContext`: `bs` is what the input buffer holds -/
  | initNext (cred ctx host : Nat) (bs : Bytes)
  /-- `input_buffers[1]`: its `cbBuffer` if it has the type `SECBUFFER_MISSING`, else negative -/
  | hsMissing
  /-- `output_buffers[1]`: its `cbBuffer` if it has the type `SECBUFFER_EXTRA`, else negative; the
  input had `m` bytes -/
  | hsExtra (m : Nat)
  /-- `DecryptMessage`: the status, and what it leaves in the place of `bs` -/
  | decrypt (ctx : Nat) (bs : Bytes)
  /-- `security_buffers[1]`: as `hsMissing` -/
  | decMissing
  /-- `security_buffers[1]`: its `cbBuffer` and what it holds if it has the type `SECBUFFER_DATA`,
  else negative -/
  | plain
  /-- the `cbBuffer` of the first of the four buffers of type `SECBUFFER_EXTRA`, negative if there
  is none; the input was `before`, and `after` is what was left in its place -/
  | decExtra (before after : Bytes)
  /-- `QueryContextAttributes(ctx, SECPKG_ATTR_STREAM_SIZES, &sizes)`, `sizes.cbHeader`,
  `sizes.cbTrailer` -/
  | querySizes (ctx : Nat)
  | header
  | trailer
  /-- `EncryptMessage`: `bs` is the message; the answer is the status, and what the buffer of
  `hdr + bs.length + trl` bytes begins with, as long as the three buffers are then -/
  | encrypt (ctx hdr : Nat) (bs : Bytes) (trl : Nat)
  /-- `xio_open(io, on_underlying_io_open_complete, c1, on_underlying_io_bytes_received, c2,
  on_underlying_io_error, c3)` -/
  | xioOpen (io c1 c2 c3 : Nat)
  /-- `xio_close(io, on_underlying_io_close_complete, c)` -/
  | xioClose (io c : Nat)
  /-- `xio_send(io, buf, size, fn, ctx)`: `bs` is what the buffer holds -/
  | xioSend (what : Sent) (io : Nat) (bs : Bytes) (fn ctx : Nat)
  /-- `xio_dowork` -/
  | xioDowork (io : Nat)
  /-- `xio_setoption(io, name, value)` -/
  | xioSetOption (io : Nat) (name : Bytes) (value : Nat)
  /-- the callbacks of the user -/
  | onOpen (fn ctx : Nat) (r : OpenResult)
  | onClose (fn ctx : Nat)
  | onError (fn ctx : Nat)
  | onBytes (fn ctx : Nat) (bs : Bytes)
  /-- not called by the file: `DeleteSecurityContext`, `FreeContextBuffer` -/
  | deleteCtx (ctx : Nat)
  | freeToken (bs : Bytes)
  deriving DecidableEq, Repr

/-- The functions that can be entered: those of the interface (lines 56-65), called by the user, and
the callbacks given to the lower IO. -/
inductive Call where
  | create (cfg : Option Config) (logger : Nat)
  | destroy (h : Nat)
  | open (h : Nat) (cbs : Cbs)
  | close (h : Nat) (fn ctx : Nat)
  /-- the size is the length of `bs`, which the buffer holds unless it is NULL -/
  | send (h : Nat) (null : Bool) (bs : Bytes) (fn ctx : Nat)
  | dowork (h : Nat)
  | setoption (h : Nat) (name : Option Bytes) (value : Nat)
  | uOpen (h : Nat) (r : OpenResult)
  | uClose (h : Nat)
  | uError (h : Nat)
  | uBytes (h : Nat) (bs : Bytes)
  deriving DecidableEq, Repr

abbrev P := Prog Inst Op
abbrev Event := Ev Op Call

/-- `SEC_E_INCOMPLETE_MESSAGE` (0x80090318) -/
def incomplete : Int := -2146893032

/-- `SEC_E_UNTRUSTED_ROOT` (0x80090325) -/
def untrustedRoot : Int := -2146893019

/-- `SEC_I_CONTINUE_NEEDED` (0x00090312), `SEC_I_COMPLETE_NEEDED` (0x00090313),
`SEC_I_COMPLETE_AND_CONTINUE` (0x00090314) -/
def goesOn (status : Int) : Bool := status == 590610 || status == 590611 || status == 590612

/-- Read a field. -/
def rd {α : Type} (h : Nat) (f : Inst → Option α) : P α :=
  .load h fun i => match f i with
    | none => .ub
    | some v => .ret v

/-- Assign a field. -/
def wr (h : Nat) (f : Inst → Inst) : P Unit := .modify h f (.ret ())

/-- Store into the block of the instance; `none`: outside the block. -/
def st (h : Nat) (f : List (Option UInt8) → Option (List (Option UInt8))) : P Unit :=
  .load h fun i => match f i.block with
    | none => .ub
    | some b => .modify h (fun i => { i with block := b }) (.ret ())

/-- Call out for a number. -/
def call (h : Nat) (o : Op) : P Int := .call h o fun n _ => .ret n

/-- Call out for bytes. -/
def callB (h : Nat) (o : Op) : P (Int × Bytes) := .call h o fun n bs => .ret (n, bs)

/-- Call out for a pointer. -/
def callP (h : Nat) (o : Op) : P Nat := .call h o fun n _ => .ret n.toNat

/-- The contents after `realloc` to `n` bytes. -/
def resize (b : List (Option UInt8)) (n : Nat) : List (Option UInt8) :=
  b.take n ++ List.replicate (n - b.length) none

/-- The contents after `memcpy(block + off, bs, size)`. -/
def copyIn (off : Nat) (bs : Bytes) (b : List (Option UInt8)) : Option (List (Option UInt8)) :=
  if off + bs.length ≤ b.length then some (b.take off ++ bs.map some ++ b.drop (off + bs.length))
  else none

/-- The contents after `memmove(block, block + from, m)`. -/
def moveDown (frm m : Nat) (b : List (Option UInt8)) : Option (List (Option UInt8)) :=
  if frm + m ≤ b.length then some ((b.drop frm).take m ++ b.drop m) else none

/-- The first `n` bytes; `none`: outside the block, or never written. -/
def firstBytes (n : Nat) (b : List (Option UInt8)) : Option Bytes :=
  if n ≤ b.length then (b.take n).mapM id else none

/-- src/tlsio_schannel.c 67-73 -/
def indicate_error (h : Nat) : P Unit := do
  let fn ← rd h (·.on_io_error)
  if fn = 0 then pure ()
  else do
    let ctx ← rd h (·.on_io_error_context)
    let _ ← call h (.onError fn ctx)

/-- src/tlsio_schannel.c 119-120, 144-146, 174-175, 183-184, 433-434, 439-440 and 475-476 (the same
seven times) -/
def fail (h : Nat) : P Unit := do
  wr h fun i => { i with tlsio_state := some .error }
  indicate_error h

/-- `on_io_open_complete(on_io_open_complete_context, open_result)` unless it is NULL (lines
297-300, 320-323, 328-331, 340-343, 362-365, 376-379, 502-505) -/
def indicate_open_complete (h : Nat) (open_result : OpenResult) : P Unit := do
  let fn ← rd h (·.on_io_open_complete)
  if fn = 0 then pure ()
  else do
    let ctx ← rd h (·.on_io_open_complete_context)
    let _ ← call h (.onOpen fn ctx open_result)

/-- src/tlsio_schannel.c 296-300, 319-323, 339-343, 361-365, 375-379 and 501-505 (the same six
times) -/
def fail_open (h : Nat) : P Unit := do
  wr h fun i => { i with tlsio_state := some .error }
  indicate_open_complete h .error

/-- `on_io_close_complete(on_io_close_complete_context)` unless it is NULL (lines 107-110 and
510-513) -/
def indicate_close_complete (h : Nat) : P Unit := do
  let fn ← rd h (·.on_io_close_complete)
  if fn = 0 then pure ()
  else do
    let ctx ← rd h (·.on_io_close_complete_context)
    let _ ← call h (.onClose fn ctx)

/-- src/tlsio_schannel.c 196-213.  With a block and size 0 the C library may do anything. -/
def set_receive_buffer (h : Nat) (site : Site) (buffer_size : Nat) : P Bool := do
  let p ← rd h (·.received_bytes)
  if p ≠ 0 ∧ buffer_size = 0 then .ub
  else do
    let q ← callP h (.realloc site p buffer_size)
    if q = 0 then pure false
    else do
      st h fun b => some (resize b buffer_size)
      wr h fun i => { i with received_bytes := some q }
      wr h fun i => { i with buffer_size := some buffer_size }
      pure true

/-- src/tlsio_schannel.c 75-99.  Lines 81-92 are those of `set_receive_buffer`. -/
def resize_receive_buffer (h : Nat) (site : Site) (needed_buffer_size : Nat) : P Bool := do
  if needed_buffer_size > (← rd h (·.buffer_size)) then
    set_receive_buffer h site needed_buffer_size
  else pure true

/-- src/tlsio_schannel.c 101-112 -/
def on_underlying_io_close_complete (h : Nat) : P Unit := do
  if (← rd h (·.tlsio_state)) = .closing then do
    wr h fun i => { i with tlsio_state := some .notOpen }
    indicate_close_complete h
  else pure ()

/-- src/tlsio_schannel.c 172-191: send the client hello. -/
def send_hello (h : Nat) (token : Bytes) : P Unit := do
  if (← call h (.xioSend .hello (← rd h (·.socket_io)) token 0 0)) ≠ 0 then fail h
  else do
    wr h fun i => { i with needed_bytes := some 1 }
    let need ← rd h (·.needed_bytes)
    let count ← rd h (·.received_byte_count)
    if ← resize_receive_buffer h .hello ((need + count) % 2 ^ 64) then
      wr h fun i => { i with tlsio_state := some .clientHelloSent }
    else fail h

/-- src/tlsio_schannel.c 114-194.  The result the lower IO reports is not looked at.
`AcquireCredentialsHandle` leaves the handle alone if it fails; `InitializeSecurityContext` stores a
context unless it fails. -/
def on_underlying_io_open_complete (h : Nat) (_io_open_result : OpenResult) : P Unit := do
  if (← rd h (·.tlsio_state)) ≠ .openingUnderlyingIo then fail h
  else do
    let cred ← callP h .acquire
    if cred = 0 then fail h
    else do
      wr h fun i => { i with credential_handle := some cred }
      wr h fun i => { i with credential_handle_allocated := some true }
      let (status, token) ← callB h
        (.initFirst (← rd h (·.credential_handle)) (← rd h (·.host_name)))
      if status < 0 then pure ()
      else do
        let ctx ← callP h .ctxMade
        wr h fun i => { i with security_context := some ctx }
        if goesOn status then send_hello h token else pure ()

/-- src/tlsio_schannel.c 304-315, 346-357 and 455-471: forget what SSPI has used; `extra` is the
number of bytes that it has not, negative if SSPI says nothing of that. -/
def consume (h : Nat) (extra : Int) : P Unit := do
  let count ← rd h (·.received_byte_count)
  let consumed := if extra < 0 then count else (count + 2 ^ 64 - extra.toNat) % 2 ^ 64
  if extra < 0 then pure ()
  else st h (moveDown consumed ((count + 2 ^ 64 - consumed) % 2 ^ 64))
  wr h fun i => { i with received_byte_count := some ((count + 2 ^ 64 - consumed) % 2 ^ 64) }
  wr h fun i => { i with needed_bytes := some 1 }

/-- `set_receive_buffer(tls_io_instance, needed_bytes + received_byte_count)` (lines 317, 359, 473) -/
def fit (h : Nat) (site : Site) : P Bool := do
  let need ← rd h (·.needed_bytes)
  let count ← rd h (·.received_byte_count)
  set_receive_buffer h site ((need + count) % 2 ^ 64)

/-- src/tlsio_schannel.c 284-294 and 421-431: more bytes are needed; `missing` says how many, if it
is not negative. -/
def need_more (h : Nat) (site : Site) (missing : Int) : P Bool := do
  wr h fun i => { i with needed_bytes := some (if missing < 0 then 1 else missing.toNat) }
  let count ← rd h (·.received_byte_count)
  let need ← rd h (·.needed_bytes)
  resize_receive_buffer h site ((count + need) % 2 ^ 64)

/-- src/tlsio_schannel.c 346-371: the next step of the handshake is waited for; the input had `m`
bytes. -/
def hs_next (h : Nat) (m : Nat) : P Unit := do
  consume h (← call h (.hsExtra m))
  if ← fit h .hsNext then wr h fun i => { i with tlsio_state := some .clientHelloSent }
  else fail_open h

/-- src/tlsio_schannel.c 243-401: the handshake.  `cbBuffer` is a 32-bit number. -/
def handshake (h : Nat) : P Unit := do
  let count ← rd h (·.received_byte_count)
  let bs ← rd h (fun i => firstBytes (count % 2 ^ 32) i.block)
  let (status, token) ← callB h
    (.initNext (← rd h (·.credential_handle)) (← rd h (·.security_context)) (← rd h (·.host_name)) bs)
  if status = incomplete then do
    if ← need_more h .hsMore (← call h .hsMissing) then pure () else fail_open h
  else if status = 0 then do
    consume h (← call h (.hsExtra bs.length))
    if ← fit h .hsDone then do
      wr h fun i => { i with tlsio_state := some .opened }
      indicate_open_complete h .ok
    else fail_open h
  else if goesOn status then do
    if token.length > 0 then do
      if (← call h (.xioSend .token (← rd h (·.socket_io)) token 0 0)) ≠ 0 then fail_open h
      else hs_next h bs.length
    else hs_next h bs.length
  else if status = untrustedRoot then fail_open h
  else pure ()

/-- src/tlsio_schannel.c 455-477: after a record; `before` was given to SSPI, and `after` left. -/
def data_next (h : Nat) (before after : Bytes) : P Unit := do
  consume h (← call h (.decExtra before after))
  if ← fit h .dataNext then pure () else fail h

/-- src/tlsio_schannel.c 402-482: a record of the peer. -/
def data (h : Nat) : P Unit := do
  let count ← rd h (·.received_byte_count)
  let bs ← rd h (fun i => firstBytes (count % 2 ^ 32) i.block)
  let (status, after) ← callB h (.decrypt (← rd h (·.security_context)) bs)
  st h (copyIn 0 after)
  if status = incomplete then do
    if ← need_more h .dataMore (← call h .decMissing) then pure () else fail h
  else if status = 0 then do
    let (n, plain) ← callB h .plain
    if n < 0 then fail h
    else do
      let fn ← rd h (·.on_bytes_received)
      if fn = 0 then data_next h bs after
      else do
        let ctx ← rd h (·.on_bytes_received_context)
        let _ ← call h (.onBytes fn ctx plain)
        data_next h bs after
  else pure ()

/-- src/tlsio_schannel.c 225-236 and 243, 403: the bytes are in the buffer; use them if that is what
was waited for. -/
def use (h : Nat) (size : Nat) : P Unit := do
  let need ← rd h (·.needed_bytes)
  wr h fun i => { i with needed_bytes := some (if size > need then 0 else need - size) }
  match ← rd h (·.tlsio_state) with
  | .clientHelloSent => do
    if (← rd h (·.needed_bytes)) = 0 then handshake h else pure ()
  | .opened => do
    if (← rd h (·.needed_bytes)) = 0 then data h else pure ()
  | _ => pure ()

/-- src/tlsio_schannel.c 215-485.  `memcpy` of no bytes at all does nothing. -/
def on_underlying_io_bytes_received (h : Nat) (buffer : Bytes) : P Unit := do
  let count ← rd h (·.received_byte_count)
  if ← resize_receive_buffer h .chunk ((count + buffer.length) % 2 ^ 64) then do
    st h (copyIn count buffer)
    wr h fun i => { i with received_byte_count := some ((count + buffer.length) % 2 ^ 64) }
    use h buffer.length
  else pure ()

/-- src/tlsio_schannel.c 487-521 -/
def on_underlying_io_error (h : Nat) : P Unit := do
  match ← rd h (·.tlsio_state) with
  | .openingUnderlyingIo | .clientHelloSent | .serverHelloReceived => fail_open h
  | .closing => do
    wr h fun i => { i with tlsio_state := some .error }
    indicate_close_complete h
  | .opened => fail h
  | _ => pure ()

/-- src/tlsio_schannel.c 567-569 and 576-578 (the same twice): free the host name and the instance,
return NULL.  `free` ends the life of the instance. -/
def drop1 (p : Nat) : P Int := do
  let _ ← call p (.freeHost (← rd p (·.host_name)))
  let _ ← call p (.free p)
  .dispose p (.ret 0)

/-- src/tlsio_schannel.c 562-588: the lower IO. -/
def create_io (p : Nat) (cfg : Config) (logger : Nat) : P Int := do
  let _ ← call p (.copyHost (← rd p (·.host_name)) cfg.text)
  let iface ← callP p .getInterface
  if iface = 0 then drop1 p
  else do
    let io ← callP p (.xioCreate iface cfg logger)
    wr p fun i => { i with socket_io := some io }
    if io = 0 then drop1 p
    else do
      wr p fun i => { i with received_bytes := some 0 }
      wr p fun i => { i with received_byte_count := some 0 }
      wr p fun i => { i with buffer_size := some 0 }
      wr p fun i => { i with tlsio_state := some .notOpen }
      pure p

/-- src/tlsio_schannel.c 523-593.  168 is the size of the instance on 64-bit Windows. -/
def tlsio_schannel_create (cfg : Option Config) (logger : Nat) : P Int := do
  match cfg with
  | none => pure 0
  | some cfg => do
    let p ← callP 0 (.malloc 168)
    if p = 0 then pure 0
    else do
      .init p {} (.ret ())
      wr p fun i => { i with on_bytes_received := some 0 }
      wr p fun i => { i with on_io_open_complete := some 0 }
      wr p fun i => { i with on_io_close_complete := some 0 }
      wr p fun i => { i with on_io_error := some 0 }
      wr p fun i => { i with logger_log := some logger }
      wr p fun i => { i with on_io_open_complete_context := some 0 }
      wr p fun i => { i with on_io_close_complete_context := some 0 }
      wr p fun i => { i with on_bytes_received_context := some 0 }
      wr p fun i => { i with on_io_error_context := some 0 }
      wr p fun i => { i with credential_handle_allocated := some false }
      let host ← callP p (.mallocHost (1 + cfg.text.length))
      wr p fun i => { i with host_name := some host }
      if host = 0 then do
        let _ ← call p (.free p)
        .dispose p (.ret 0)
      else create_io p cfg logger

/-- src/tlsio_schannel.c 600-603 -/
def free_cred (h : Nat) : P Unit := do
  if ← rd h (·.credential_handle_allocated) then do
    let _ ← call h (.freeCred (← rd h (·.credential_handle)))
  else pure ()

/-- src/tlsio_schannel.c 605-608 -/
def free_block (h : Nat) : P Unit := do
  let p ← rd h (·.received_bytes)
  if p = 0 then pure ()
  else do
    let _ ← call h (.freeBuf p)

/-- src/tlsio_schannel.c 595-614 -/
def tlsio_schannel_destroy (h : Nat) : P Unit := do
  if h = 0 then pure ()
  else do
    free_cred h
    free_block h
    let _ ← call h (.xioDestroy (← rd h (·.socket_io)))
    let _ ← call h (.freeHost (← rd h (·.host_name)))
    let _ ← call h (.free h)
    .dispose h (.ret ())

/-- src/tlsio_schannel.c 616-657 -/
def tlsio_schannel_open (h : Nat) (cbs : Cbs) : P Int := do
  if h = 0 then pure 622
  else if (← rd h (·.tlsio_state)) ≠ .notOpen then pure 630
  else do
    wr h fun i => { i with on_io_open_complete := some cbs.openFn }
    wr h fun i => { i with on_io_open_complete_context := some cbs.openCtx }
    wr h fun i => { i with on_bytes_received := some cbs.bytesFn }
    wr h fun i => { i with on_bytes_received_context := some cbs.bytesCtx }
    wr h fun i => { i with on_io_error := some cbs.errFn }
    wr h fun i => { i with on_io_error_context := some cbs.errCtx }
    wr h fun i => { i with tlsio_state := some .openingUnderlyingIo }
    if (← call h (.xioOpen (← rd h (·.socket_io)) h h h)) ≠ 0 then pure 647 else pure 0

/-- src/tlsio_schannel.c 659-693 -/
def tlsio_schannel_close (h : Nat) (fn ctx : Nat) : P Int := do
  if h = 0 then pure 665
  else do
    let st ← rd h (·.tlsio_state)
    if st = .notOpen ∨ st = .closing then pure 674
    else do
      wr h fun i => { i with tlsio_state := some .closing }
      wr h fun i => { i with on_io_close_complete := some fn }
      wr h fun i => { i with on_io_close_complete_context := some ctx }
      if (← call h (.xioClose (← rd h (·.socket_io)) h)) ≠ 0 then pure 683 else pure 0

/-- src/tlsio_schannel.c 752-777: encrypt the `size` bytes in the buffer at `p`, send the record,
free the buffer. -/
def send_record (h p hdr : Nat) (bs : Bytes) (trl fn ctx : Nat) : P Bool := do
  let (status, record) ← callB h (.encrypt (← rd h (·.security_context)) hdr bs trl)
  if status < 0 then do
    let _ ← call h (.freeOut p)
    pure false
  else do
    let r ← call h (.xioSend .data (← rd h (·.socket_io)) record fn ctx)
    let _ ← call h (.freeOut p)
    pure (r == 0)

/-- src/tlsio_schannel.c 695-783 -/
def send_chunk (h : Nat) (null : Bool) (bs : Bytes) (fn ctx : Nat) : P Bool := do
  if h = 0 ∨ null = true ∨ bs.length = 0 then pure false
  else if (← rd h (·.tlsio_state)) ≠ .opened then pure false
  else do
    if (← call h (.querySizes (← rd h (·.security_context)))) ≠ 0 then pure false
    else do
      let hdr ← callP h .header
      let trl ← callP h .trailer
      let p ← callP h (.mallocOut ((hdr + bs.length + trl) % 2 ^ 64))
      if p = 0 then pure false else send_record h p hdr bs trl fn ctx

/-- src/tlsio_schannel.c 785-816: `bs` is what has not been sent yet. -/
def tlsio_schannel_send (h : Nat) (null : Bool) (bs : Bytes) (fn ctx : Nat) : P Int := do
  if hz : bs.length > 0 then do
    let to_send := if 16 * 1024 > bs.length then bs.length else 16 * 1024
    if ← send_chunk h null (bs.take to_send) (if to_send = bs.length then fn else 0) ctx then
      tlsio_schannel_send h null (bs.drop to_send) fn ctx
    else pure 808
  else pure 0
termination_by bs.length
decreasing_by simp only [List.length_drop]; split <;> omega

/-- src/tlsio_schannel.c 818-825 -/
def tlsio_schannel_dowork (h : Nat) : P Unit := do
  if h = 0 then pure ()
  else do
    let _ ← call h (.xioDowork (← rd h (·.socket_io)))

/-- src/tlsio_schannel.c 827-842 -/
def tlsio_schannel_setoption (h : Nat) (optionName : Option Bytes) (value : Nat) : P Int := do
  match optionName with
  | none => pure 833
  | some name =>
    if h = 0 then pure 833
    else call h (.xioSetOption (← rd h (·.socket_io)) name value)

/-- The functions, by name.  A `void` function returns 0. -/
def body : Call → P Int
  | .create cfg logger => tlsio_schannel_create cfg logger
  | .destroy h => do tlsio_schannel_destroy h; pure 0
  | .open h cbs => tlsio_schannel_open h cbs
  | .close h fn ctx => tlsio_schannel_close h fn ctx
  | .send h null bs fn ctx => tlsio_schannel_send h null bs fn ctx
  | .dowork h => do tlsio_schannel_dowork h; pure 0
  | .setoption h name value => tlsio_schannel_setoption h name value
  | .uOpen h r => do on_underlying_io_open_complete h r; pure 0
  | .uClose h => do on_underlying_io_close_complete h; pure 0
  | .uError h => do on_underlying_io_error h; pure 0
  | .uBytes h bs => do
    wr h fun i => { i with receiving := true }
    on_underlying_io_bytes_received h bs
    wr h fun i => { i with receiving := false }
    pure 0

/-! ### The environment -/

/-- An `int`, or a `SECURITY_STATUS`. -/
def isInt (n : Int) : Bool := decide (-(2 ^ 31) ≤ n ∧ n < 2 ^ 31)

/-- A pointer. -/
def isPtr (n : Int) : Bool := decide (0 ≤ n)

/-- What a call out may answer.  `malloc` gives NULL or a block that is not an instance in use;
`realloc` refuses `2^32` bytes and more; SSPI puts out less than `2^32` bytes, has not used at most
what it was given, leaves a message alone that it does not decrypt and the part of it that it has
not used; the record `EncryptMessage` makes fits the buffer.  The rest answer any `int` or pointer
there is. -/
def valid (heap : Heap Inst) : Op → Int → Bytes → Bool
  | .malloc _, n, _ => isPtr n && (n == 0 || (heap n.toNat).isNone)
  | .realloc _ _ m, n, _ => isPtr n && (n == 0 || decide (m < 2 ^ 32))
  | .mallocHost _, n, _ | .mallocOut _, n, _ | .getInterface, n, _ | .xioCreate .., n, _
  | .acquire, n, _ | .ctxMade, n, _ => isPtr n
  | .initFirst .., n, bs | .initNext .., n, bs => isInt n && decide (bs.length < 2 ^ 32)
  | .hsMissing, n, _ | .decMissing, n, _ => decide (-1 ≤ n ∧ n < 2 ^ 32)
  | .hsExtra m, n, _ => decide (-1 ≤ n ∧ n ≤ m)
  | .decrypt _ bs, n, after => isInt n && after.length == bs.length && (n == 0 || after == bs)
  | .plain, n, bs => n == -1 || n == bs.length
  | .decExtra before after, n, _ => decide (-1 ≤ n ∧ n ≤ before.length) &&
      (n == -1 || before.drop (before.length - n.toNat) == after.drop (before.length - n.toNat))
  | .header, n, _ | .trailer, n, _ => decide (0 ≤ n ∧ n < 2 ^ 32)
  | .encrypt _ hdr bs trl, n, out => isInt n && decide (out.length ≤ hdr + bs.length + trl)
  | _, n, _ => isInt n

/-- The rules of one environment. -/
structure Policy where
  /-- May an instance be destroyed while a function is in progress? -/
  destroyInside : Bool
  /-- May the lower IO deliver bytes to an instance that is dealing with a delivery? -/
  nestedBytes : Bool
  /-- May the lower IO deliver bytes before the client hello has been sent for the first time? -/
  earlyBytes : Bool

/-- The calls out that may come back in: the callbacks of the user, and the lower IO. -/
def reenters : Op → Bool
  | .xioOpen .. | .xioClose .. | .xioDowork _ | .xioSetOption .. | .xioSend .. => true
  | .onOpen .. | .onClose .. | .onError .. | .onBytes .. => true
  | _ => false

/-- Handles are NULL or alive; the lower IO calls back for live instances; what it delivers is
shorter than `2^56` bytes, comes after the client hello, and not from inside a delivery. -/
def legal (pol : Policy) (empty : Bool) (heap : Heap Inst) : Call → Bool
  | .create .. => true
  | .destroy h => (empty || pol.destroyInside) && (h == 0 || (heap h).isSome)
  | .open h _ | .close h _ _ | .dowork h | .setoption h _ _ | .send h _ _ _ _ =>
    h == 0 || (heap h).isSome
  | .uOpen h _ | .uClose h | .uError h => (heap h).isSome
  | .uBytes h bs => decide (bs.length < 2 ^ 56) && match heap h with
    | none => false
    | some i => (pol.nestedBytes || !i.receiving) && (pol.earlyBytes || i.needed_bytes.isSome)

/-- The module in its environment.  There is no loop that calls out other than by recursion. -/
def sys (pol : Policy) : Sys Inst Op Call where
  body := body
  loop := fun _ => .ret false
  valid := valid
  reenters := reenters
  legal := legal pol

/-- The standard environment. -/
def std : Policy := ⟨false, false, false⟩

end Verif.Schan
