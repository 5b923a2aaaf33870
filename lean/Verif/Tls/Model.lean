import Verif.Game

/-
The model of `src/tlsio_openssl.c`: every function of the file except the trivial
`tlsio_openssl_init` / `_deinit` (lines 329-341, four calls of OpenSSL set-up functions) and
`tlsio_openssl_get_interface_description` (lines 701-704, returns the address of a constant).

Everything the file calls is a call out (`Op`): the allocator, OpenSSL, the lower IO (`xio_*`), and
the callbacks of the user.  What they may answer is `valid`; which of them may call back into the
module before they return is the policy.

Simplifications, everywhere: `LogError` / `LogInfo` do nothing; a pointer is a number, 0 is NULL;
the failure code `__LINE__` is the line number in the file; a read of a structure field that was
never written is undefined behaviour (`Prog.ub`), as is any access to an instance that is not
alive.
-/
namespace Verif.Tls
open Verif.Game

/-- `IO_OPEN_RESULT` (inc/azure_c_shared_utility/xio.h). -/
inductive OpenResult where
  | ok | error | cancelled
  deriving DecidableEq, Repr

/-- `TLSIO_STATE` (src/tlsio_openssl.c 19-27). -/
inductive State where
  | notOpen | openingUnderlyingIo | inHandshake | opened | closing | error
  deriving DecidableEq, Repr

/-- `TLS_IO_INSTANCE` (src/tlsio_openssl.c 29-46); `none`: not initialised. -/
structure Inst where
  underlying_io : Option Nat := none
  on_bytes_received : Option Nat := none
  on_io_open_complete : Option Nat := none
  on_io_close_complete : Option Nat := none
  on_io_error : Option Nat := none
  on_bytes_received_context : Option Nat := none
  on_io_open_complete_context : Option Nat := none
  on_io_close_complete_context : Option Nat := none
  on_io_error_context : Option Nat := none
  logger_log : Option Nat := none
  ssl : Option Nat := none
  ssl_context : Option Nat := none
  in_bio : Option Nat := none
  out_bio : Option Nat := none
  tlsio_state : Option State := none

/-- `TLSIO_CONFIG` (inc/azure_c_shared_utility/tlsio.h): the host name (a pointer) and the port.
It is copied into the `SOCKETIO_CONFIG` at lines 364-366, whose `accepted_socket` is NULL. -/
structure Config where
  hostname : Nat
  port : Int
  deriving DecidableEq, Repr

/-- The arguments of `tlsio_openssl_open` (line 491): three callbacks with their contexts. -/
structure Cbs where
  openFn : Nat
  openCtx : Nat
  bytesFn : Nat
  bytesCtx : Nat
  errFn : Nat
  errCtx : Nat
  deriving DecidableEq, Repr

/-- The calls out. -/
inductive Op where
  /-- `malloc`, `free` -/
  | malloc (n : Nat)
  | free (p : Nat)
  /-- `SSL_CTX_new(TLSv1_method())`, `SSL_CTX_free` -/
  | ctxNew
  | ctxFree (ctx : Nat)
  /-- `BIO_new(BIO_s_mem())`, `BIO_free` -/
  | bioNew
  | bioFree (bio : Nat)
  /-- `socketio_get_interface_description` -/
  | getInterface
  /-- `xio_create(interface, &socketio_config, logger_log)`, `xio_destroy` -/
  | xioCreate (iface : Nat) (cfg : Config) (logger : Nat)
  | xioDestroy (io : Nat)
  /-- `BIO_set_mem_eof_return` -/
  | setEof (bio : Nat) (v : Int)
  /-- `SSL_CTX_set_verify(ctx, SSL_VERIFY_PEER, NULL)` -/
  | setVerifyPeer (ctx : Nat)
  /-- `SSL_CTX_set_default_verify_paths` -/
  | defaultPaths (ctx : Nat)
  /-- `SSL_new`, `SSL_set_bio(ssl, rbio, wbio)`, `SSL_set_connect_state`, `SSL_free` -/
  | sslNew (ctx : Nat)
  | sslSetBio (ssl rbio wbio : Nat)
  | sslSetConnect (ssl : Nat)
  | sslFree (ssl : Nat)
  /-- `SSL_is_init_finished`, `SSL_do_handshake` -/
  | initFinished (ssl : Nat)
  | doHandshake (ssl : Nat)
  /-- `SSL_read(ssl, buffer, num)`: the bytes read are the answer -/
  | sslRead (ssl : Nat) (num : Int)
  /-- `SSL_write(ssl, buffer, num)`: `bs` is what the buffer holds -/
  | sslWrite (ssl : Nat) (bs : Bytes) (num : Int)
  /-- `BIO_ctrl_pending` -/
  | pending (bio : Nat)
  /-- `BIO_read(bio, buf, num)`: the bytes read are the answer -/
  | bioRead (bio buf : Nat) (num : Int)
  /-- `BIO_write(bio, buffer, num)`: `bs` is what the buffer holds -/
  | bioWrite (bio : Nat) (bs : Bytes) (num : Int)
  /-- `xio_open(io, on_underlying_io_open_complete, c1, on_underlying_io_bytes_received, c2,
  on_underlying_io_error, c3)` -/
  | xioOpen (io c1 c2 c3 : Nat)
  /-- `xio_close(io, on_underlying_io_close_complete, c)` -/
  | xioClose (io c : Nat)
  /-- `xio_send(io, buf, size, fn, ctx)`: `bs` is what the buffer holds -/
  | xioSend (io buf : Nat) (bs : Bytes) (size : Nat) (fn ctx : Nat)
  /-- `xio_dowork` -/
  | xioDowork (io : Nat)
  /-- `xio_setoption(io, name, value)` -/
  | xioSetOption (io : Nat) (name : Bytes) (value : Nat)
  /-- the callbacks of the user -/
  | onOpen (fn ctx : Nat) (r : OpenResult)
  | onClose (fn ctx : Nat)
  | onError (fn ctx : Nat)
  | onBytes (fn ctx : Nat) (bs : Bytes)
  /-- `SSL_CTX_get_cert_store`, `BIO_new_mem_buf`, `PEM_read_bio_X509`, `X509_STORE_add_cert`,
  `X509_free` -/
  | certStore (ctx : Nat)
  | memBuf (value : Nat) (len : Int)
  | pemRead (bio : Nat)
  | addCert (store x : Nat)
  | x509Free (x : Nat)
  deriving DecidableEq, Repr

/-- The functions that can be entered: those of the interface (lines 48-57), called by the user,
and the callbacks given to the lower IO, called by it. -/
inductive Call where
  | create (cfg : Option Config) (logger : Nat)
  | destroy (h : Nat)
  | open (h : Nat) (cbs : Cbs)
  | close (h : Nat) (fn ctx : Nat)
  /-- the buffer holds `bs`, the size is its length -/
  | send (h : Nat) (bs : Bytes) (fn ctx : Nat)
  | dowork (h : Nat)
  | setoption (h : Nat) (name : Option Bytes) (value : Nat)
  | uOpen (h : Nat) (r : OpenResult)
  | uClose (h : Nat)
  | uError (h : Nat)
  | uBytes (h : Nat) (bs : Bytes)
  deriving DecidableEq, Repr

abbrev P := Prog Inst Op
abbrev Event := Ev Op Call

/-- A `size_t` as an `int`. -/
def toInt (n : Nat) : Int := Int.bmod n (2 ^ 32)

/-- An `int` as a `size_t`. -/
def toSize (n : Int) : Nat := (n % 2 ^ 64).toNat

/-- Read a field. -/
def rd {α : Type} (h : Nat) (f : Inst → Option α) : P α :=
  .load h fun i => match f i with
    | none => .ub
    | some v => .ret v

/-- Assign a field. -/
def wr (h : Nat) (f : Inst → Inst) : P Unit := .modify h f (.ret ())

/-- Call out for a number. -/
def call (h : Nat) (o : Op) : P Int := .call h o fun n _ => .ret n

/-- Call out for bytes. -/
def callB (h : Nat) (o : Op) : P (Int × Bytes) := .call h o fun n bs => .ret (n, bs)

/-- Call out for a pointer. -/
def callP (h : Nat) (o : Op) : P Nat := .call h o fun n _ => .ret n.toNat

/-- src/tlsio_openssl.c 59-70 -/
def indicate_error (h : Nat) : P Unit := do
  let fn ← rd h (·.on_io_error)
  if fn = 0 then pure ()
  else do
    let ctx ← rd h (·.on_io_error_context)
    let _ ← call h (.onError fn ctx)

/-- src/tlsio_openssl.c 72-82 -/
def indicate_open_complete (h : Nat) (open_result : OpenResult) : P Unit := do
  let fn ← rd h (·.on_io_open_complete)
  if fn = 0 then pure ()
  else do
    let ctx ← rd h (·.on_io_open_complete_context)
    let _ ← call h (.onOpen fn ctx open_result)

/-- src/tlsio_openssl.c 95-122: the block of `write_outgoing_bytes` that has bytes to send. -/
def write_pending (h : Nat) (pending : Int) (fn ctx : Nat) : P Int := do
  let bytes_to_send ← callP h (.malloc (toSize pending))
  if bytes_to_send = 0 then pure 98
  else do
    let (n, bs) ← callB h (.bioRead (← rd h (·.out_bio)) bytes_to_send pending)
    if n ≠ pending then do
      let _ ← call h (.free bytes_to_send)
      pure 105
    else do
      let r ← call h (.xioSend (← rd h (·.underlying_io)) bytes_to_send bs (toSize pending) fn ctx)
      let _ ← call h (.free bytes_to_send)
      if r ≠ 0 then pure 112 else pure 0

/-- src/tlsio_openssl.c 84-126.  `pending` is an `int`: the conversion from `size_t` is made. -/
def write_outgoing_bytes (h : Nat) (fn ctx : Nat) : P Int := do
  let n ← call h (.pending (← rd h (·.out_bio)))
  if toInt n.toNat ≤ 0 then pure 0
  else write_pending h (toInt n.toNat) fn ctx

/-- src/tlsio_openssl.c 136-137, 145-146 and 160-161 (the same three times). -/
def opened (h : Nat) : P Unit := do
  wr h fun i => { i with tlsio_state := some .opened }
  indicate_open_complete h .ok

/-- src/tlsio_openssl.c 128-170 -/
def send_handshake_bytes (h : Nat) : P Int := do
  if (← call h (.initFinished (← rd h (·.ssl)))) ≠ 0 then do
    opened h
    pure 0
  else do
    let _ ← call h (.doHandshake (← rd h (·.ssl)))
    if (← call h (.initFinished (← rd h (·.ssl)))) ≠ 0 then do
      opened h
      pure 0
    else do
      if (← write_outgoing_bytes h 0 0) ≠ 0 then pure 153
      else do
        if (← call h (.initFinished (← rd h (·.ssl)))) ≠ 0 then do
          opened h
          pure 0
        else pure 0

/-- src/tlsio_openssl.c 172-202 -/
def on_underlying_io_close_complete (h : Nat) : P Unit := do
  match ← rd h (·.tlsio_state) with
  | .openingUnderlyingIo | .inHandshake => do
    wr h fun i => { i with tlsio_state := some .notOpen }
    indicate_open_complete h .error
  | .closing => do
    wr h fun i => { i with tlsio_state := some .notOpen }
    let fn ← rd h (·.on_io_close_complete)
    if fn = 0 then pure ()
    else do
      let ctx ← rd h (·.on_io_close_complete_context)
      let _ ← call h (.onClose fn ctx)
  | _ => pure ()

/-- src/tlsio_openssl.c 214-218, 226-230 and 309-313 (the same three times): give the open up. -/
def give_up (h : Nat) : P Unit := do
  if (← call h (.xioClose (← rd h (·.underlying_io)) h)) ≠ 0 then indicate_open_complete h .error
  else pure ()

/-- src/tlsio_openssl.c 204-240 -/
def on_underlying_io_open_complete (h : Nat) (open_result : OpenResult) : P Unit := do
  if (← rd h (·.tlsio_state)) = .openingUnderlyingIo then do
    if open_result = .ok then do
      if (← call h (.initFinished (← rd h (·.ssl)))) ≠ 0 then give_up h
      else do
        wr h fun i => { i with tlsio_state := some .inHandshake }
        if (← send_handshake_bytes h) ≠ 0 then give_up h else pure ()
    else indicate_open_complete h .error
  else pure ()

/-- src/tlsio_openssl.c 242-261 -/
def on_underlying_io_error (h : Nat) : P Unit := do
  match ← rd h (·.tlsio_state) with
  | .openingUnderlyingIo | .inHandshake => do
    wr h fun i => { i with tlsio_state := some .notOpen }
    indicate_open_complete h .error
  | .opened => indicate_error h
  | _ => pure ()

/-- src/tlsio_openssl.c 271-282: one round of the loop of `decode_ssl_received_bytes`; `true`:
go round again.  `buffer` has 64 bytes, and that is the number passed. -/
def decode_round (h : Nat) : P Bool := do
  let (rcv_bytes, buffer) ← callB h (.sslRead (← rd h (·.ssl)) 64)
  if rcv_bytes > 0 then do
    let fn ← rd h (·.on_bytes_received)
    if fn = 0 then pure true
    else do
      let ctx ← rd h (·.on_bytes_received_context)
      let _ ← call h (.onBytes fn ctx buffer)
      pure true
  else pure false

/-- src/tlsio_openssl.c 263-286: the result is always 0. -/
def decode_ssl_received_bytes (h : Nat) : P Int := .spin h (.ret 0)

/-- src/tlsio_openssl.c 288-327 -/
def on_underlying_io_bytes_received (h : Nat) (buffer : Bytes) : P Unit := do
  let written ← call h (.bioWrite (← rd h (·.in_bio)) buffer (toInt buffer.length))
  if toSize written ≠ buffer.length then do
    wr h fun i => { i with tlsio_state := some .error }
    indicate_error h
  else do
    match ← rd h (·.tlsio_state) with
    | .inHandshake => do
      if (← send_handshake_bytes h) ≠ 0 then give_up h else pure ()
    | .opened => do
      if (← decode_ssl_received_bytes h) ≠ 0 then do
        wr h fun i => { i with tlsio_state := some .error }
        indicate_error h
      else pure ()
    | _ => pure ()

/-- src/tlsio_openssl.c 395-397: free the context and the instance, return NULL. -/
def drop0 (p : Nat) : P Int := do
  let _ ← call p (.ctxFree (← rd p (·.ssl_context)))
  let _ ← call p (.free p)
  .dispose p (.ret 0)

/-- src/tlsio_openssl.c 416-420, 430-434 and 451-455 (the same three times): free both BIOs, the
context and the instance, return NULL.  `free` ends the life of the instance. -/
def drop2 (p : Nat) : P Int := do
  let _ ← call p (.bioFree (← rd p (·.in_bio)))
  let _ ← call p (.bioFree (← rd p (·.out_bio)))
  drop0 p

/-- src/tlsio_openssl.c 439-462: the context, the BIOs and the lower IO are there. -/
def create_ssl (p : Nat) : P Int := do
  let _ ← call p (.setVerifyPeer (← rd p (·.ssl_context)))
  let _ ← call p (.defaultPaths (← rd p (·.ssl_context)))
  let ssl ← callP p (.sslNew (← rd p (·.ssl_context)))
  wr p fun i => { i with ssl := some ssl }
  if ssl = 0 then drop2 p
  else do
    let _ ← call p (.sslSetBio (← rd p (·.ssl)) (← rd p (·.in_bio)) (← rd p (·.out_bio)))
    let _ ← call p (.sslSetConnect (← rd p (·.ssl)))
    pure p

/-- src/tlsio_openssl.c 425-462: the lower IO.  The `||` stops at the first failure. -/
def create_io (p iface : Nat) (cfg : Config) (logger : Nat) : P Int := do
  let io ← callP p (.xioCreate iface cfg logger)
  wr p fun i => { i with underlying_io := some io }
  if io = 0 then drop2 p
  else if (← call p (.setEof (← rd p (·.in_bio)) (-1))) ≤ 0 then drop2 p
  else if (← call p (.setEof (← rd p (·.out_bio)) (-1))) ≤ 0 then drop2 p
  else create_ssl p

/-- src/tlsio_openssl.c 392-463: the BIOs, and then the rest. -/
def create_bios (p : Nat) (cfg : Config) (logger : Nat) : P Int := do
  let b1 ← callP p .bioNew
  wr p fun i => { i with in_bio := some b1 }
  if b1 = 0 then drop0 p
  else do
    let b2 ← callP p .bioNew
    wr p fun i => { i with out_bio := some b2 }
    if b2 = 0 then do
      let _ ← call p (.bioFree (← rd p (·.in_bio)))
      drop0 p
    else do
      let iface ← callP p .getInterface
      if iface = 0 then drop2 p else create_io p iface cfg logger

/-- src/tlsio_openssl.c 343-472.  The instance has 15 fields of 8 bytes (the last, an `enum`, is
padded). -/
def tlsio_openssl_create (cfg : Option Config) (logger : Nat) : P Int := do
  match cfg with
  | none => pure 0
  | some cfg => do
    let p ← callP 0 (.malloc 120)
    if p = 0 then pure 0
    else do
      .init p {} (.ret ())
      wr p fun i => { i with on_bytes_received := some 0 }
      wr p fun i => { i with on_bytes_received_context := some 0 }
      wr p fun i => { i with on_io_open_complete := some 0 }
      wr p fun i => { i with on_io_open_complete_context := some 0 }
      wr p fun i => { i with on_io_close_complete := some 0 }
      wr p fun i => { i with on_io_close_complete_context := some 0 }
      wr p fun i => { i with on_io_error := some 0 }
      wr p fun i => { i with on_io_error_context := some 0 }
      wr p fun i => { i with logger_log := some logger }
      wr p fun i => { i with tlsio_state := some .notOpen }
      let ctx ← callP p .ctxNew
      wr p fun i => { i with ssl_context := some ctx }
      if ctx = 0 then do
        let _ ← call p (.free p)
        .dispose p (.ret 0)
      else create_bios p cfg logger

/-- src/tlsio_openssl.c 474-489 -/
def tlsio_openssl_destroy (h : Nat) : P Unit := do
  if h = 0 then pure ()
  else do
    let _ ← call h (.sslFree (← rd h (·.ssl)))
    let _ ← call h (.ctxFree (← rd h (·.ssl_context)))
    let _ ← call h (.xioDestroy (← rd h (·.underlying_io)))
    let _ ← call h (.free h)
    .dispose h (.ret ())

/-- src/tlsio_openssl.c 491-535 -/
def tlsio_openssl_open (h : Nat) (cbs : Cbs) : P Int := do
  if h = 0 then pure 497
  else if (← rd h (·.tlsio_state)) ≠ .notOpen then pure 506
  else do
    wr h fun i => { i with on_io_open_complete := some cbs.openFn }
    wr h fun i => { i with on_io_open_complete_context := some cbs.openCtx }
    wr h fun i => { i with on_bytes_received := some cbs.bytesFn }
    wr h fun i => { i with on_bytes_received_context := some cbs.bytesCtx }
    wr h fun i => { i with on_io_error := some cbs.errFn }
    wr h fun i => { i with on_io_error_context := some cbs.errCtx }
    wr h fun i => { i with tlsio_state := some .openingUnderlyingIo }
    if (← call h (.xioOpen (← rd h (·.underlying_io)) h h h)) ≠ 0 then pure 524 else pure 0

/-- src/tlsio_openssl.c 537-575 -/
def tlsio_openssl_close (h : Nat) (fn ctx : Nat) : P Int := do
  if h = 0 then pure 543
  else do
    let st ← rd h (·.tlsio_state)
    if st = .notOpen ∨ st = .closing then pure 553
    else do
      wr h fun i => { i with tlsio_state := some .closing }
      wr h fun i => { i with on_io_close_complete := some fn }
      wr h fun i => { i with on_io_close_complete_context := some ctx }
      if (← call h (.xioClose (← rd h (·.underlying_io)) h)) ≠ 0 then pure 564 else pure 0

/-- src/tlsio_openssl.c 577-619.  `res` is compared with the size as a `size_t`. -/
def tlsio_openssl_send (h : Nat) (buffer : Bytes) (fn ctx : Nat) : P Int := do
  if h = 0 then pure 583
  else if (← rd h (·.tlsio_state)) ≠ .opened then pure 592
  else do
    let res ← call h (.sslWrite (← rd h (·.ssl)) buffer (toInt buffer.length))
    if toSize res ≠ buffer.length then pure 600
    else if (← write_outgoing_bytes h fn ctx) ≠ 0 then pure 607
    else pure 0

/-- src/tlsio_openssl.c 621-637 -/
def tlsio_openssl_dowork (h : Nat) : P Unit := do
  if h = 0 then pure ()
  else do
    let st ← rd h (·.tlsio_state)
    if st ≠ .notOpen ∧ st ≠ .error then do
      let _ ← call h (.xioDowork (← rd h (·.underlying_io)))
    else pure ()

/-- `"TrustedCerts"` (src/tlsio_openssl.c 654). -/
def trustedCerts : Bytes := [84, 114, 117, 115, 116, 101, 100, 67, 101, 114, 116, 115]

/-- src/tlsio_openssl.c 671-688: the store and the memory BIO are there. -/
def add_cert (h cert_store cert_memory_bio : Nat) : P Int := do
  let xcert ← callP h (.pemRead cert_memory_bio)
  if xcert = 0 then do
    let _ ← call h (.bioFree cert_memory_bio)
    pure 674
  else if (← call h (.addCert cert_store xcert)) ≠ 1 then do
    let _ ← call h (.x509Free xcert)
    let _ ← call h (.bioFree cert_memory_bio)
    pure 681
  else do
    let _ ← call h (.bioFree cert_memory_bio)
    pure 0

/-- src/tlsio_openssl.c 639-699 -/
def tlsio_openssl_setoption (h : Nat) (optionName : Option Bytes) (value : Nat) : P Int := do
  match optionName with
  | none => pure 648
  | some name =>
    if h = 0 then pure 648
    else if name = trustedCerts then do
      let cert_store ← callP h (.certStore (← rd h (·.ssl_context)))
      if cert_store = 0 then pure 659
      else do
        let cert_memory_bio ← callP h (.memBuf value (-1))
        if cert_memory_bio = 0 then pure 667
        else add_cert h cert_store cert_memory_bio
    else call h (.xioSetOption (← rd h (·.underlying_io)) name value)

/-- The functions, by name.  A `void` function returns 0. -/
def body : Call → P Int
  | .create cfg logger => tlsio_openssl_create cfg logger
  | .destroy h => do tlsio_openssl_destroy h; pure 0
  | .open h cbs => tlsio_openssl_open h cbs
  | .close h fn ctx => tlsio_openssl_close h fn ctx
  | .send h bs fn ctx => tlsio_openssl_send h bs fn ctx
  | .dowork h => do tlsio_openssl_dowork h; pure 0
  | .setoption h name value => tlsio_openssl_setoption h name value
  | .uOpen h r => do on_underlying_io_open_complete h r; pure 0
  | .uClose h => do on_underlying_io_close_complete h; pure 0
  | .uError h => do on_underlying_io_error h; pure 0
  | .uBytes h bs => do on_underlying_io_bytes_received h bs; pure 0

/-! ### The environment -/

/-- An `int`. -/
def isInt (n : Int) : Bool := decide (-(2 ^ 31) ≤ n ∧ n < 2 ^ 31)

/-- A pointer. -/
def isPtr (n : Int) : Bool := decide (0 ≤ n)

/-- What a call out may answer.  `malloc` gives NULL or a block that is not an instance in use;
`SSL_read` and `BIO_read` give at most as many bytes as were asked for, and say how many; the rest
answer any `int`, pointer or `size_t` there is. -/
def valid (heap : Heap Inst) : Op → Int → Bytes → Bool
  | .malloc _, n, _ => isPtr n && (n == 0 || (heap n.toNat).isNone)
  | .ctxNew, n, _ | .bioNew, n, _ | .getInterface, n, _ | .xioCreate .., n, _ | .sslNew _, n, _
  | .certStore _, n, _ | .memBuf .., n, _ | .pemRead _, n, _ => isPtr n
  | .pending _, n, _ => decide (0 ≤ n ∧ n < 2 ^ 64)
  | .sslRead _ num, n, bs | .bioRead _ _ num, n, bs =>
    isInt n && decide (n ≤ num) && bs.length == n.toNat
  | _, n, _ => isInt n

/-- The rules of one environment. -/
structure Policy where
  /-- The calls out that may come back in. -/
  reenters : Op → Bool
  /-- May an instance be destroyed while a function is in progress? -/
  destroyInside : Bool

/-- Handles are NULL or alive; the lower IO calls back for live instances; buffers are shorter
than `2^56` bytes. -/
def legal (pol : Policy) (empty : Bool) (heap : Heap Inst) : Call → Bool
  | .create .. => true
  | .destroy h => (empty || pol.destroyInside) && (h == 0 || (heap h).isSome)
  | .open h _ | .close h _ _ | .dowork h | .setoption h _ _ => h == 0 || (heap h).isSome
  | .send h bs _ _ => (h == 0 || (heap h).isSome) && decide (bs.length < 2 ^ 56)
  | .uOpen h _ | .uClose h | .uError h => (heap h).isSome
  | .uBytes h bs => (heap h).isSome && decide (bs.length < 2 ^ 56)

/-- The module in its environment. -/
def sys (pol : Policy) : Sys Inst Op Call where
  body := body
  loop := decode_round
  valid := valid
  reenters := pol.reenters
  legal := legal pol

/-- The standard environment.  The lower IO may call back from `xio_open`, `xio_close`,
`xio_dowork`, `xio_setoption`, and from `xio_send` if a completion callback is given; a callback of
the user may call any function, of this instance or another, except destroy.  OpenSSL and the
allocator do not call back; nor does `xio_send` without a completion callback (in
`adapters/socketio_berkeley.c` it does not call back). -/
def std : Policy where
  reenters
    | .xioOpen .. | .xioClose .. | .xioDowork _ | .xioSetOption .. => true
    | .xioSend _ _ _ _ fn _ => fn != 0
    | .onOpen .. | .onClose .. | .onError .. | .onBytes .. => true
    | _ => false
  destroyInside := false

end Verif.Tls
