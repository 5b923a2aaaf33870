import Verif.Mb.Model
import Verif.Sock.Model
/-!
# Model of `adapters/wolfssl_connection.cpp`

A TLS connection for mbed.  wolfSSL and lwIP are parameters (`Tls`).  The base class `TCPSocketConnection` (`Socket`) of mbed, that is not part of the repository, is
modelled as its source has it: `_sock_fd` is -1 if there is no socket; `init_socket` fails if there is one; `close` closes the socket, if there is one, and forgets it;
the destructor closes it.

An object has 8 slots.  Logging is left out.
-/
namespace Verif.Wc
open Verif.Sock (intV loadI)

/-- wolfSSL and lwIP -/
structure Tls where
  /-- `wolfSSL_Init` -/
  init : M Unit
  /-- `wolfSSL_Cleanup` -/
  cleanup : M Unit
  /-- `wolfTLSv1_2_client_method` -/
  method : M Ptr
  /-- `wolfSSL_CTX_new` -/
  ctxNew : Ptr → M Ptr
  /-- `wolfSSL_CTX_free` -/
  ctxFree : Ptr → M Unit
  /-- `wolfSSL_SetIOSend`, `wolfSSL_SetIORecv` -/
  setIO : Ptr → M Unit
  /-- `wolfSSL_new` -/
  sslNew : Ptr → M Ptr
  /-- `wolfSSL_set_fd` -/
  setFd : Ptr → Int → M Unit
  /-- `wolfSSL_connect` -/
  handshake : Ptr → M Int
  /-- `wolfSSL_write` -/
  write : Ptr → CharPtr → Int → M Int
  /-- `wolfSSL_read(ssl, p + off, n)` -/
  read : Ptr → (p : Ptr) → (off : Nat) → (n : Int) → M Int
  /-- `wolfSSL_CTX_load_verify_buffer(…, SSL_FILETYPE_PEM)` -/
  loadVerify : Ptr → CharPtr → Nat → M Int
  /-- `lwip_socket` -/
  socket : M Int
  /-- `set_address` of mbed: the address; `none`: failure -/
  address : CharPtr → Nat → M (Option Nat)
  /-- `lwip_connect` -/
  connect : Int → Nat → M Int
  /-- `lwip_shutdown` and `lwip_close` -/
  close : Int → M Unit

/-- slots: sslContext, ssl, isConnected (adapters/wolfssl_connection.h:27-29); _sock_fd, _remoteHost of the base class -/
abbrev fCtx : Nat := 0
abbrev fSsl : Nat := 1
abbrev fConn : Nat := 2
abbrev fFd : Nat := 3
abbrev fAddr : Nat := 4

section
variable (t : Tls)

/-- `Socket::init_socket` of mbed -/
def initSocket (c : Ptr) : M Int := do
  let fd ← loadI c fFd
  if fd ≠ -1 then pure (-1) else do
  let fd ← t.socket
  if fd < 0 then pure (-1) else do
  store c fFd (intV fd)
  pure 0

/-- `Socket::close` of mbed -/
def sockClose (c : Ptr) : M Int := do
  let fd ← loadI c fFd
  if fd < 0 then pure (-1) else do
  t.close fd
  store c fFd (intV (-1))
  pure 0

/-- adapters/wolfssl_connection.cpp:14-29; the constructor of the base class sets `_sock_fd` -/
def construct (c : Ptr) : M Unit := do
  store c fFd (intV (-1))
  t.init
  let m ← t.method
  if m ≠ 0 then do
    let x ← t.ctxNew m
    store c fCtx (.ptr x)
    store c fConn (.int 0)
  else do
    store c fCtx (.ptr 0)
    store c fConn (.int 0)

/-- adapters/wolfssl_connection.cpp:31-40; then the destructor of the base class -/
def destruct (c : Ptr) : M Unit := do
  let x ← loadPtr c fCtx
  if x ≠ 0 then do
    t.ctxFree x
    store c fCtx (.ptr 0)
    t.cleanup
    let _ ← sockClose t c
    pure ()
  else do
    t.cleanup
    let _ ← sockClose t c
    pure ()

/-- adapters/wolfssl_connection.cpp:198-215 -/
def close (c : Ptr) : M Bool := do
  let b ← loadInt c fConn
  if b = 0 then pure true else do
  store c fConn (.int 0)
  let x ← loadPtr c fCtx
  t.ctxFree x
  let r ← sockClose t c
  pure (r == 0)

/-- adapters/wolfssl_connection.cpp:88-149 -/
def connect (c : Ptr) (host : CharPtr) (port : Nat) : M Int := do
  let x ← loadPtr c fCtx
  if x = 0 then pure 95 else do
  let r ← initSocket t c
  if r < 0 then pure 102 else do
  let a ← t.address host port
  match a with
  | none => pure 109
  | some a => do
    store c fAddr (.int a)
    let fd ← loadI c fFd
    let r ← t.connect fd a
    if r < 0 then do
      let _ ← close t c
      pure 115
    else do
    t.setIO x
    let s ← t.sslNew x
    store c fSsl (.ptr s)
    if s = 0 then pure 126 else do
    t.setFd s fd
    let r ← t.handshake s
    if r ≠ 1 then pure 136 else do
    store c fConn (.int 1)
    pure 0

/-- adapters/wolfssl_connection.cpp:151-154 -/
def isConnected (c : Ptr) : M Bool := do
  let b ← loadInt c fConn
  pure (b == 1)

/-- adapters/wolfssl_connection.cpp:156-175 (`send`, `send_all`) -/
def send (c : Ptr) (data : CharPtr) (length : Int) : M Int := do
  let b ← loadInt c fConn
  if b = 0 then pure 0 else do
  let s ← loadPtr c fSsl
  t.write s data length

/-- adapters/wolfssl_connection.cpp:177-196 (`receive`, `receive_all`) -/
def receive (c : Ptr) (p : Ptr) (off : Nat) (length : Int) : M Int := do
  let b ← loadInt c fConn
  if b = 0 then pure 0 else do
  let s ← loadPtr c fSsl
  t.read s p off length

/-- adapters/wolfssl_connection.cpp:217-232 -/
def loadCertificate (c : Ptr) (cert : CharPtr) (size : Nat) : M Bool := do
  let x ← loadPtr c fCtx
  if x = 0 then pure false else do
  let r ← t.loadVerify x cert size
  pure (r == 1)

/-- the class, as `httpapi_mbed.cpp` uses it -/
def asLib : Mb.Lib where
  construct := construct t
  destruct := destruct t
  isConnected := isConnected
  connect := connect t
  close c := do
    let _ ← close t c
    pure ()
  loadCertificate := loadCertificate t
  sendAll := send t
  receive := receive t
end

/-- What wolfSSL calls to receive, adapters/wolfssl_connection.cpp:42-63; `select`, `recv` are those of lwIP -/
def receiveCallback (select : Int → M Int) (recv : Int → Ptr → Nat → Int → M Int) (ctx : Ptr) (buf : Ptr) (off : Nat) (sz : Int) : M Int := do
  let fd ← loadI ctx 0
  let r ← select fd
  if r < 0 then pure (-1) else recv fd buf off sz

/-- What wolfSSL calls to send, adapters/wolfssl_connection.cpp:65-86 -/
def sendCallback (select : Int → M Int) (send : Int → CharPtr → Int → M Int) (ctx : Ptr) (buf : CharPtr) (sz : Int) : M Int := do
  let fd ← loadI ctx 0
  let r ← select fd
  if r < 0 then pure (-1) else send fd buf sz

end Verif.Wc
