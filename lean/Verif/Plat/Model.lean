import Verif.Mem
/-!
# Model of `adapters/platform_win32.c`, `platform_mbed.cpp`, `platform_linux.c` and `platform_stub.c`

What the operating system offers is a parameter (`Lib`).  Logging is left out, and so are the functions `platform_get_default_tlsio`, that give the address of a table of functions.
-/
namespace Verif.Plat

/-- what the platforms use -/
structure Lib where
  /-- `WSAStartup(MAKEWORD(2, 2), …)` -/
  startup : M Int
  /-- `WSACleanup` -/
  cleanup : M Unit
  /-- `EthernetInterface::init`, `connect`, `disconnect` -/
  ethInit : M Int
  connect : M Int
  disconnect : M Unit
  /-- `NTPClient::setTime("0.pool.ntp.org")` -/
  setTime : M Int
  /-- `SSL_library_init`, `SSL_load_error_strings`, `ERR_load_BIO_strings`, `OpenSSL_add_all_algorithms` -/
  ssl : M Unit

/-- a platform: `platform_init`, `platform_deinit` -/
structure Platform where
  init : M Int
  deinit : M Unit

section
variable (lib : Lib)

/-- adapters/platform_win32.c:13-28, 35-38 -/
def win32 : Platform where
  init := do
    let r ← lib.startup
    if r ≠ 0 then pure 20 else pure 0
  deinit := lib.cleanup

/-- adapters/platform_mbed.cpp:14-37 -/
def setupRealTime : M Int := do
  let r ← lib.connect
  if r ≠ 0 then pure 20 else do
  let r ← lib.setTime
  let result := if r ≠ 0 then 27 else 0
  lib.disconnect
  pure result

/-- adapters/platform_mbed.cpp:39-61, 68-71 -/
def mbed : Platform where
  init := do
    let r ← lib.ethInit
    if r ≠ 0 then pure 45 else do
    let r ← setupRealTime lib
    if r ≠ 0 then pure 49 else do
    let r ← lib.connect
    if r ≠ 0 then pure 53 else pure 0
  deinit := lib.disconnect

/-- adapters/platform_linux.c:8-13, 20-23; src/tlsio_openssl.c:329-341 -/
def linux : Platform where
  init := do
    lib.ssl
    pure 0
  deinit := pure ()
end

/-- adapters/platform_stub.c:10-20 -/
def stub : Platform where
  init := pure 0
  deinit := pure ()

end Verif.Plat
