import Verif.Mem
/-!
# Model of `src/xio.c`

An interface description is a read-only table of seven function pointers; a function pointer is an address
(`0` is `NULL`), and `Code` says what calling the function at an address does: any computation of the memory
model.  Descriptions are constant objects: `ro` maps the address of a description to its content.  A call
through a pointer to no description is undefined behaviour.  Buffers, callbacks and contexts are opaque
addresses: xio never looks behind them.  `int` results are integers.

Simplification: the functions of the concrete IO do not call back into the same xio handle while they run
(xio keeps no state that such a call could see changed, apart from destroying the handle).
-/
namespace Verif.Xio

/-- `IO_INTERFACE_DESCRIPTION` (inc/azure_c_shared_utility/xio.h:47-56) -/
structure Iface where
  concrete_io_create : Nat
  concrete_io_destroy : Nat
  concrete_io_open : Nat
  concrete_io_close : Nat
  concrete_io_send : Nat
  concrete_io_dowork : Nat
  concrete_io_setoption : Nat
  deriving DecidableEq, Repr

/-- What calling the function at an address does; one entry for each function type of
inc/azure_c_shared_utility/xio.h:39-45. -/
structure Code where
  create : (fn params logger : Nat) → M Nat
  destroy : (fn h : Nat) → M Unit
  opn : (fn h onOpen onOpenCtx onBytes onBytesCtx onErr onErrCtx : Nat) → M Int
  close : (fn h onClose ctx : Nat) → M Int
  send : (fn h buffer size onSend ctx : Nat) → M Int
  dowork : (fn h : Nat) → M Unit
  setoption : (fn h name value : Nat) → M Int

section
variable (ro : Nat → Option Iface) (code : Code)

/-- reading a description -/
def deref (d : Nat) : M Iface :=
  match ro d with
  | some i => pure i
  | none => ub "not an interface description"

/-- `xio_create`, src/xio.c:18-56.  Fields of the instance: 0 `io_interface_description`, 1 `concrete_xio_handle`
(src/xio.c:12-16). -/
def xio_create (io_interface_description params logger : Nat) : M Ptr := do
  if io_interface_description = 0 then pure 0 else do
  let i ← deref ro io_interface_description
  if i.concrete_io_create = 0 ∨ i.concrete_io_destroy = 0 ∨ i.concrete_io_open = 0 ∨ i.concrete_io_close = 0 ∨
      i.concrete_io_send = 0 ∨ i.concrete_io_dowork = 0 ∨ i.concrete_io_setoption = 0 then
    pure 0
  else do
    let xio_instance ← mallocS 2
    if xio_instance = 0 then pure 0 else do
    store xio_instance 0 (.ptr io_interface_description)
    let i ← deref ro (← loadPtr xio_instance 0)
    let h ← code.create i.concrete_io_create params logger
    store xio_instance 1 (.ptr h)
    if (← loadPtr xio_instance 1) = 0 then do
      free xio_instance
      pure 0
    else pure xio_instance

/-- `xio_destroy`, src/xio.c:58-71 -/
def xio_destroy (xio : Ptr) : M Unit := do
  if xio = 0 then pure () else do
  let i ← deref ro (← loadPtr xio 0)
  code.destroy i.concrete_io_destroy (← loadPtr xio 1)
  free xio

/-- `xio_open`, src/xio.c:73-100 -/
def xio_open (xio : Ptr) (onOpen onOpenCtx onBytes onBytesCtx onErr onErrCtx : Nat) : M Int := do
  if xio = 0 then pure 80 else do
  let i ← deref ro (← loadPtr xio 0)
  let h ← loadPtr xio 1
  let r ← code.opn i.concrete_io_open h onOpen onOpenCtx onBytes onBytesCtx onErr onErrCtx
  if r ≠ 0 then pure 90 else pure 0

/-- `xio_close`, src/xio.c:102-129 -/
def xio_close (xio : Ptr) (onClose ctx : Nat) : M Int := do
  if xio = 0 then pure 109 else do
  let i ← deref ro (← loadPtr xio 0)
  let h ← loadPtr xio 1
  let r ← code.close i.concrete_io_close h onClose ctx
  if r ≠ 0 then pure 119 else pure 0

/-- `xio_send`, src/xio.c:131-153 -/
def xio_send (xio : Ptr) (buffer size onSend ctx : Nat) : M Int := do
  if xio = 0 then pure 139 else do
  let i ← deref ro (← loadPtr xio 0)
  let h ← loadPtr xio 1
  code.send i.concrete_io_send h buffer size onSend ctx

/-- `xio_dowork`, src/xio.c:155-165 -/
def xio_dowork (xio : Ptr) : M Unit := do
  if xio = 0 then pure () else do
  let i ← deref ro (← loadPtr xio 0)
  code.dowork i.concrete_io_dowork (← loadPtr xio 1)

/-- `xio_setoption`, src/xio.c:167-187 -/
def xio_setoption (xio : Ptr) (optionName value : Nat) : M Int := do
  if xio = 0 ∨ optionName = 0 then pure 174 else do
  let i ← deref ro (← loadPtr xio 0)
  let h ← loadPtr xio 1
  code.setoption i.concrete_io_setoption h optionName value

end
end Verif.Xio
