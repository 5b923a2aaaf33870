import Verif.Sock.AgainDemo
/-! # C119: destroying a handle in its completion callback -/
namespace Verif.Sock
open Verif.List Verif.Headers

/-- a system whose completion callbacks destroy the handle `p` -/
def ender (os : Os) (p : Ptr) : Os := { os with
  on_send_complete := fun f x ok => do
    os.on_send_complete f x ok
    socketio_destroy os p }

def execEnd (plan : Nat → Int) (op : Op) (env : List Nat) : M (Option Int × List Nat) :=
  match op with
  | .dowork i n m => on1 env i fun h => do let r ← socketio_dowork (ender (markOs plan) h) n m h; pure (some (if r then 1 else 0), env)
  | .send i (some bs) cb ctx => on1 env i fun h => do let r ← socketio_send (ender (markOs plan) h) h (.lit bs) bs.length cb ctx; pure (some r, env)
  | op => exec (markOs plan) op env

def endReport (plan : Nat → Int) (ops : List Op) : Option (Except String (List (Option Int))) :=
  match runOps (execEnd plan) ops [] markSt with
  | some (.ok ((outs, _), _)) => some (.ok outs)
  | some (.error (.ub w)) => some (.error w)
  | _ => none

def clearBody (rec : Ptr → Ptr → M Unit) (s first_pending_io : Ptr) : M Unit := do
  if first_pending_io ≠ 0 then do
    let p ← list_item_get_value first_pending_io
    if p ≠ 0 then do
      let b ← loadPtr p gBytes
      free b
      free p
      let l ← loadPtr s fList
      let _ ← list_remove l first_pending_io
      let first ← list_get_head_item l
      rec s first
    else do
      let l ← loadPtr s fList
      let _ ← list_remove l first_pending_io
      let first ← list_get_head_item l
      rec s first
  else pure ()

def destroyBody (rec : Ptr → M Unit) (list : Ptr) : M Unit := do
  let current_item ← loadPtr list fHead
  if current_item ≠ 0 then
    let next ← loadPtr current_item fNext
    store list fHead (.ptr next)
    free current_item
    rec list
  else pure ()

theorem clear_eq : clearLoop = clearBody clearLoop := by
  funext a b; rw [clearLoop]; rfl

theorem destroy_eq : destroyLoop = destroyBody destroyLoop := by
  funext a; rw [destroyLoop]; rfl

/-- Destroying the handle in the completion callback of a direct send is defined: nothing is read afterwards. -/
theorem ended_in_send : endReport (thenR [2, 1, 1, 1, 0]) (opening ++ [.send 0 (some [1, 2]) 9 5]) = some (.ok [some 1, some 0, some 0]) := by
  unfold endReport execEnd exec socketio_send ender socketio_destroy list_destroy
  rw [clear_eq, destroy_eq]
  decide +kernel

/-- C119 fails for destroying: when the completion callback called by `socketio_dowork` destroys the handle, the loop goes on and reads
the message, which was freed. -/
theorem ended_in_dowork : endReport (thenR [0, 2, 1, 1, 0]) (opening ++ [.send 0 (some [1, 2]) 9 5, .dowork 0 3 3]) =
    some (.error "load from a block that is not live") := by
  unfold endReport execEnd exec socketio_dowork sendLoop sendRound finishPending ender socketio_destroy list_destroy
  rw [clear_eq, clear_eq, destroy_eq]
  unfold clearBody list_remove
  rw [remove_eq]
  decide +kernel

end Verif.Sock
