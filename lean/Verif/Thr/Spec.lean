import Verif.Thr.Model
import Verif.World
/-! # What the thread adapter promises, over every history of calls and every schedule -/
namespace Verif.Thr

/-- where a thread is; a finished thread has the result of its function -/
inductive Stage where
  | ready
  | running
  | done (result : Int)
  deriving DecidableEq, Repr

/-- a thread, as the caller of `ThreadAPI_Create` asked for it -/
structure AThread where
  fn : Nat
  arg : Nat
  stage : Stage
  deriving DecidableEq, Repr

/-- Calls of the client (on a table of thread handles) and steps of the scheduler, in any order. -/
inductive Op where
  | create (code : Int) (haveOut : Bool) (fn arg : Nat)
  | join (code : Int) (i : Nat) (wantRes : Bool)
  | start (t : Nat)
  | finish (t : Nat) (result : Int)
  deriving DecidableEq, Repr

inductive Out where
  /-- a call returned this, and wrote this value -/
  | ret (r : THREADAPI_RESULT) (v : Option Int)
  /-- a thread called this function with this argument -/
  | called (fn arg : Nat)
  /-- nothing happened (no such position, blocked, not a possible step) -/
  | nothing
  deriving DecidableEq, Repr

/-- handles of the client (thread number, `none` = `NULL`) and all threads ever created -/
structure Abs where
  handles : List (Option Nat)
  threads : List AThread

def step (oom : Prop) (x : Abs) (op : Op) (o : Out) (x' : Abs) : Prop :=
  match op with
  | .create code haveOut fn arg =>
    -- a handle and a thread, or neither
    (code = 0 ∧ haveOut = true ∧ fn ≠ 0 ∧ o = .ret .ok none ∧
      x' = ⟨x.handles ++ [some x.threads.length], x.threads ++ [⟨fn, arg, .ready⟩]⟩) ∨
    (x' = ⟨x.handles ++ [none], x.threads⟩ ∧
      (((haveOut = false ∨ fn = 0) ∧ o = .ret .invalid_arg none) ∨
       (haveOut = true ∧ fn ≠ 0 ∧ (oom ∨ code = 11) ∧ o = .ret .no_memory none) ∨
       (haveOut = true ∧ fn ≠ 0 ∧ code ≠ 0 ∧ code ≠ 11 ∧ o = .ret .error none)))
  | .join code i wantRes =>
    match x.handles[i]? with
    | none => o = .nothing ∧ x' = x
    | some none => o = .ret .invalid_arg none ∧ x' = x
    | some (some t) =>
      match (x.threads[t]?).map AThread.stage with
      | some (.done r) =>
        x' = ⟨x.handles.set i none, x.threads⟩ ∧
          o = if code = 0 then .ret .ok (if wantRes then some r else none) else .ret .error none
      | some .running =>
        if code = 0 then o = .nothing ∧ x' = x
        else x' = ⟨x.handles.set i none, x.threads⟩ ∧ o = .ret .error none
      | _ => o = .nothing ∧ x' = x
  | .start t =>
    match x.threads[t]? with
    | some ⟨fn, arg, .ready⟩ => o = .called fn arg ∧ x' = ⟨x.handles, x.threads.set t ⟨fn, arg, .running⟩⟩
    | _ => o = .nothing ∧ x' = x
  | .finish t r =>
    match x.threads[t]? with
    | some ⟨fn, arg, .running⟩ => o = .nothing ∧ x' = ⟨x.handles, x.threads.set t ⟨fn, arg, .done r⟩⟩
    | _ => o = .nothing ∧ x' = x

/-- results of start functions are `int`s -/
def good : Op → Prop
  | .finish _ r => -(2 ^ 31) ≤ r ∧ r < 2 ^ 31
  | _ => True

end Verif.Thr
