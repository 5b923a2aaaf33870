import Verif.Plat.Model
import Verif.Hist
/-! # What `platform_init` and `platform_deinit` do, and what is assumed of the operating system -/
namespace Verif.Plat

/-- calls made, with their results -/
inductive Ev where
  | startup (r : Int)
  | cleanup
  | ethInit (r : Int)
  | connect (r : Int)
  | disconnect
  | setTime (r : Int)
  | ssl
  deriving DecidableEq, Repr

/-- Contract of the operating system: `Net tr` is its memory after exactly the calls `tr`.  Any result is possible. -/
structure Honours (rel : Prop) (lib : Lib) (Net : List Ev → HProp) : Prop where
  startup : ∀ tr, Triple rel (Net tr) lib.startup (fun r => Net (tr ++ [.startup r]))
  cleanup : ∀ tr, Triple rel (Net tr) lib.cleanup (fun _ => Net (tr ++ [.cleanup]))
  ethInit : ∀ tr, Triple rel (Net tr) lib.ethInit (fun r => Net (tr ++ [.ethInit r]))
  connect : ∀ tr, Triple rel (Net tr) lib.connect (fun r => Net (tr ++ [.connect r]))
  disconnect : ∀ tr, Triple rel (Net tr) lib.disconnect (fun _ => Net (tr ++ [.disconnect]))
  setTime : ∀ tr, Triple rel (Net tr) lib.setTime (fun r => Net (tr ++ [.setTime r]))
  ssl : ∀ tr, Triple rel (Net tr) lib.ssl (fun _ => Net (tr ++ [.ssl]))

inductive Op where
  | init
  | deinit
  deriving DecidableEq, Repr

/-- what a platform does: the calls made by `platform_init`, by its result, and by `platform_deinit` -/
structure Does where
  init : Int → List Ev → Prop
  deinit : List Ev → Prop

/-- one call; `o`: what `platform_init` returned -/
def step (D : Does) (tr : List Ev) (op : Op) (o : Option Int) (tr' : List Ev) : Prop :=
  ∃ evs, tr' = tr ++ evs ∧ match op with
    | .init => ∃ r, o = some r ∧ D.init r evs
    | .deinit => o = none ∧ D.deinit evs

/-- Windows -/
def win32D : Does where
  init r evs := ∃ e, evs = [.startup e] ∧ r = if e = 0 then 0 else 20
  deinit evs := evs = [.cleanup]

/-- mbed: the network is needed twice: to set the clock, and after that -/
inductive MbedInit : Int → List Ev → Prop where
  | noDevice {e} : e ≠ 0 → MbedInit 45 [.ethInit e]
  | noNetwork {e} : e ≠ 0 → MbedInit 49 [.ethInit 0, .connect e]
  | noTime {e} : e ≠ 0 → MbedInit 49 [.ethInit 0, .connect 0, .setTime e, .disconnect]
  | noNetwork2 {e} : e ≠ 0 → MbedInit 53 [.ethInit 0, .connect 0, .setTime 0, .disconnect, .connect e]
  | done : MbedInit 0 [.ethInit 0, .connect 0, .setTime 0, .disconnect, .connect 0]

def mbedD : Does where
  init := MbedInit
  deinit evs := evs = [.disconnect]

/-- Linux -/
def linuxD : Does where
  init r evs := r = 0 ∧ evs = [.ssl]
  deinit evs := evs = []

def stubD : Does where
  init r evs := r = 0 ∧ evs = []
  deinit evs := evs = []

/-! ## What is read off the calls -/

/-- how often Winsock was started and not yet cleaned up; it is usable while this is positive -/
def winsock : List Ev → Int
  | [] => 0
  | .startup r :: tr => (if r = 0 then 1 else 0) + winsock tr
  | .cleanup :: tr => -1 + winsock tr
  | _ :: tr => winsock tr

/-- whether the network is connected: `up`: before -/
def link (up : Bool) : List Ev → Bool
  | [] => up
  | .connect r :: tr => link (if r = 0 then true else up) tr
  | .disconnect :: tr => link false tr
  | _ :: tr => link up tr

/-- users: successful calls of `platform_init` less calls of `platform_deinit` -/
def users : List Op → List (Option Int) → Int
  | .init :: ops, some r :: outs => (if r = 0 then 1 else 0) + users ops outs
  | .deinit :: ops, _ :: outs => -1 + users ops outs
  | _, _ => 0

/-- the platform is initialised only if it is not, and deinitialised only if it is; `on`: whether it is initialised -/
def Alternate (on : Bool) : List Op → List (Option Int) → Prop
  | .init :: ops, some r :: outs => on = false ∧ Alternate (r = 0) ops outs
  | .deinit :: ops, _ :: outs => on = true ∧ Alternate false ops outs
  | _, _ => True

end Verif.Plat
