import Verif.Exs.Model
import Verif.Ex.HSpec
import Verif.Sas.Spec
/-! # What the calls of `httpapiexsas.h` do -/
namespace Verif.Exs
open Verif.Ex
open Verif.Headers (Hdrs)
open Verif.Base64 (Decodes)
open Verif.Sas (token text)

/-- What a handle stands for: copies of the key, of the resource and of the name of the key. -/
structure Creds where
  key : Ex.Text
  uri : Ex.Text
  name : Ex.Text
  deriving DecidableEq, Repr

/-- `HTTPAPIEX_SAS_Create` -/
def CreateE (oom : Prop) (k u n : Option Ex.Text) (ok : Bool) (a' : Option Creds) : Prop :=
  match k, u, n with
  | some k, some u, some n => (ok = false ∧ a' = none ∧ oom) ∨ (ok = true ∧ a' = some ⟨k, u, n⟩)
  | _, _, _ => ok = false ∧ a' = none

/-- Readings of the clock in seconds, as they are assumed here: -1 for a failure; not more than an hour before 1970, and less than 285 million
years. -/
def Reading (t : Int) : Prop := t = -1 ∨ (-3600 ≤ t ∧ t + 3600 < 2 ^ 53)

/-- Contract of the clock: `Net tr` is its memory after the readings `tr`. -/
def Clock (rel : Prop) (get_time : M Int) (Net : List Int → HProp) : Prop :=
  ∀ tr, Triple rel (Net tr) get_time (fun t => (Reading t) ⋏ Net (tr ++ [t]))

/-- `v` is a token made with the credentials `c` at the time `t`: it expires one hour later.  (Keys of 2 GB and resources of 4 GB and more are
cut, see C38.) -/
def IsToken (c : Creds) (t : Int) (v : Ex.Text) : Prop :=
  ∃ kb, Decodes c.key kb ∧ kb ≠ [] ∧
    (kb.length < 2 ^ 31 → c.uri.length + 21 < 2 ^ 32 → v = token kb c.uri c.name (Crt.decimal (t + 3600).toNat))

/-- the name of the header -/
abbrev auth : Ex.Text := text "Authorization"

/-- What is done to the request headers `hs` (`none`: NULL) before the request is made, and to the readings of the clock.  Nothing, unless
there is a header `Authorization`; then the clock is read once, and that header is given a token; if the clock fails, there is no memory, the
key is empty or the headers would be too large, it is left as it is. -/
def RefreshE (oom : Prop) (c : Option Creds) (hs : Option Hdrs) (tr : List Int) (hs' : Option Hdrs) (tr' : List Int) : Prop :=
  match c, hs with
  | some c, some hs =>
    match Headers.find hs auth with
    | none => hs' = some hs ∧ tr' = tr
    | some old => ∃ t, tr' = tr ++ [t] ∧
        ((∃ v, t ≠ -1 ∧ IsToken c t v ∧ hs' = some (Headers.set hs auth v)) ∨
         (hs' = some hs ∧ (t = -1 ∨ oom ∨ c.key = [] ∨ maxObj ≤ c.uri.length + c.name.length + 502 + old.length ∨ maxObj < 8 * (hs.length + 1))))
  | _, _ => hs' = hs ∧ tr' = tr

/-- `HTTPAPIEX_SAS_ExecuteRequest`: the headers are refreshed, and then the request is made, with all other arguments as they are. -/
def ExecE (oom : Prop) (c : Option Creds) (a : Option Obj) (x : Args) (dummy : Val) (tr : List Int)
    (r : Result) (a' : Option Obj) (x' : Args) (dummy' : Val) (tr' : List Int) (evs : List Ev) : Prop :=
  ∃ hs, RefreshE oom c x.hdrs tr hs tr' ∧ Ex.ExecE oom a { x with hdrs := hs } dummy r a' x' dummy' evs

end Verif.Exs
