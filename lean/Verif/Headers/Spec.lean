import Verif.Headers.Model
/-!
# Specification for C28, C29: what the header calls mean

The headers are the list of (name, value) pairs in insertion order.
-/
namespace Verif.Headers
open Verif

abbrev Text := List UInt8
abbrev Hdrs := List (Text × Text)

/-- white space dropped from the beginning of a value: space, tab, CR, LF -/
def isLWS (c : UInt8) : Bool := c = 32 || c = 9 || c = 13 || c = 10

/-- a header name: visible ASCII characters other than ':' -/
def okName (n : Text) : Prop := ∀ c ∈ n, 33 ≤ c ∧ c ≤ 126 ∧ c ≠ 58

instance (n : Text) : Decidable (okName n) := inferInstanceAs (Decidable (∀ c ∈ n, _))

/-- the value of the header called `n` -/
def find (hs : Hdrs) (n : Text) : Option Text := (hs.find? fun p => p.1 = n).map Prod.snd

/-- give an existing header a new value -/
def set (hs : Hdrs) (n v : Text) : Hdrs := hs.map fun p => if p.1 = n then (n, v) else p

/-- the headers after storing `v` under `n` -/
def stored (replace : Bool) (hs : Hdrs) (n v : Text) : Hdrs :=
  match find hs n with
  | none => hs ++ [(n, v)]
  | some old => if replace then set hs n v else set hs n (old ++ [44, 32] ++ v)

/-- Adding (`replace = false`) or replacing a header: headers before (`none`: NULL handle), name and value (`none`: NULL), result,
headers after.  Failing is allowed only when memory ran out or an object would exceed the address space. -/
def StoreE (rel : Prop) (replace : Bool) (a : Option Hdrs) (on ov : Option Text) (r : Res) (a' : Option Hdrs) : Prop :=
  match a, on, ov with
  | some hs, some n, some v =>
    if okName n then
      (r = .ok ∧ a' = some (stored replace hs n (v.dropWhile isLWS))) ∨
      ((r = .allocFailed ∨ (r = .error ∧ replace = false ∧ find hs n ≠ none)) ∧ a' = a ∧
        (¬ rel ∨ maxObj < 8 * (hs.length + 1) ∨ ∃ old, find hs n = some old ∧ maxObj ≤ old.length + 2 + v.length))
    else r = .invalidArg ∧ a' = a
  | _, _, _ => r = .invalidArg ∧ a' = a

/-- the text of header number `i` -/
def line (hs : Hdrs) (i : Nat) : Option Text := hs[i]?.map fun p => p.1 ++ [58, 32] ++ p.2

end Verif.Headers
