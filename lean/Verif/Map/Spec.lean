import Verif.Map.Model
/-!
# Specification for C08–C11: what the map calls mean on an abstract map

An abstract map is the list of its pairs, in insertion order, and its filter (0 = none).
`rel` is true when the allocator never refuses a request of at most `maxObj` bytes.
-/
namespace Verif.Map
open Verif

abbrev Text := List UInt8

structure MapV where
  pairs : List (Text × Text)
  filter : Nat

def MapV.keys (m : MapV) : List Text := m.pairs.map Prod.fst
def MapV.vals (m : MapV) : List Text := m.pairs.map Prod.snd

/-- the filter rejects the pair -/
def MapV.rejects (flt : Filt) (m : MapV) (k v : Text) : Prop := m.filter ≠ 0 ∧ flt m.filter k v ≠ 0

/-- overwrite the value of an existing key, in place -/
def MapV.update (m : MapV) (k v : Text) : MapV := { m with pairs := m.pairs.map fun p => if p.1 = k then (k, v) else p }
/-- append a new pair -/
def MapV.append (m : MapV) (k v : Text) : MapV := { m with pairs := m.pairs ++ [(k, v)] }
/-- remove a key; a map that becomes empty loses its filter (map.c:222) -/
def MapV.remove (m : MapV) (k : Text) : MapV :=
  let ps := m.pairs.filter fun p => p.1 ≠ k
  { pairs := ps, filter := if ps = [] then 0 else m.filter }

/-- insertion of an absent key: appended, or `MAP_ERROR` with the pairs unchanged because an allocation was refused
(or the array would exceed the address space); an empty map may then lose its filter (map.c:222). -/
def insertE (rel : Prop) (m : MapV) (k v : Text) (r : MapResult) (m' : MapV) : Prop :=
  (r = .ok ∧ m' = m.append k v) ∨
  (r = .error ∧ (¬ rel ∨ maxObj < 8 * (m.pairs.length + 1)) ∧ m'.pairs = m.pairs ∧
    (m'.filter = m.filter ∨ (m.pairs = [] ∧ m'.filter = 0)))

/-- `Map_Add` on map `a` (`none`: NULL handle) with key `ok` and value `ov` (`none`: NULL) -/
def AddE (flt : Filt) (rel : Prop) (a : Option MapV) (ok ov : Option Text) (r : MapResult) (a' : Option MapV) : Prop :=
  match a, ok, ov with
  | some m, some k, some v =>
    if k ∈ m.keys then r = .keyExists ∧ a' = a
    else (m.rejects flt k v ∧ r = .filterReject ∧ a' = a) ∨ (¬ m.rejects flt k v ∧ ∃ m', a' = some m' ∧ insertE rel m k v r m')
  | _, _, _ => r = .invalidArg ∧ a' = a

/-- `Map_AddOrUpdate` -/
def UpdateE (flt : Filt) (rel : Prop) (a : Option MapV) (ok ov : Option Text) (r : MapResult) (a' : Option MapV) : Prop :=
  match a, ok, ov with
  | some m, some k, some v =>
    (m.rejects flt k v ∧ r = .filterReject ∧ a' = a) ∨
    (¬ m.rejects flt k v ∧
      ((k ∉ m.keys ∧ ∃ m', a' = some m' ∧ insertE rel m k v r m') ∨
       (k ∈ m.keys ∧ ((r = .ok ∧ a' = some (m.update k v)) ∨ (r = .error ∧ ¬ rel ∧ a' = a)))))
  | _, _, _ => r = .invalidArg ∧ a' = a

/-- `Map_Delete` -/
def DeleteE (a : Option MapV) (ok : Option Text) (r : MapResult) (a' : Option MapV) : Prop :=
  match a, ok with
  | some m, some k => if k ∈ m.keys then r = .ok ∧ a' = some (m.remove k) else r = .keyNotFound ∧ a' = a
  | _, _ => r = .invalidArg ∧ a' = a

/-- the clone of a map: same pairs; same filter unless the map is empty (map.c:129) -/
def MapV.clone (m : MapV) : MapV := { m with filter := if m.pairs = [] then 0 else m.filter }

end Verif.Map
