/-! # Specification for C27: canonical decimal text (independent of the code) -/
namespace Verif.Crt

/-- the number written by a sequence of ASCII digits -/
def decVal (ds : List UInt8) : Nat := ds.foldl (fun n c => 10 * n + (c.toNat - 48)) 0

/-- `ds` is the canonical decimal representation of `v`: ASCII digits, no superfluous leading zero, value `v` -/
def IsDecimal (v : Nat) (ds : List UInt8) : Prop :=
  ds ≠ [] ∧ (∀ c ∈ ds, 48 ≤ c ∧ c ≤ 57) ∧ (ds.length > 1 → ds.head? ≠ some 48) ∧ decVal ds = v

example : IsDecimal 1234567890 [49, 50, 51, 52, 53, 54, 55, 56, 57, 48] := by
  refine ⟨by simp, by decide, by decide, by decide⟩
example : IsDecimal 0 [48] := by refine ⟨by simp, by decide, by decide, by decide⟩

end Verif.Crt
