import Verif.Strings.Props
/-! # Property C07: `STRING_compare` is a total order consistent with content

`STRING_compare_spec`/`STRING_compare_self` (Props) say that the call returns `compareSpec a b` (0 for equal handles);
here are the laws of that value.  `ULt` is the independent definition of byte-wise lexicographic order. -/
namespace Verif.Strings
open Verif

/-- `x` is before `y` in lexicographic order of unsigned bytes: a proper prefix, or smaller at the first difference. -/
def ULt (x y : Text) : Prop :=
  ∃ p, (∃ c v, x = p ∧ y = p ++ c :: v) ∨ (∃ c d u v, x = p ++ c :: u ∧ y = p ++ d :: v ∧ c.toNat < d.toNat)

theorem strcmpL_lt (x y : Text) : strcmpL x y < 0 ↔ ULt x y := by
  induction x generalizing y with
  | nil =>
    cases y with
    | nil =>
      simp [strcmpL, ULt]
    | cons d v => simp [strcmpL, ULt]
  | cons c u ih =>
    cases y with
    | nil => simp [strcmpL, ULt]
    | cons d v =>
      simp only [strcmpL]
      by_cases h1 : c < d
      · simp only [h1, if_true]
        refine ⟨fun _ => ⟨[], Or.inr ⟨c, d, u, v, rfl, rfl, UInt8.lt_iff_toNat_lt.1 h1⟩⟩, fun _ => by decide⟩
      · by_cases h2 : d < c
        · simp only [h1, h2, if_true, if_false]
          refine ⟨fun h => absurd h (by decide), ?_⟩
          rintro ⟨p, ⟨e, w, hx, hy⟩ | ⟨e, f, w, z, hx, hy, hlt⟩⟩
          · cases p with
            | nil => simp at hx
            | cons a p =>
              simp at hx hy; obtain ⟨rfl, _⟩ := hx; obtain ⟨rfl, _⟩ := hy
              exact absurd h2 (UInt8.lt_irrefl _)
          · cases p with
            | nil =>
              simp at hx hy; obtain ⟨rfl, _⟩ := hx; obtain ⟨rfl, _⟩ := hy
              have := UInt8.lt_iff_toNat_lt.1 h2; omega
            | cons a p =>
              simp at hx hy; obtain ⟨rfl, _⟩ := hx; obtain ⟨rfl, _⟩ := hy
              exact absurd h2 (UInt8.lt_irrefl _)
        · have e : c = d := UInt8.le_antisymm (UInt8.not_lt.1 h2) (UInt8.not_lt.1 h1)
          subst e
          simp only [h1, if_false]
          rw [ih]
          constructor
          · rintro ⟨p, ⟨e, w, hx, hy⟩ | ⟨e, f, w, z, hx, hy, hlt⟩⟩
            · exact ⟨c :: p, Or.inl ⟨e, w, by simp [hx], by simp [hy]⟩⟩
            · exact ⟨c :: p, Or.inr ⟨e, f, w, z, by simp [hx], by simp [hy], hlt⟩⟩
          · rintro ⟨p, ⟨e, w, hx, hy⟩ | ⟨e, f, w, z, hx, hy, hlt⟩⟩
            · cases p with
              | nil => simp at hx
              | cons a p => simp at hx hy; exact ⟨p, Or.inl ⟨e, w, hx.2, hy.2⟩⟩
            · cases p with
              | nil => simp at hx hy; obtain ⟨rfl, _⟩ := hx; obtain ⟨rfl, _⟩ := hy; omega
              | cons a p => simp at hx hy; exact ⟨p, Or.inr ⟨e, f, w, z, hx.2, hy.2, hlt⟩⟩

theorem strcmpL_neg (x y : Text) : strcmpL y x = - strcmpL x y := by
  induction x generalizing y with
  | nil => cases y <;> simp [strcmpL]
  | cons c u ih =>
    cases y with
    | nil => simp [strcmpL]
    | cons d v =>
      simp only [strcmpL]
      by_cases h1 : c < d
      · have : ¬ d < c := fun h => UInt8.lt_irrefl c (UInt8.lt_trans h1 h)
        simp [h1, this]
      · by_cases h2 : d < c
        · simp [h1, h2]
        · simp [h1, h2, ih]

theorem strcmpL_trans {x y z : Text} (h1 : strcmpL x y ≤ 0) (h2 : strcmpL y z ≤ 0) : strcmpL x z ≤ 0 := by
  induction x generalizing y z with
  | nil => cases z <;> simp [strcmpL]
  | cons a x ih =>
    cases y with
    | nil => simp [strcmpL] at h1
    | cons b y =>
      cases z with
      | nil => simp [strcmpL] at h2
      | cons c z =>
        simp only [strcmpL, UInt8.lt_iff_toNat_lt] at *
        by_cases ab : a.toNat < b.toNat
        · by_cases bc : b.toNat < c.toNat
          · rw [if_pos (by omega)]; decide
          · by_cases cb : c.toNat < b.toNat
            · rw [if_neg bc, if_pos cb] at h2; exact absurd h2 (by decide)
            · rw [if_pos (by omega)]; decide
        · by_cases ba : b.toNat < a.toNat
          · rw [if_neg ab, if_pos ba] at h1; exact absurd h1 (by decide)
          · rw [if_neg ab, if_neg ba] at h1
            by_cases bc : b.toNat < c.toNat
            · rw [if_pos (by omega)]; decide
            · by_cases cb : c.toNat < b.toNat
              · rw [if_neg bc, if_pos cb] at h2; exact absurd h2 (by decide)
              · rw [if_neg bc, if_neg cb] at h2
                rw [if_neg (by omega), if_neg (by omega)]
                exact ih h1 h2

/-- C07: 0 exactly for two NULLs or two equal texts. -/
theorem compare_eq_zero (a b : Option Text) : compareSpec a b = 0 ↔ a = b := by
  cases a <;> cases b <;> simp [compareSpec, strcmpL_eq_zero]

/-- C07: antisymmetric in sign, NULLs included. -/
theorem compare_antisymm (a b : Option Text) : compareSpec b a = - compareSpec a b := by
  cases a <;> cases b <;> first | rfl | exact strcmpL_neg _ _

/-- C07: transitive, NULLs included. -/
theorem compare_trans {a b c : Option Text} (h1 : compareSpec a b ≤ 0) (h2 : compareSpec b c ≤ 0) : compareSpec a c ≤ 0 := by
  cases a <;> cases b <;> cases c <;> simp [compareSpec] at *
  exact strcmpL_trans h1 h2

/-- C07: on two strings the order is that of unsigned bytes. -/
theorem compare_lt (x y : Text) : compareSpec (some x) (some y) < 0 ↔ ULt x y := strcmpL_lt x y

/-- C07: NULL comes after every string. -/
theorem compare_null (x : Text) : compareSpec (some x) none < 0 ∧ 0 < compareSpec none (some x) := by simp [compareSpec]

example : compareSpec (some [97, 200]) (some [97, 100]) > 0 ∧ ULt [97, 100] [97, 200] :=
  ⟨by decide, ⟨[97], Or.inr ⟨100, 200, [], [], rfl, rfl, by decide⟩⟩⟩

end Verif.Strings
