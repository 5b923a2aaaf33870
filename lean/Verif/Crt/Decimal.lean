import Verif.Crt.Spec
/-! # Decimal digits: existence, uniqueness, length -/
namespace Verif.Crt

/-- decimal digits, least significant first -/
def revDigits (v : Nat) : List UInt8 :=
  UInt8.ofNat (48 + v % 10) :: (if _h : v / 10 > 0 then revDigits (v / 10) else [])
termination_by v
decreasing_by omega

/-- the canonical decimal text -/
def decimal (v : Nat) : List UInt8 := (revDigits v).reverse

theorem revDigits_lt {v : Nat} (h : v < 10) : revDigits v = [UInt8.ofNat (48 + v % 10)] := by
  rw [revDigits, dif_neg (by omega)]
theorem revDigits_ge {v : Nat} (h : 10 ≤ v) : revDigits v = UInt8.ofNat (48 + v % 10) :: revDigits (v / 10) := by
  rw [revDigits, dif_pos (by omega)]

theorem dig_toNat (d : Nat) (h : d < 10) : (UInt8.ofNat (48 + d)).toNat = 48 + d := by
  simp [UInt8.toNat_ofNat']; omega

theorem dig_range (d : Nat) (h : d < 10) : 48 ≤ UInt8.ofNat (48 + d) ∧ UInt8.ofNat (48 + d) ≤ 57 := by
  have e := dig_toNat d h
  constructor
  · rw [UInt8.le_iff_toNat_le, e]; simp
  · rw [UInt8.le_iff_toNat_le, e]; simp; omega

theorem decVal_snoc (ds : List UInt8) (c : UInt8) : decVal (ds ++ [c]) = 10 * decVal ds + (c.toNat - 48) := by
  simp [decVal, List.foldl_append]

theorem decimal_lt {v : Nat} (h : v < 10) : decimal v = [UInt8.ofNat (48 + v % 10)] := by
  unfold decimal; rw [revDigits_lt h]; rfl
theorem decimal_ge {v : Nat} (h : 10 ≤ v) : decimal v = decimal (v / 10) ++ [UInt8.ofNat (48 + v % 10)] := by
  unfold decimal; rw [revDigits_ge h, List.reverse_cons]

theorem decimal_head {v : Nat} (h : 0 < v) : (decimal v).head? ≠ some 48 ∧ decimal v ≠ [] := by
  induction v using Nat.strongRecOn with
  | _ v ih =>
    by_cases hv : v < 10
    · rw [decimal_lt hv]
      refine ⟨?_, by simp⟩
      intro hh
      have hh := Option.some.inj ((List.head?_cons).symm.trans hh)
      have := congrArg UInt8.toNat hh
      rw [dig_toNat _ (by omega)] at this
      simp at this; omega
    · rw [decimal_ge (by omega)]
      obtain ⟨h1, h2⟩ := ih (v / 10) (by omega) (by omega)
      refine ⟨?_, by simp⟩
      rw [List.head?_append]
      cases hd : (decimal (v / 10)).head? with
      | none => simp at hd; exact absurd hd h2
      | some x => rw [hd] at h1; simpa using h1

/-- every number has a canonical decimal text … -/
theorem decimal_is (v : Nat) : IsDecimal v (decimal v) := by
  induction v using Nat.strongRecOn with
  | _ v ih =>
    by_cases hv : v < 10
    · rw [decimal_lt hv]
      refine ⟨by simp, ?_, by simp, ?_⟩
      · intro c hc; simp only [List.mem_singleton] at hc; subst hc; exact dig_range _ (by omega)
      · simp only [decVal, List.foldl_cons, List.foldl_nil]; rw [dig_toNat _ (by omega)]; omega
    · obtain ⟨h1, h2, h3, h4⟩ := ih (v / 10) (by omega)
      have hh := decimal_head (v := v) (by omega)
      refine ⟨hh.2, ?_, fun _ => hh.1, ?_⟩
      · rw [decimal_ge (by omega)]
        intro c hc
        simp only [List.mem_append, List.mem_singleton] at hc
        rcases hc with hc | rfl
        · exact h2 c hc
        · exact dig_range _ (by omega)
      · rw [decimal_ge (by omega), decVal_snoc, h4, dig_toNat _ (by omega)]; omega

theorem snoc_cases {α} (l : List α) : l = [] ∨ ∃ a b, l = a ++ [b] := by
  rcases List.eq_nil_or_concat l with h | ⟨a, b, h⟩
  · exact Or.inl h
  · exact Or.inr ⟨a, b, by simpa using h⟩

theorem decVal_pos {ds : List UInt8} (h : ds ≠ []) (hd : ∀ c ∈ ds, (48 : UInt8) ≤ c ∧ c ≤ 57) (hh : ds.head? ≠ some 48) : 0 < decVal ds := by
  generalize hn : ds.length = n
  induction n using Nat.strongRecOn generalizing ds with
  | _ n ih =>
    rcases snoc_cases ds with rfl | ⟨a, b, rfl⟩
    · exact absurd rfl h
    · rw [decVal_snoc]
      have hb := hd b (by simp)
      by_cases ha : a = []
      · subst ha
        simp at hh
        have h1 : 48 ≤ b.toNat := by have := hb.1; rw [UInt8.le_iff_toNat_le] at this; simpa using this
        have h2 : b.toNat ≠ 48 := by intro e; apply hh; apply UInt8.toNat_inj.1; simpa using e
        omega
      · have : 0 < decVal a := by
          refine ih a.length (by simp at hn; omega) ha (fun c hc => hd c (by simp [hc])) ?_ rfl
          rw [List.head?_append] at hh
          cases hx : a.head? with
          | none => simp
          | some x => simpa [hx] using hh
        omega

/-- … and only one. -/
theorem IsDecimal.unique {v : Nat} {ds : List UInt8} (h : IsDecimal v ds) : ds = decimal v := by
  generalize hn : ds.length = n
  induction n using Nat.strongRecOn generalizing ds v with
  | _ n ih =>
    obtain ⟨h1, h2, h3, h4⟩ := h
    rcases snoc_cases ds with rfl | ⟨a, b, rfl⟩
    · exact absurd rfl h1
    have hb := h2 b (by simp)
    have hb1 : 48 ≤ b.toNat := by have := hb.1; rw [UInt8.le_iff_toNat_le] at this; simpa using this
    have hb2 : b.toNat ≤ 57 := by have := hb.2; rw [UInt8.le_iff_toNat_le] at this; simpa using this
    rw [decVal_snoc] at h4
    have eb : UInt8.ofNat (48 + v % 10) = b := by
      apply UInt8.toNat_inj.1; rw [dig_toNat _ (by omega)]; omega
    by_cases ha : a = []
    · subst ha
      simp [decVal] at h4
      rw [decimal_lt (by omega), eb]; rfl
    · have hlen : (a ++ [b]).length > 1 := by
        have := List.length_pos_iff.2 ha; simp; omega
      have hh := h3 hlen
      have hh' : a.head? ≠ some 48 := by
        rw [List.head?_append] at hh
        cases hx : a.head? with
        | none => simp
        | some x => simpa [hx] using hh
      have hp := decVal_pos ha (fun c hc => h2 c (by simp [hc])) hh'
      have e : decVal a = v / 10 := by omega
      have := ih a.length (by simp at hn; omega) (v := v / 10) (ds := a)
        ⟨ha, fun c hc => h2 c (by simp [hc]), fun _ => hh', e⟩ rfl
      rw [decimal_ge (by omega), eb, ← this]

theorem decimal_length_le (v k : Nat) (hk : 0 < k) (h : v < 10 ^ k) : (decimal v).length ≤ k := by
  induction k generalizing v with
  | zero => omega
  | succ k ih =>
    by_cases hv : v < 10
    · rw [decimal_lt hv]; simp
    · rw [decimal_ge (by omega)]
      have : 0 < k := by
        rcases Nat.eq_zero_or_pos k with rfl | h'
        · simp at h; omega
        · exact h'
      have := ih (v / 10) this (by rw [Nat.pow_succ] at h; omega)
      simp; omega

/-- 20 digits suffice for 64 bits, 10 for 32 bits -/
theorem decimal_length_64 (v : Nat) (h : v < 2 ^ 64) : (decimal v).length ≤ 20 :=
  decimal_length_le v 20 (by omega) (by have : (2:Nat) ^ 64 < 10 ^ 20 := by decide
                                        omega)
theorem decimal_length_32 (v : Nat) (h : v < 2 ^ 32) : (decimal v).length ≤ 10 :=
  decimal_length_le v 10 (by omega) (by have : (2:Nat) ^ 32 < 10 ^ 10 := by decide
                                        omega)

theorem decimal_noNul (v : Nat) : (0 : UInt8) ∉ decimal v := by
  intro h
  have := ((decimal_is v).2.1 0 h).1
  exact absurd this (by decide)

end Verif.Crt
