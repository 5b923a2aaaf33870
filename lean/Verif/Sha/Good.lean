import Verif.Sha.Props
/-!
# The five hash functions are instances of the engine
-/
namespace Verif.Sha

theorem W1_ext {M M' : Nat → BitVec 32} (h : ∀ t, t < 16 → M t = M' t) : ∀ t, Fips.W1 M t = Fips.W1 M' t := by
  intro t
  induction t using Nat.strongRecOn with
  | _ t ih =>
    have e := Fips.W1.eq_def M t
    have e' := Fips.W1.eq_def M' t
    rw [e, e']
    by_cases ht : t < 16
    · rw [if_pos ht, if_pos ht, h t ht]
    · rw [if_neg ht, if_neg ht, ih (t - 3) (by omega), ih (t - 8) (by omega), ih (t - 14) (by omega), ih (t - 16) (by omega)]

theorem W256_ext {M M' : Nat → BitVec 32} (h : ∀ t, t < 16 → M t = M' t) : ∀ t, Fips.W256 M t = Fips.W256 M' t := by
  intro t
  induction t using Nat.strongRecOn with
  | _ t ih =>
    have e := Fips.W256.eq_def M t
    have e' := Fips.W256.eq_def M' t
    rw [e, e']
    by_cases ht : t < 16
    · rw [if_pos ht, if_pos ht, h t ht]
    · rw [if_neg ht, if_neg ht, ih (t - 2) (by omega), ih (t - 7) (by omega), ih (t - 15) (by omega), ih (t - 16) (by omega)]

theorem W512_ext {M M' : Nat → BitVec 64} (h : ∀ t, t < 16 → M t = M' t) : ∀ t, Fips.W512 M t = Fips.W512 M' t := by
  intro t
  induction t using Nat.strongRecOn with
  | _ t ih =>
    have e := Fips.W512.eq_def M t
    have e' := Fips.W512.eq_def M' t
    rw [e, e']
    by_cases ht : t < 16
    · rw [if_pos ht, if_pos ht, h t ht]
    · rw [if_neg ht, if_neg ht, ih (t - 2) (by omega), ih (t - 7) (by omega), ih (t - 15) (by omega), ih (t - 16) (by omega)]

theorem compress1_ext (H : List (BitVec 32)) (M M' : Nat → BitVec 32) (h : ∀ t, t < 16 → M t = M' t) :
    Fips.compress1 H M = Fips.compress1 H M' := by
  unfold Fips.compress1
  rw [funext (W1_ext h)]

theorem compress256_ext (H : List (BitVec 32)) (M M' : Nat → BitVec 32) (h : ∀ t, t < 16 → M t = M' t) :
    Fips.compress256 H M = Fips.compress256 H M' := by
  unfold Fips.compress256
  rw [funext (W256_ext h)]

theorem compress512_ext (H : List (BitVec 64)) (M M' : Nat → BitVec 64) (h : ∀ t, t < 16 → M t = M' t) :
    Fips.compress512 H M = Fips.compress512 H M' := by
  unfold Fips.compress512
  rw [funext (W512_ext h)]

theorem compress1_length (H : List (BitVec 32)) (M : Nat → BitVec 32) (h : H.length = 5) : (Fips.compress1 H M).length = 5 := by
  match H, h with
  | [h0, h1, h2, h3, h4], _ =>
    unfold Fips.compress1
    generalize Fips.rounds1 (Fips.W1 M) (h0, h1, h2, h3, h4) 80 = v
    obtain ⟨a, b, c, d, e⟩ := v
    rfl

theorem compress256_length (H : List (BitVec 32)) (M : Nat → BitVec 32) (h : H.length = 8) : (Fips.compress256 H M).length = 8 := by
  match H, h with
  | [h0, h1, h2, h3, h4, h5, h6, h7], _ =>
    unfold Fips.compress256
    generalize Fips.rounds256 (Fips.W256 M) (h0, h1, h2, h3, h4, h5, h6, h7) 64 = v
    obtain ⟨a, b, c, d, e, f, g, k⟩ := v
    rfl

theorem compress512_length (H : List (BitVec 64)) (M : Nat → BitVec 64) (h : H.length = 8) : (Fips.compress512 H M).length = 8 := by
  match H, h with
  | [h0, h1, h2, h3, h4, h5, h6, h7], _ =>
    unfold Fips.compress512
    generalize Fips.rounds512 (Fips.W512 M) (h0, h1, h2, h3, h4, h5, h6, h7) 80 = v
    obtain ⟨a, b, c, d, e, f, g, k⟩ := v
    rfl

attribute [local irreducible] compress1 compress256 compress512 Fips.compress1 Fips.compress256 Fips.compress512 Fips.primes Fips.frac

theorem good1 : Good Fips.SHA1 sha1 5 where
  hw := Or.inl rfl
  size := rfl
  iv := rfl
  out := by decide
  spec := fun _ _ hH hb => compress1_spec hH hb
  len := compress1_length
  ext := compress1_ext

theorem good224 : Good Fips.SHA224 sha256 8 where
  hw := Or.inl rfl
  size := rfl
  iv := by rw [← SHA224_H0_fips]; rfl
  out := by decide
  spec := fun _ _ hH hb => compress256_spec hH hb
  len := compress256_length
  ext := compress256_ext

theorem good256 : Good Fips.SHA256 sha256 8 where
  hw := Or.inl rfl
  size := rfl
  iv := by rw [← SHA256_H0_fips]; rfl
  out := by decide
  spec := fun _ _ hH hb => compress256_spec hH hb
  len := compress256_length
  ext := compress256_ext

theorem good384 : Good Fips.SHA384 sha512 8 where
  hw := Or.inr rfl
  size := rfl
  iv := by rw [← SHA384_H0_fips]; rfl
  out := by decide
  spec := fun _ _ hH hb => compress512_spec hH hb
  len := compress512_length
  ext := compress512_ext

theorem good512 : Good Fips.SHA512 sha512 8 where
  hw := Or.inr rfl
  size := rfl
  iv := by rw [← SHA512_H0_fips]; rfl
  out := by decide
  spec := fun _ _ hH hb => compress512_spec hH hb
  len := compress512_length
  ext := compress512_ext

end Verif.Sha
