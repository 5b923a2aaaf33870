import Verif.Sha.Model
import Verif.Sha.Fips
import Verif.Tac
/-!
# `ProcessMessageBlock` of the three files is the compression function of the standard
-/
namespace Verif.Sha
open Fips (bits bitsOf value)

/-! ## Values of bit strings -/

theorem value_foldl (bs : List Bool) : ∀ a, bs.foldl (fun a b => 2 * a + b.toNat) a = a * 2 ^ bs.length + value bs := by
  induction bs with
  | nil => intro a; simp [value]
  | cons b bs ih =>
    intro a
    simp only [List.foldl_cons, List.length_cons, value]
    rw [ih, ih (2 * 0 + b.toNat), Nat.pow_succ]
    grind

theorem value_append (x y : List Bool) : value (x ++ y) = value x * 2 ^ y.length + value y := by
  show List.foldl _ 0 (x ++ y) = _
  rw [List.foldl_append, value_foldl]; rfl

theorem bitsOf_length (b : UInt8) : (bitsOf b).length = 8 := by simp [bitsOf]

theorem bits_length (m : List UInt8) : (bits m).length = 8 * m.length := by
  induction m with
  | nil => rfl
  | cons b m ih => simp only [bits, List.flatMap_cons, List.length_append, bitsOf_length, List.length_cons] at *; omega

theorem bits_append (a b : List UInt8) : bits (a ++ b) = bits a ++ bits b := by simp [bits]

theorem bits_cons (b : UInt8) (m : List UInt8) : bits (b :: m) = bitsOf b ++ bits m := by simp [bits]

theorem value_bitsOf (b : UInt8) : value (bitsOf b) = b.toNat := by
  revert b
  refine u8_all ?_
  decide +kernel

theorem value_bits_cons (b : UInt8) (m : List UInt8) : value (bits (b :: m)) = b.toNat * 256 ^ m.length + value (bits m) := by
  rw [bits_cons, value_append, value_bitsOf, bits_length, Nat.pow_mul]

theorem value_bits_nil : value (bits []) = 0 := rfl

theorem value_bits_lt (m : List UInt8) : value (bits m) < 256 ^ m.length := by
  induction m with
  | nil => simp [value_bits_nil]
  | cons b m ih =>
    rw [value_bits_cons, List.length_cons, Nat.pow_succ]
    have := b.toNat_lt
    have h : b.toNat * 256 ^ m.length ≤ 255 * 256 ^ m.length := Nat.mul_le_mul_right _ (by omega)
    omega

/-! ## Loading words -/

/-- The word made of the bytes `l`, most significant first. -/
def be (w : Nat) (l : List UInt8) : BitVec w := BitVec.ofNat w (value (bits l))

theorem or_add {x z s : Nat} (h : x % 2 ^ s = 0) (hz : z < 2 ^ s) : x ||| z = x + z := by
  obtain ⟨k, hk⟩ := Nat.dvd_of_mod_eq_zero h
  rw [hk]
  exact (Nat.two_pow_add_eq_or_of_lt hz k).symm

theorem cast_shift {w : Nat} (b : UInt8) (s : Nat) (h : s + 8 ≤ w) : (cast w b <<< s).toNat = b.toNat * 2 ^ s := by
  have hb := b.toNat_lt
  have hp : 2 ^ w = 2 ^ (w - s) * 2 ^ s := by rw [← Nat.pow_add]; congr 1; omega
  have h8 : (2 : Nat) ^ 8 ≤ 2 ^ (w - s) := Nat.pow_le_pow_right (by omega) (by omega)
  have h8' : (2 : Nat) ^ 8 ≤ 2 ^ w := Nat.pow_le_pow_right (by omega) (by omega)
  have hb' : b.toNat < 2 ^ w := by omega
  have hpos := Nat.two_pow_pos s
  simp only [cast, BitVec.toNat_shiftLeft, BitVec.toNat_setWidth, Nat.shiftLeft_eq, UInt8.toNat_toBitVec]
  rw [Nat.mod_eq_of_lt hb', Nat.mod_eq_of_lt]
  rw [hp]
  exact Nat.mul_lt_mul_of_pos_right (by omega) hpos

theorem cast_toNat {w : Nat} (b : UInt8) (h : 8 ≤ w) : (cast w b).toNat = b.toNat := by
  have := cast_shift (w := w) b 0 (by omega)
  simpa using this

theorem take_four {l : List UInt8} {n : Nat} (h : n + 4 ≤ l.length) :
    (l.drop n).take 4 = [l[n], l[n + 1], l[n + 2], l[n + 3]] := by
  apply List.ext_getElem?
  intro i
  rcases i with _ | _ | _ | _ | i <;> simp [List.getElem?_take] <;> first | omega | (rw [List.getElem?_eq_getElem (by omega)])

theorem take_eight {l : List UInt8} {n : Nat} (h : n + 8 ≤ l.length) :
    (l.drop n).take 8 = [l[n], l[n + 1], l[n + 2], l[n + 3], l[n + 4], l[n + 5], l[n + 6], l[n + 7]] := by
  apply List.ext_getElem?
  intro i
  rcases i with _ | _ | _ | _ | _ | _ | _ | _ | i <;> simp [List.getElem?_take] <;> first | omega | (rw [List.getElem?_eq_getElem (by omega)])

theorem load32_spec {blk : List UInt8} {n : Nat} (h : n + 4 ≤ blk.length) : load32 blk n = some (be 32 ((blk.drop n).take 4)) := by
  rw [take_four h]
  have g0 : blk[n]? = some blk[n] := List.getElem?_eq_getElem (by omega)
  have g1 : blk[n + 1]? = some blk[n + 1] := List.getElem?_eq_getElem (by omega)
  have g2 : blk[n + 2]? = some blk[n + 2] := List.getElem?_eq_getElem (by omega)
  have g3 : blk[n + 3]? = some blk[n + 3] := List.getElem?_eq_getElem (by omega)
  simp only [load32, g0, g1, g2, g3, bind, Option.bind, pure, Option.some.injEq]
  apply BitVec.eq_of_toNat_eq
  generalize blk[n] = b0
  generalize blk[n + 1] = b1
  generalize blk[n + 2] = b2
  generalize blk[n + 3] = b3
  have h0 := b0.toNat_lt
  have h1 := b1.toNat_lt
  have h2 := b2.toNat_lt
  have h3 := b3.toNat_lt
  simp only [be, value_bits_cons, value_bits_nil, List.length_cons, List.length_nil, BitVec.toNat_or, BitVec.toNat_ofNat]
  rw [cast_shift b0 24 (by omega), cast_shift b1 16 (by omega), cast_shift b2 8 (by omega), cast_toNat b3 (by omega)]
  rw [or_add (x := b0.toNat * 2 ^ 24) (s := 24) (by omega) (by omega), or_add (x := b0.toNat * 2 ^ 24 + b1.toNat * 2 ^ 16) (s := 16) (by omega) (by omega),
    or_add (s := 8) (by omega) (by omega)]
  omega

theorem load64_spec {blk : List UInt8} {n : Nat} (h : n + 8 ≤ blk.length) : load64 blk n = some (be 64 ((blk.drop n).take 8)) := by
  rw [take_eight h]
  have g0 : blk[n]? = some blk[n] := List.getElem?_eq_getElem (by omega)
  have g1 : blk[n + 1]? = some blk[n + 1] := List.getElem?_eq_getElem (by omega)
  have g2 : blk[n + 2]? = some blk[n + 2] := List.getElem?_eq_getElem (by omega)
  have g3 : blk[n + 3]? = some blk[n + 3] := List.getElem?_eq_getElem (by omega)
  have g4 : blk[n + 4]? = some blk[n + 4] := List.getElem?_eq_getElem (by omega)
  have g5 : blk[n + 5]? = some blk[n + 5] := List.getElem?_eq_getElem (by omega)
  have g6 : blk[n + 6]? = some blk[n + 6] := List.getElem?_eq_getElem (by omega)
  have g7 : blk[n + 7]? = some blk[n + 7] := List.getElem?_eq_getElem (by omega)
  simp only [load64, g0, g1, g2, g3, g4, g5, g6, g7, bind, Option.bind, pure, Option.some.injEq]
  apply BitVec.eq_of_toNat_eq
  generalize blk[n] = b0
  generalize blk[n + 1] = b1
  generalize blk[n + 2] = b2
  generalize blk[n + 3] = b3
  generalize blk[n + 4] = b4
  generalize blk[n + 5] = b5
  generalize blk[n + 6] = b6
  generalize blk[n + 7] = b7
  have h0 := b0.toNat_lt
  have h1 := b1.toNat_lt
  have h2 := b2.toNat_lt
  have h3 := b3.toNat_lt
  have h4 := b4.toNat_lt
  have h5 := b5.toNat_lt
  have h6 := b6.toNat_lt
  have h7 := b7.toNat_lt
  simp only [be, value_bits_cons, value_bits_nil, List.length_cons, List.length_nil, BitVec.toNat_or, BitVec.toNat_ofNat]
  rw [cast_shift b0 56 (by omega), cast_shift b1 48 (by omega), cast_shift b2 40 (by omega), cast_shift b3 32 (by omega),
    cast_shift b4 24 (by omega), cast_shift b5 16 (by omega), cast_shift b6 8 (by omega), cast_toNat b7 (by omega)]
  rw [or_add (x := b0.toNat * 2 ^ 56) (s := 56) (by omega) (by omega),
    or_add (x := b0.toNat * 2 ^ 56 + b1.toNat * 2 ^ 48) (s := 48) (by omega) (by omega),
    or_add (x := b0.toNat * 2 ^ 56 + b1.toNat * 2 ^ 48 + b2.toNat * 2 ^ 40) (s := 40) (by omega) (by omega),
    or_add (x := b0.toNat * 2 ^ 56 + b1.toNat * 2 ^ 48 + b2.toNat * 2 ^ 40 + b3.toNat * 2 ^ 32) (s := 32) (by omega) (by omega),
    or_add (x := b0.toNat * 2 ^ 56 + b1.toNat * 2 ^ 48 + b2.toNat * 2 ^ 40 + b3.toNat * 2 ^ 32 + b4.toNat * 2 ^ 24) (s := 24) (by omega) (by omega),
    or_add (x := b0.toNat * 2 ^ 56 + b1.toNat * 2 ^ 48 + b2.toNat * 2 ^ 40 + b3.toNat * 2 ^ 32 + b4.toNat * 2 ^ 24 + b5.toNat * 2 ^ 16) (s := 16) (by omega) (by omega),
    or_add (x := b0.toNat * 2 ^ 56 + b1.toNat * 2 ^ 48 + b2.toNat * 2 ^ 40 + b3.toNat * 2 ^ 32 + b4.toNat * 2 ^ 24 + b5.toNat * 2 ^ 16 + b6.toNat * 2 ^ 8) (s := 8) (by omega) (by omega)]
  omega

/-- Word `t` of a block of bytes. -/
def bword (w : Nat) (blk : List UInt8) (t : Nat) : BitVec w := be w ((blk.drop (w / 8 * t)).take (w / 8))

/-! ## The message schedule -/

theorem fill_spec {w : Nat} {next : Nat → List (BitVec w) → Option (BitVec w)} {f : Nat → BitVec w} :
    ∀ (n k : Nat), (∀ t, k ≤ t → t < k + n → next t ((List.range t).map f) = some (f t)) →
      fill next n ((List.range k).map f) = some ((List.range (k + n)).map f)
  | 0, k, _ => by simp [fill]
  | n + 1, k, h => by
    have h0 := h k (by omega) (by omega)
    have e : (List.range k).map f ++ [f k] = (List.range (k + 1)).map f := by rw [List.range_succ]; simp
    simp only [fill, List.length_map, List.length_range, h0, bind, Option.bind, e]
    rw [fill_spec n (k + 1) (fun t h1 h2 => h t (by omega) (by omega))]
    congr 3; omega

theorem map_get {w : Nat} (f : Nat → BitVec w) {t i : Nat} (h : i < t) : ((List.range t).map f)[i]? = some (f i) := by
  simp [h]

theorem fill_ext {w : Nat} {next : Nat → List (BitVec w) → Option (BitVec w)} {f g : Nat → BitVec w} {n k : Nat}
    (h : ∀ t, t < k → f t = g t) : fill next n ((List.range k).map f) = fill next n ((List.range k).map g) := by
  congr 1
  apply List.map_congr_left
  intro t ht
  exact h t (List.mem_range.mp ht)

theorem rotl_eq (n : Nat) (h : n < 32) (x : BitVec 32) : SHA1_ROTL n x = x.rotateLeft n := by
  simp only [SHA1_ROTL, BitVec.rotateLeft, BitVec.rotateLeftAux, Nat.mod_eq_of_lt h]

theorem rotr32_eq (n : Nat) (h : n < 32) (x : BitVec 32) : SHA256_ROTR n x = x.rotateRight n := by
  simp only [SHA256_ROTR, BitVec.rotateRight, BitVec.rotateRightAux, Nat.mod_eq_of_lt h]

theorem rotr64_eq (n : Nat) (h : n < 64) (x : BitVec 64) : SHA512_ROTR n x = x.rotateRight n := by
  simp only [SHA512_ROTR, BitVec.rotateRight, BitVec.rotateRightAux, Nat.mod_eq_of_lt h]

theorem sched1 {blk : List UInt8} (h : blk.length = 64) :
    (fill (fun t _ => load32 blk (t * 4)) 16 []).bind (fill next1 64) = some ((List.range 80).map (Fips.W1 (bword 32 blk))) := by
  have h1 := fill_spec (next := fun t (_ : List (BitVec 32)) => load32 blk (t * 4)) (f := bword 32 blk) 16 0
    (by intro t _ ht; rw [load32_spec (by omega)]; simp [bword, Nat.mul_comm])
  rw [List.range_zero, List.map_nil, Nat.zero_add] at h1
  rw [h1, Option.bind_some, fill_ext (g := Fips.W1 (bword 32 blk)) (fun t ht => by rw [Fips.W1, if_pos ht])]
  have h2 := fill_spec (next := next1) (f := Fips.W1 (bword 32 blk)) 64 16 ?_
  · have e : 16 + 64 = 80 := rfl
    rw [e] at h2
    exact h2
  intro t h1 h2
  rw [Fips.W1, if_neg (by omega)]
  simp only [next1, map_get _ (show t - 3 < t by omega), map_get _ (show t - 8 < t by omega), map_get _ (show t - 14 < t by omega),
    map_get _ (show t - 16 < t by omega), bind, Option.bind, pure, rotl_eq 1 (by omega)]

theorem sched256 {blk : List UInt8} (h : blk.length = 64) :
    (fill (fun t _ => load32 blk (t * 4)) 16 []).bind (fill next256 48) = some ((List.range 64).map (Fips.W256 (bword 32 blk))) := by
  have h1 := fill_spec (next := fun t (_ : List (BitVec 32)) => load32 blk (t * 4)) (f := bword 32 blk) 16 0
    (by intro t _ ht; rw [load32_spec (by omega)]; simp [bword, Nat.mul_comm])
  rw [List.range_zero, List.map_nil, Nat.zero_add] at h1
  rw [h1, Option.bind_some, fill_ext (g := Fips.W256 (bword 32 blk)) (fun t ht => by rw [Fips.W256, if_pos ht])]
  have h2 := fill_spec (next := next256) (f := Fips.W256 (bword 32 blk)) 48 16 ?_
  · have e : 16 + 48 = 64 := rfl
    rw [e] at h2
    exact h2
  intro t h1 h2
  rw [Fips.W256, if_neg (by omega)]
  simp only [next256, map_get _ (show t - 2 < t by omega), map_get _ (show t - 7 < t by omega), map_get _ (show t - 15 < t by omega),
    map_get _ (show t - 16 < t by omega), bind, Option.bind, pure, SHA256_sigma0, SHA256_sigma1, SHA256_SHR, Fips.sigma0_256, Fips.sigma1_256,
    rotr32_eq 7 (by omega), rotr32_eq 18 (by omega), rotr32_eq 17 (by omega), rotr32_eq 19 (by omega)]

theorem sched512 {blk : List UInt8} (h : blk.length = 128) :
    (fill (fun t _ => load64 blk (t * 8)) 16 []).bind (fill next512 64) = some ((List.range 80).map (Fips.W512 (bword 64 blk))) := by
  have h1 := fill_spec (next := fun t (_ : List (BitVec 64)) => load64 blk (t * 8)) (f := bword 64 blk) 16 0
    (by intro t _ ht; rw [load64_spec (by omega)]; simp [bword, Nat.mul_comm])
  rw [List.range_zero, List.map_nil, Nat.zero_add] at h1
  rw [h1, Option.bind_some, fill_ext (g := Fips.W512 (bword 64 blk)) (fun t ht => by rw [Fips.W512, if_pos ht])]
  have h2 := fill_spec (next := next512) (f := Fips.W512 (bword 64 blk)) 64 16 ?_
  · have e : 16 + 64 = 80 := rfl
    rw [e] at h2
    exact h2
  intro t h1 h2
  rw [Fips.W512, if_neg (by omega)]
  simp only [next512, map_get _ (show t - 2 < t by omega), map_get _ (show t - 7 < t by omega), map_get _ (show t - 15 < t by omega),
    map_get _ (show t - 16 < t by omega), bind, Option.bind, pure, SHA512_sigma0, SHA512_sigma1, SHA512_SHR, Fips.sigma0_512, Fips.sigma1_512,
    rotr64_eq 1 (by omega), rotr64_eq 8 (by omega), rotr64_eq 19 (by omega), rotr64_eq 61 (by omega)]

/-! ## The constants -/

theorem K256_fips : K256 = Fips.K256 := by decide +kernel
theorem K512_fips : K512 = Fips.K512 := by decide +kernel
theorem SHA1_H0_fips : SHA1_H0 = Fips.SHA1.iv := rfl
theorem SHA224_H0_fips : SHA224_H0 = Fips.SHA224.iv := by
  show SHA224_H0 = (((Fips.primes.drop 8).take 8).map fun p => (Fips.frac 2 64 p).setWidth 32)
  decide +kernel
theorem SHA256_H0_fips : SHA256_H0 = Fips.SHA256.iv := by
  show SHA256_H0 = (Fips.primes.take 8).map (Fips.frac 2 32)
  decide +kernel
theorem SHA384_H0_fips : SHA384_H0 = Fips.SHA384.iv := by
  show SHA384_H0 = ((Fips.primes.drop 8).take 8).map (Fips.frac 2 64)
  decide +kernel
theorem SHA512_H0_fips : SHA512_H0 = Fips.SHA512.iv := by
  show SHA512_H0 = (Fips.primes.take 8).map (Fips.frac 2 64)
  decide +kernel

/-! ## The rounds -/

def Regs.vars {w : Nat} (r : Regs w) : Fips.Vars w := (r.A, r.B, r.C, r.D, r.E, r.F, r.G, r.H)
def Regs1.vars (r : Regs1) : Fips.Vars1 := (r.A, r.B, r.C, r.D, r.E)

theorem rounds256_spec (f : Nat → BitVec 32) (v : Fips.Vars 32) : ∀ (n t : Nat) (r : Regs 32), t + n = 64 → r.vars = Fips.rounds256 f v t →
    ∃ r', rounds256 ((List.range 64).map f) n t r = some r' ∧ r'.vars = Fips.rounds256 f v 64
  | 0, t, r, h, hr => by
    have : t = 64 := by omega
    subst this
    exact ⟨r, rfl, hr⟩
  | n + 1, t, r, h, hr => by
    have hk : K256[t]? = some (Fips.K256.getD t 0) := by
      rw [K256_fips, List.getD_eq_getElem?_getD]
      have : t < Fips.K256.length := by rw [← K256_fips]; show t < 64; omega
      rw [List.getElem?_eq_getElem this]; rfl
    simp only [rounds256, hk, map_get f (show t < 64 by omega), bind, Option.bind]
    refine rounds256_spec f v n (t + 1) _ (by omega) ?_
    rw [Fips.rounds256, ← hr]
    simp only [Regs.vars, Fips.round256, SHA256_SIGMA0, SHA256_SIGMA1, Fips.bigSigma0_256, Fips.bigSigma1_256, SHA_Ch, SHA_Maj, Fips.Ch,
      Fips.Maj, rotr32_eq 2 (by omega), rotr32_eq 13 (by omega), rotr32_eq 22 (by omega), rotr32_eq 6 (by omega), rotr32_eq 11 (by omega),
      rotr32_eq 25 (by omega)]

theorem rounds512_spec (f : Nat → BitVec 64) (v : Fips.Vars 64) : ∀ (n t : Nat) (r : Regs 64), t + n = 80 → r.vars = Fips.rounds512 f v t →
    ∃ r', rounds512 ((List.range 80).map f) n t r = some r' ∧ r'.vars = Fips.rounds512 f v 80
  | 0, t, r, h, hr => by
    have : t = 80 := by omega
    subst this
    exact ⟨r, rfl, hr⟩
  | n + 1, t, r, h, hr => by
    have hk : K512[t]? = some (Fips.K512.getD t 0) := by
      rw [K512_fips, List.getD_eq_getElem?_getD]
      have : t < Fips.K512.length := by rw [← K512_fips]; show t < 80; omega
      rw [List.getElem?_eq_getElem this]; rfl
    simp only [rounds512, hk, map_get f (show t < 80 by omega), bind, Option.bind]
    refine rounds512_spec f v n (t + 1) _ (by omega) ?_
    rw [Fips.rounds512, ← hr]
    simp only [Regs.vars, Fips.round512, SHA512_SIGMA0, SHA512_SIGMA1, Fips.bigSigma0_512, Fips.bigSigma1_512, SHA_Ch, SHA_Maj, Fips.Ch,
      Fips.Maj, rotr64_eq 28 (by omega), rotr64_eq 34 (by omega), rotr64_eq 39 (by omega), rotr64_eq 14 (by omega), rotr64_eq 18 (by omega),
      rotr64_eq 41 (by omega)]

theorem rounds1_spec (W : Nat → BitVec 32) (v : Fips.Vars1) (g : BitVec 32 → BitVec 32 → BitVec 32 → BitVec 32) (k e : Nat) (he : e ≤ 80) :
    ∀ (n t : Nat) (r : Regs1), t + n = e →
      (∀ i, t ≤ i → i < e → Fips.f1 i = g ∧ K1[k]? = some (Fips.K1 i)) → r.vars = Fips.rounds1 W v t →
      ∃ r', rounds1 g k ((List.range 80).map W) n t r = some r' ∧ r'.vars = Fips.rounds1 W v e
  | 0, t, r, h, _, hr => by
    have : t = e := by omega
    subst this
    exact ⟨r, rfl, hr⟩
  | n + 1, t, r, h, hf, hr => by
    obtain ⟨hf1, hk⟩ := hf t (by omega) (by omega)
    simp only [rounds1, hk, map_get W (show t < 80 by omega), bind, Option.bind]
    refine rounds1_spec W v g k e he n (t + 1) _ (by omega) (fun i h1 h2 => hf i (by omega) h2) ?_
    rw [Fips.rounds1, ← hr]
    simp only [Regs1.vars, Fips.round1, hf1, rotl_eq 5 (by omega), rotl_eq 30 (by omega), Prod.mk.injEq, and_true]
    ac_rfl

/-! ## `ProcessMessageBlock` -/

theorem compress256_spec {H : List (BitVec 32)} {blk : List UInt8} (hH : H.length = 8) (hb : blk.length = 64) :
    compress256 H blk = some (Fips.compress256 H (bword 32 blk)) := by
  match H, hH with
  | [h0, h1, h2, h3, h4, h5, h6, h7], _ =>
    have hs := sched256 hb
    obtain ⟨r, hr, hv⟩ := rounds256_spec (Fips.W256 (bword 32 blk)) (h0, h1, h2, h3, h4, h5, h6, h7) 64 0
      { A := h0, B := h1, C := h2, D := h3, E := h4, F := h5, G := h6, H := h7 } rfl rfl
    simp only [compress256, bind]
    rw [← Option.bind_assoc, hs]
    simp only [Option.bind_some, List.getElem?_cons_zero, List.getElem?_cons_succ, hr, pure, Fips.compress256, ← hv, Regs.vars]
    simp only [Option.some.injEq, List.cons.injEq, and_true]
    refine ⟨?_, ?_, ?_, ?_, ?_, ?_, ?_, ?_⟩ <;> exact BitVec.add_comm _ _

theorem compress512_spec {H : List (BitVec 64)} {blk : List UInt8} (hH : H.length = 8) (hb : blk.length = 128) :
    compress512 H blk = some (Fips.compress512 H (bword 64 blk)) := by
  match H, hH with
  | [h0, h1, h2, h3, h4, h5, h6, h7], _ =>
    have hs := sched512 hb
    obtain ⟨r, hr, hv⟩ := rounds512_spec (Fips.W512 (bword 64 blk)) (h0, h1, h2, h3, h4, h5, h6, h7) 80 0
      { A := h0, B := h1, C := h2, D := h3, E := h4, F := h5, G := h6, H := h7 } rfl rfl
    simp only [compress512, bind]
    rw [← Option.bind_assoc, hs]
    simp only [Option.bind_some, List.getElem?_cons_zero, List.getElem?_cons_succ, hr, pure, Fips.compress512, ← hv, Regs.vars]
    simp only [Option.some.injEq, List.cons.injEq, and_true]
    refine ⟨?_, ?_, ?_, ?_, ?_, ?_, ?_, ?_⟩ <;> exact BitVec.add_comm _ _

/-- The last step of the standard's computation. -/
def sum1 (h0 h1 h2 h3 h4 : BitVec 32) : Fips.Vars1 → List (BitVec 32)
  | (a, b, c, d, e) => [a + h0, b + h1, c + h2, d + h3, e + h4]

theorem compress1_cons (h0 h1 h2 h3 h4 : BitVec 32) (M : Nat → BitVec 32) :
    Fips.compress1 [h0, h1, h2, h3, h4] M = sum1 h0 h1 h2 h3 h4 (Fips.rounds1 (Fips.W1 M) (h0, h1, h2, h3, h4) 80) := by
  unfold Fips.compress1
  generalize hx : Fips.rounds1 (Fips.W1 M) (h0, h1, h2, h3, h4) 80 = x
  simp only [hx]
  rfl

theorem compress1_spec {H : List (BitVec 32)} {blk : List UInt8} (hH : H.length = 5) (hb : blk.length = 64) :
    compress1 H blk = some (Fips.compress1 H (bword 32 blk)) := by
  match H, hH with
  | [h0, h1, h2, h3, h4], _ =>
    have hs := sched1 hb
    obtain ⟨r1, hr1, hv1⟩ := rounds1_spec (Fips.W1 (bword 32 blk)) (h0, h1, h2, h3, h4) SHA_Ch 0 20 (by omega) 20 0
      { A := h0, B := h1, C := h2, D := h3, E := h4 } rfl
      (by intro i _ h; exact ⟨by funext x y z; simp only [Fips.f1, if_pos h]; rfl, by simp only [Fips.K1, if_pos h]; rfl⟩) rfl
    obtain ⟨r2, hr2, hv2⟩ := rounds1_spec (Fips.W1 (bword 32 blk)) (h0, h1, h2, h3, h4) SHA_Parity 1 40 (by omega) 20 20 r1 rfl
      (by intro i h1 h2; have n1 : ¬ i < 20 := by omega
          exact ⟨by funext x y z; simp only [Fips.f1, if_neg n1, if_pos h2]; rfl, by simp only [Fips.K1, if_neg n1, if_pos h2]; rfl⟩) hv1
    obtain ⟨r3, hr3, hv3⟩ := rounds1_spec (Fips.W1 (bword 32 blk)) (h0, h1, h2, h3, h4) SHA_Maj 2 60 (by omega) 20 40 r2 rfl
      (by intro i h1 h2; have n1 : ¬ i < 20 := by omega
          have n2 : ¬ i < 40 := by omega
          exact ⟨by funext x y z; simp only [Fips.f1, if_neg n1, if_neg n2, if_pos h2]; rfl,
            by simp only [Fips.K1, if_neg n1, if_neg n2, if_pos h2]; rfl⟩) hv2
    obtain ⟨r4, hr4, hv4⟩ := rounds1_spec (Fips.W1 (bword 32 blk)) (h0, h1, h2, h3, h4) SHA_Parity 3 80 (by omega) 20 60 r3 rfl
      (by intro i h1 h2; have n1 : ¬ i < 20 := by omega
          have n2 : ¬ i < 40 := by omega
          have n3 : ¬ i < 60 := by omega
          exact ⟨by funext x y z; simp only [Fips.f1, if_neg n1, if_neg n2, if_neg n3]; rfl,
            by simp only [Fips.K1, if_neg n1, if_neg n2, if_neg n3]; rfl⟩) hv3
    simp only [compress1, bind]
    rw [← Option.bind_assoc, hs]
    simp only [Option.bind_some, List.getElem?_cons_zero, List.getElem?_cons_succ]
    rw [hr1, Option.bind_some, hr2, Option.bind_some, hr3, Option.bind_some, hr4, Option.bind_some]
    rw [compress1_cons, ← hv4]
    simp only [pure, Regs1.vars, sum1]
    simp only [Option.some.injEq, List.cons.injEq, and_true]
    refine ⟨?_, ?_, ?_, ?_, ?_⟩ <;> exact BitVec.add_comm _ _

end Verif.Sha
