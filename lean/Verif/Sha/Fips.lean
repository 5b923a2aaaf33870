/-!
# Specification: the secure hash standard, FIPS PUB 180-2 (with change notice 1)

Written from the standard, on bit strings, independently of the code.  `Hash.digest` maps a bit string to the message digest.
-/
namespace Verif.Sha.Fips

/-! ## Bit strings (§3.1) -/

/-- The bits of a byte, most significant first. -/
def bitsOf (b : UInt8) : List Bool := (List.range 8).map fun i => b.toBitVec.getMsbD i
/-- The bit string of a byte string. -/
def bits (m : List UInt8) : List Bool := m.flatMap bitsOf
/-- The number a bit string represents, most significant bit first. -/
def value (bs : List Bool) : Nat := bs.foldl (fun a b => 2 * a + b.toNat) 0
/-- The `k`-bit representation of a number, most significant bit first. -/
def binary (k n : Nat) : List Bool := (List.range k).map fun i => n.testBit (k - 1 - i)
/-- The bytes of a word, most significant first. -/
def wordBytes {w : Nat} (x : BitVec w) : List UInt8 := (List.range (w / 8)).map fun i => UInt8.ofNat (x.toNat / 2 ^ (w - 8 * (i + 1)))

/-! ## Preprocessing (§5): blocks have 16 words, the length field has two words -/

/-- The number `k` of zero bits: the smallest nonnegative solution of `l + 1 + k ≡ 14 w (mod 16 w)`, i.e. 448 mod 512 for
`w = 32` and 896 mod 1024 for `w = 64`. -/
def zeros (w l : Nat) : Nat := ((14 * w : Int) - (l + 1)).emod (16 * w) |>.toNat

/-- §5.1: a one bit, `k` zero bits, the length of the message in two words. -/
def pad (w : Nat) (m : List Bool) : List Bool :=
  m ++ [true] ++ List.replicate (zeros w m.length) false ++ binary (2 * w) m.length

/-- §5.2: word `t` of block `i` -/
def word (w : Nat) (p : List Bool) (i t : Nat) : BitVec w := BitVec.ofNat w (value ((p.drop (16 * w * i + w * t)).take w))

/-- A hash function of the standard. -/
structure Hash where
  /-- word size in bits -/
  w : Nat
  /-- §5.3: initial hash value -/
  iv : List (BitVec w)
  /-- §6: the hash value after one block -/
  compress : List (BitVec w) → (Nat → BitVec w) → List (BitVec w)
  /-- size of the digest in bytes -/
  size : Nat

/-- §6: the hash value after the first `n` blocks of the padded message `p` -/
def Hash.after (h : Hash) (p : List Bool) : Nat → List (BitVec h.w)
  | 0 => h.iv
  | n + 1 => h.compress (h.after p n) (word h.w p n)

/-- The message digest of a bit string. -/
def Hash.digest (h : Hash) (m : List Bool) : List UInt8 :=
  let p := pad h.w m
  ((h.after p (p.length / (16 * h.w))).flatMap wordBytes).take h.size

/-- The message digest of a byte string. -/
def Hash.ofBytes (h : Hash) (m : List UInt8) : List UInt8 := h.digest (bits m)

/-! ## Functions (§4.1) -/

def Ch {w : Nat} (x y z : BitVec w) : BitVec w := (x &&& y) ^^^ (~~~x &&& z)
def Maj {w : Nat} (x y z : BitVec w) : BitVec w := (x &&& y) ^^^ (x &&& z) ^^^ (y &&& z)
def Parity {w : Nat} (x y z : BitVec w) : BitVec w := x ^^^ y ^^^ z

def bigSigma0_256 (x : BitVec 32) : BitVec 32 := x.rotateRight 2 ^^^ x.rotateRight 13 ^^^ x.rotateRight 22
def bigSigma1_256 (x : BitVec 32) : BitVec 32 := x.rotateRight 6 ^^^ x.rotateRight 11 ^^^ x.rotateRight 25
def sigma0_256 (x : BitVec 32) : BitVec 32 := x.rotateRight 7 ^^^ x.rotateRight 18 ^^^ x >>> 3
def sigma1_256 (x : BitVec 32) : BitVec 32 := x.rotateRight 17 ^^^ x.rotateRight 19 ^^^ x >>> 10
def bigSigma0_512 (x : BitVec 64) : BitVec 64 := x.rotateRight 28 ^^^ x.rotateRight 34 ^^^ x.rotateRight 39
def bigSigma1_512 (x : BitVec 64) : BitVec 64 := x.rotateRight 14 ^^^ x.rotateRight 18 ^^^ x.rotateRight 41
def sigma0_512 (x : BitVec 64) : BitVec 64 := x.rotateRight 1 ^^^ x.rotateRight 8 ^^^ x >>> 7
def sigma1_512 (x : BitVec 64) : BitVec 64 := x.rotateRight 19 ^^^ x.rotateRight 61 ^^^ x >>> 6

/-! ## Constants (§4.2) -/

/-- The first eighty prime numbers. -/
def primes : List Nat := (List.range 410).filter fun n => decide (2 ≤ n) && (List.range n).all fun d => decide (d < 2) || n % d != 0

/-- Binary search of the `k`-th root, `b` bits left to determine. -/
def rootFrom (k n : Nat) : Nat → Nat → Nat
  | 0, r => r
  | b + 1, r => if (r + 2 ^ b) ^ k ≤ n then rootFrom k n b (r + 2 ^ b) else rootFrom k n b r

/-- The integer part of the `k`-th root of `n < 2 ^ (80 k)` -/
def root (k n : Nat) : Nat := rootFrom k n 80 0

/-- The first `w` bits of the fractional part of the `k`-th root of `p` -/
def frac (k w p : Nat) : BitVec w := BitVec.ofNat w (root k (p * 2 ^ (k * w)))

/-- §4.2.2: the first thirty-two bits of the fractional parts of the cube roots of the first sixty-four primes -/
def K256 : List (BitVec 32) := (primes.take 64).map (frac 3 32)
/-- §4.2.3: the first sixty-four bits of the fractional parts of the cube roots of the first eighty primes -/
def K512 : List (BitVec 64) := primes.map (frac 3 64)
/-- §4.2.1 -/
def K1 (t : Nat) : BitVec 32 := if t < 20 then 0x5a827999 else if t < 40 then 0x6ed9eba1 else if t < 60 then 0x8f1bbcdc else 0xca62c1d6

/-! ## SHA-1 (§6.1) -/

/-- §4.1.1 -/
def f1 (t : Nat) (x y z : BitVec 32) : BitVec 32 :=
  if t < 20 then Ch x y z else if t < 40 then Parity x y z else if t < 60 then Maj x y z else Parity x y z

/-- Message schedule of a block with words `M`. -/
def W1 (M : Nat → BitVec 32) (t : Nat) : BitVec 32 :=
  if t < 16 then M t
  else (W1 M (t - 3) ^^^ W1 M (t - 8) ^^^ W1 M (t - 14) ^^^ W1 M (t - 16)).rotateLeft 1
termination_by t
decreasing_by all_goals omega

/-- The working variables `a`..`e`. -/
abbrev Vars1 := BitVec 32 × BitVec 32 × BitVec 32 × BitVec 32 × BitVec 32

def round1 (W : Nat → BitVec 32) (t : Nat) : Vars1 → Vars1
  | (a, b, c, d, e) => (a.rotateLeft 5 + f1 t b c d + e + K1 t + W t, a, b.rotateLeft 30, c, d)

/-- The working variables after the rounds `0 .. n - 1`. -/
def rounds1 (W : Nat → BitVec 32) (v : Vars1) : Nat → Vars1
  | 0 => v
  | n + 1 => round1 W n (rounds1 W v n)

def compress1 (H : List (BitVec 32)) (M : Nat → BitVec 32) : List (BitVec 32) :=
  match H with
  | [h0, h1, h2, h3, h4] =>
    match rounds1 (W1 M) (h0, h1, h2, h3, h4) 80 with
    | (a, b, c, d, e) => [a + h0, b + h1, c + h2, d + h3, e + h4]
  | _ => []

def SHA1 : Hash := { w := 32, iv := [0x67452301, 0xefcdab89, 0x98badcfe, 0x10325476, 0xc3d2e1f0], compress := compress1, size := 20 }

/-! ## SHA-256 and SHA-224 (§6.2, change notice 1) -/

def W256 (M : Nat → BitVec 32) (t : Nat) : BitVec 32 :=
  if t < 16 then M t
  else sigma1_256 (W256 M (t - 2)) + W256 M (t - 7) + sigma0_256 (W256 M (t - 15)) + W256 M (t - 16)
termination_by t
decreasing_by all_goals omega

/-- The working variables `a`..`h`. -/
abbrev Vars (w : Nat) := BitVec w × BitVec w × BitVec w × BitVec w × BitVec w × BitVec w × BitVec w × BitVec w

def round256 (W : Nat → BitVec 32) (t : Nat) : Vars 32 → Vars 32
  | (a, b, c, d, e, f, g, h) =>
    let T1 := h + bigSigma1_256 e + Ch e f g + K256.getD t 0 + W t
    let T2 := bigSigma0_256 a + Maj a b c
    (T1 + T2, a, b, c, d + T1, e, f, g)

def rounds256 (W : Nat → BitVec 32) (v : Vars 32) : Nat → Vars 32
  | 0 => v
  | n + 1 => round256 W n (rounds256 W v n)

def compress256 (H : List (BitVec 32)) (M : Nat → BitVec 32) : List (BitVec 32) :=
  match H with
  | [h0, h1, h2, h3, h4, h5, h6, h7] =>
    match rounds256 (W256 M) (h0, h1, h2, h3, h4, h5, h6, h7) 64 with
    | (a, b, c, d, e, f, g, h) => [a + h0, b + h1, c + h2, d + h3, e + h4, f + h5, g + h6, h + h7]
  | _ => []

/-- §5.3.2: the first thirty-two bits of the fractional parts of the square roots of the first eight primes -/
def SHA256 : Hash := { w := 32, iv := (primes.take 8).map (frac 2 32), compress := compress256, size := 32 }

/-- Change notice 1: the second thirty-two bits of the fractional parts of the square roots of the ninth through sixteenth primes;
the digest is the left-most 224 bits -/
def SHA224 : Hash :=
  { w := 32, iv := ((primes.drop 8).take 8).map fun p => (frac 2 64 p).setWidth 32, compress := compress256, size := 28 }

/-! ## SHA-512 and SHA-384 (§6.3, §6.4) -/

def W512 (M : Nat → BitVec 64) (t : Nat) : BitVec 64 :=
  if t < 16 then M t
  else sigma1_512 (W512 M (t - 2)) + W512 M (t - 7) + sigma0_512 (W512 M (t - 15)) + W512 M (t - 16)
termination_by t
decreasing_by all_goals omega

def round512 (W : Nat → BitVec 64) (t : Nat) : Vars 64 → Vars 64
  | (a, b, c, d, e, f, g, h) =>
    let T1 := h + bigSigma1_512 e + Ch e f g + K512.getD t 0 + W t
    let T2 := bigSigma0_512 a + Maj a b c
    (T1 + T2, a, b, c, d + T1, e, f, g)

def rounds512 (W : Nat → BitVec 64) (v : Vars 64) : Nat → Vars 64
  | 0 => v
  | n + 1 => round512 W n (rounds512 W v n)

def compress512 (H : List (BitVec 64)) (M : Nat → BitVec 64) : List (BitVec 64) :=
  match H with
  | [h0, h1, h2, h3, h4, h5, h6, h7] =>
    match rounds512 (W512 M) (h0, h1, h2, h3, h4, h5, h6, h7) 80 with
    | (a, b, c, d, e, f, g, h) => [a + h0, b + h1, c + h2, d + h3, e + h4, f + h5, g + h6, h + h7]
  | _ => []

/-- §5.3.4: the first sixty-four bits of the fractional parts of the square roots of the first eight primes -/
def SHA512 : Hash := { w := 64, iv := (primes.take 8).map (frac 2 64), compress := compress512, size := 64 }

/-- §5.3.3: the ninth through sixteenth primes; the digest is the left-most 384 bits -/
def SHA384 : Hash := { w := 64, iv := ((primes.drop 8).take 8).map (frac 2 64), compress := compress512, size := 48 }

/-! ## The definitions say what the standard says -/

theorem primes_length : primes.length = 80 := by decide +kernel

theorem rootFrom_spec (k n : Nat) : ∀ (b r : Nat), r ^ k ≤ n → n < (r + 2 ^ b) ^ k →
    rootFrom k n b r ^ k ≤ n ∧ n < (rootFrom k n b r + 1) ^ k
  | 0, r, h1, h2 => ⟨h1, by rw [rootFrom]; simpa using h2⟩
  | b + 1, r, h1, h2 => by
    unfold rootFrom
    by_cases h : (r + 2 ^ b) ^ k ≤ n
    · rw [if_pos h]
      refine rootFrom_spec k n b _ h ?_
      have : r + 2 ^ b + 2 ^ b = r + 2 ^ (b + 1) := by rw [Nat.pow_succ]; omega
      rw [this]; exact h2
    · rw [if_neg h]
      exact rootFrom_spec k n b r h1 (by omega)

/-- `root` is the integer part of the root. -/
theorem root_spec {k n : Nat} (hk : 0 < k) (h : n < 2 ^ (80 * k)) : root k n ^ k ≤ n ∧ n < (root k n + 1) ^ k := by
  refine rootFrom_spec k n 80 0 ?_ ?_
  · rw [Nat.zero_pow hk]; omega
  · rw [Nat.zero_add, ← Nat.pow_mul]; exact h

/-- The defining property of the number of zero bits. -/
theorem zeros_spec {w : Nat} (hw : 0 < w) (l : Nat) :
    (l + 1 + zeros w l) % (16 * w) = 14 * w ∧ zeros w l < 16 * w := by
  unfold zeros
  have h1 := Int.emod_nonneg ((14 * w : Int) - (l + 1)) (b := 16 * w) (by omega)
  have h2 := Int.emod_lt_of_pos ((14 * w : Int) - (l + 1)) (b := 16 * w) (by omega)
  have h3 := Int.emod_add_mul_ediv ((14 * w : Int) - (l + 1)) (16 * w)
  have he : ((14 * w : Int) - (l + 1)).emod (16 * w) = ((14 * w : Int) - (l + 1)) % (16 * w) := rfl
  rw [he]
  generalize ((14 * w : Int) - (l + 1)) % (16 * w) = z at *
  generalize ((14 * w : Int) - (l + 1)) / (16 * w) = q at *
  obtain ⟨k, rfl⟩ := Int.eq_ofNat_of_zero_le h1
  refine ⟨?_, by omega⟩
  have : ((l + 1 + k : Nat) : Int) % ((16 * w : Nat) : Int) = ((14 * w : Nat) : Int) := by
    have : ((l + 1 + k : Nat) : Int) = ((14 * w : Nat) : Int) + ((16 * w : Nat) : Int) * (-q) := by
      have hneg : ((16 * w : Nat) : Int) * (-q) = - (16 * w * q) := by rw [Int.mul_neg]; simp
      rw [hneg]; push_cast; omega
    rw [this, Int.add_mul_emod_self_left]
    exact Int.emod_eq_of_lt (by omega) (by push_cast; omega)
  have h4 : (((l + 1 + k) % (16 * w) : Nat) : Int) = ((14 * w : Nat) : Int) := by rw [Int.natCast_emod]; exact this
  simpa using Int.ofNat.inj h4

theorem binary_length (k n : Nat) : (binary k n).length = k := by simp [binary]

theorem pad_length {w : Nat} (hw : 0 < w) (m : List Bool) : (pad w m).length % (16 * w) = 0 := by
  have h := (zeros_spec hw m.length).1
  simp only [pad, List.length_append, List.length_replicate, List.length_cons, List.length_nil, binary_length]
  have e : m.length + (0 + 1) + zeros w m.length + 2 * w = (m.length + 1 + zeros w m.length) + 2 * w := by omega
  rw [e, Nat.add_mod, h]
  have : 2 * w % (16 * w) = 2 * w := Nat.mod_eq_of_lt (by omega)
  rw [this]
  have : 14 * w + 2 * w = 16 * w := by omega
  rw [this, Nat.mod_self]

end Verif.Sha.Fips
