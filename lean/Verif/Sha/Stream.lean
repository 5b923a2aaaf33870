import Verif.Sha.Compress
import Verif.Sha.Spec
/-!
# The streaming interface computes the standard's function
-/
namespace Verif.Sha
open Fips (bits bitsOf value binary wordBytes)

/-! ## Bytes and bits -/

theorem value_cons (b : Bool) (l : List Bool) : value (b :: l) = b.toNat * 2 ^ l.length + value l := by
  have := value_append [b] l
  simpa [value] using this

theorem value_lt (l : List Bool) : value l < 2 ^ l.length := by
  induction l with
  | nil => simp [value]
  | cons b l ih =>
    rw [value_cons, List.length_cons, Nat.pow_succ]
    cases b <;> simp <;> omega

theorem value_inj : ∀ (x y : List Bool), x.length = y.length → value x = value y → x = y
  | [], [], _, _ => rfl
  | a :: x, b :: y, hl, hv => by
    have hl' : x.length = y.length := by simpa using hl
    rw [value_cons, value_cons, hl'] at hv
    have h1 := value_lt x
    have h2 := value_lt y
    rw [hl'] at h1
    have hab : a = b := by
      cases a <;> cases b <;> simp at hv ⊢ <;> omega
    subst hab
    rw [value_inj x y hl' (by omega)]
  | [], _ :: _, hl, _ => by simp at hl
  | _ :: _, [], hl, _ => by simp at hl

theorem binary_succ (k n : Nat) : binary (k + 1) n = n.testBit k :: binary k n := by
  unfold binary
  rw [List.range_succ_eq_map]
  simp only [List.map_cons, List.map_map]
  congr 1
  apply List.map_congr_left
  intro i _
  simp only [Function.comp]
  congr 1; omega

theorem value_binary (k n : Nat) : value (binary k n) = n % 2 ^ k := by
  induction k with
  | zero => simp [binary, value, Nat.mod_one]
  | succ k ih =>
    rw [binary_succ, value_cons, Fips.binary_length, ih, Nat.toNat_testBit, Nat.pow_succ, Nat.mod_mul, Nat.mul_comm]
    omega

/-- The last `n` bytes of a number, most significant first. -/
def beBytes (v : Nat) : Nat → List UInt8
  | 0 => []
  | n + 1 => UInt8.ofNat (v / 2 ^ (8 * n)) :: beBytes v n

theorem beBytes_length (v n : Nat) : (beBytes v n).length = n := by
  induction n with
  | zero => rfl
  | succ n ih => simp [beBytes, ih]

theorem value_beBytes (v n : Nat) : value (bits (beBytes v n)) = v % 2 ^ (8 * n) := by
  induction n with
  | zero => simp [beBytes, value_bits_nil, Nat.mod_one]
  | succ n ih =>
    rw [beBytes, value_bits_cons, ih, beBytes_length]
    have e : (256 : Nat) ^ n = 2 ^ (8 * n) := by rw [Nat.pow_mul]
    have e2 : (2 : Nat) ^ (8 * (n + 1)) = 2 ^ (8 * n) * 256 := by
      rw [show 8 * (n + 1) = 8 * n + 8 by omega, Nat.pow_add]
    have e3 : (2 : Nat) ^ 8 = 256 := rfl
    rw [e, e2, UInt8.toNat_ofNat', Nat.mod_mul, e3, Nat.mul_comm]
    omega

theorem wordBytes_beBytes {w : Nat} (hw : w % 8 = 0) (x : BitVec w) : wordBytes x = beBytes x.toNat (w / 8) := by
  have key : ∀ n, ((List.range n).map fun i => UInt8.ofNat (x.toNat / 2 ^ (8 * n - 8 * (i + 1)))) = beBytes x.toNat n := by
    intro n
    induction n with
    | zero => rfl
    | succ n ih =>
      rw [List.range_succ_eq_map, beBytes]
      simp only [List.map_cons, List.map_map]
      rw [← ih, List.cons.injEq]
      refine ⟨?_, ?_⟩
      · rw [show 8 * (n + 1) - 8 * (0 + 1) = 8 * n by omega]
      · apply List.map_congr_left
        intro i _
        simp only [Function.comp]
        rw [show 8 * (n + 1) - 8 * (i.succ + 1) = 8 * n - 8 * (i + 1) by omega]
  rw [← key]
  unfold wordBytes
  apply List.map_congr_left
  intro i _
  rw [show w - 8 * (i + 1) = 8 * (w / 8) - 8 * (i + 1) by omega]

theorem byteAt_eq {w : Nat} (x : BitVec w) (s : Nat) : byteAt x s = UInt8.ofNat (x.toNat / 2 ^ s) := by
  apply UInt8.toNat.inj
  simp only [byteAt, UInt8.toNat_ofBitVec, BitVec.toNat_setWidth, BitVec.toNat_ushiftRight, UInt8.toNat_ofNat', Nat.shiftRight_eq_div_pow]

/-- The length field. -/
theorem lenBytes_bits {w : Nat} (hw : w % 8 = 0) (hi lo : BitVec w) :
    bits (wordBytes hi ++ wordBytes lo) = binary (2 * w) (hi.toNat * 2 ^ w + lo.toNat) := by
  have e8 : 8 * (w / 8) = w := by omega
  apply value_inj
  · rw [bits_length, List.length_append, wordBytes_beBytes hw, wordBytes_beBytes hw, beBytes_length, beBytes_length, Fips.binary_length]
    omega
  · rw [bits_append, value_append, bits_length, wordBytes_beBytes hw, wordBytes_beBytes hw, beBytes_length, value_beBytes, value_beBytes,
      value_binary, e8, Nat.mod_eq_of_lt hi.isLt, Nat.mod_eq_of_lt lo.isLt, Nat.mod_eq_of_lt]
    have h1 := hi.isLt
    have h2 := lo.isLt
    rw [show 2 * w = w + w by omega, Nat.pow_add]
    have : (hi.toNat + 1) * 2 ^ w ≤ 2 ^ w * 2 ^ w := Nat.mul_le_mul_right _ h1
    rw [Nat.add_mul] at this
    omega

theorem bits_drop (P : List UInt8) : ∀ k, (bits P).drop (8 * k) = bits (P.drop k) := by
  induction P with
  | nil => intro k; simp [bits]
  | cons b P ih =>
    intro k
    cases k with
    | zero => simp
    | succ k =>
      rw [bits_cons, show 8 * (k + 1) = (bitsOf b).length + 8 * k by rw [bitsOf_length]; omega, ← List.drop_drop, List.drop_left, ih]
      rfl

theorem bits_take (P : List UInt8) : ∀ k, (bits P).take (8 * k) = bits (P.take k) := by
  induction P with
  | nil => intro k; simp [bits]
  | cons b P ih =>
    intro k
    cases k with
    | zero => simp [bits]
    | succ k =>
      rw [bits_cons, show 8 * (k + 1) = (bitsOf b).length + 8 * k by rw [bitsOf_length]; omega, List.take_append, List.take_succ_cons, bits_cons]
      rw [List.take_of_length_le (by omega), ← ih]
      simp

/-- The words of the standard, read from bytes. -/
theorem word_bits {w : Nat} (hw : w % 8 = 0) (P : List UInt8) (i t : Nat) :
    Fips.word w (bits P) i t = bword w (P.drop (2 * w * i)) t := by
  obtain ⟨v, rfl⟩ : ∃ v, w = 8 * v := ⟨w / 8, by omega⟩
  unfold Fips.word bword be
  have e1 : 16 * (8 * v) * i + 8 * v * t = 8 * (2 * (8 * v) * i + v * t) := by
    simp only [Nat.mul_add, Nat.mul_assoc]; congr 1
    rw [← Nat.mul_assoc 8 2 _]
  have e2 : 8 * v / 8 = v := by omega
  rw [e1, bits_drop, bits_take, e2, List.drop_drop]

/-! ## The engine -/

variable (h : Fips.Hash) (a : Alg h.w)

/-- What is known of `ProcessMessageBlock`. -/
structure Good (nH : Nat) : Prop where
  hw : h.w = 32 ∨ h.w = 64
  size : a.Message_Block_Size = 2 * h.w
  iv : h.iv.length = nH
  out : h.size ≤ h.w / 8 * nH
  spec : ∀ H blk, H.length = nH → blk.length = 2 * h.w → a.compress H blk = some (h.compress H (bword h.w blk))
  len : ∀ H M, H.length = nH → (h.compress H M).length = nH
  ext : ∀ H M M', (∀ t, t < 16 → M t = M' t) → h.compress H M = h.compress H M'

/-- The hash value after `n` blocks of the bytes `P`. -/
def after (P : List UInt8) : Nat → List (BitVec h.w)
  | 0 => h.iv
  | n + 1 => h.compress (after P n) (bword h.w (P.drop (2 * h.w * n)))

variable {h a} {nH : Nat}

theorem Good.hw8 (g : Good h a nH) : h.w % 8 = 0 := by rcases g.hw with e | e <;> omega

theorem after_length (g : Good h a nH) (P : List UInt8) : ∀ n, (after h P n).length = nH
  | 0 => g.iv
  | n + 1 => g.len _ _ (after_length g P n)

theorem after_bits (g : Good h a nH) (P : List UInt8) : ∀ n, h.after (bits P) n = after h P n
  | 0 => rfl
  | n + 1 => by
    rw [Fips.Hash.after, after, after_bits g P n]
    congr 1
    funext t
    exact word_bits g.hw8 P n t

/-- The words of a block depend only on its bytes. -/
theorem bword_append (g : Good h a nH) {x : List UInt8} (hx : x.length = 2 * h.w) (y : List UInt8) {t : Nat} (ht : t < 16) :
    bword h.w (x ++ y) t = bword h.w x t := by
  unfold bword
  have h8 := g.hw8
  have hk : h.w / 8 * t + h.w / 8 ≤ x.length := by
    rcases g.hw with e | e
    · have e8 : h.w / 8 = 4 := by rw [e]
      rw [e8, hx, e]; omega
    · have e8 : h.w / 8 = 8 := by rw [e]
      rw [e8, hx, e]; omega
  rw [List.drop_append_of_le_length (by omega), List.take_append_of_le_length (by rw [List.length_drop]; omega)]

theorem after_append (g : Good h a nH) (P Q : List UInt8) : ∀ n, 2 * h.w * n ≤ P.length → after h (P ++ Q) n = after h P n
  | 0, _ => rfl
  | n + 1, hn => by
    have e : 2 * h.w * (n + 1) = 2 * h.w * n + 2 * h.w := by rw [Nat.mul_add]; omega
    rw [after, after, after_append g P Q n (by omega)]
    apply g.ext
    intro t ht
    rw [List.drop_append_of_le_length (by omega)]
    have hs : (P.drop (2 * h.w * n)) = (P.drop (2 * h.w * n)).take (2 * h.w) ++ (P.drop (2 * h.w * n)).drop (2 * h.w) :=
      (List.take_append_drop _ _).symm
    have hl : ((P.drop (2 * h.w * n)).take (2 * h.w)).length = 2 * h.w := by
      rw [List.length_take, List.length_drop]; omega
    rw [hs, List.append_assoc, bword_append g hl _ ht, bword_append g hl _ ht]

/-- `n` blocks of the bytes `P` are processed, the others are the first `i` bytes of the block. -/
structure Held (h : Fips.Hash) (n : Nat) (P : List UInt8) (H : List (BitVec h.w)) (blk : List UInt8) (i : Nat) : Prop where
  len : P.length = 2 * h.w * n + i
  le : i ≤ 2 * h.w
  hash : H = after h P n
  blk_len : blk.length = 2 * h.w
  pend : blk.take i = P.drop (2 * h.w * n)

/-- Replace the hash value, the block and the index. -/
def put {w : Nat} (c : Ctx w) (H : List (BitVec w)) (blk : List UInt8) (i : Nat) : Ctx w :=
  { c with Intermediate_Hash := H, Message_Block := blk, Message_Block_Index := i }

theorem Held.push (g : Good h a nH) {n i : Nat} {P : List UInt8} {H : List (BitVec h.w)} {blk : List UInt8} (hh : Held h n P H blk i)
    (hi : i < 2 * h.w) (b : UInt8) : Held h n (P ++ [b]) H (blk.set i b) (i + 1) where
  len := by simp [hh.len]; omega
  le := hi
  hash := by rw [hh.hash, after_append g _ _ _ (by rw [hh.len]; omega)]
  blk_len := by simp [hh.blk_len]
  pend := by
    rw [List.drop_append_of_le_length (by rw [hh.len]; omega), ← hh.pend]
    have : i < (blk.set i b).length := by simp [hh.blk_len, hi]
    rw [List.take_succ_eq_append_getElem this, List.getElem_set_self, List.take_set_of_le (Nat.le_refl _)]

theorem bind_eq {w : Nat} {α β : Type} {x : S w α} {f : α → S w β} {s s' : Sh w} {r : α} (hx : x s = some (r, s')) : (x >>= f) s = f r s' := by
  show (x s).bind (fun p => f p.1 p.2) = _
  rw [hx]; rfl

theorem getCtx_eq {w : Nat} (s : Sh w) : getCtx s = some (s.ctx, s) := rfl
theorem modifyCtx_eq {w : Nat} (f : Ctx w → Ctx w) (s : Sh w) : modifyCtx f s = some ((), { s with ctx := f s.ctx }) := rfl
theorem pure_eq {w : Nat} {α : Type} (x : α) (s : Sh w) : (pure x : S w α) s = some (x, s) := rfl

theorem setBlock_eq (g : Good h a nH) {i : Nat} (hi : i < 2 * h.w) (v : UInt8) (c : Ctx h.w) (H : List (BitVec h.w)) (blk : List UInt8)
    (j : Nat) (t : BitVec h.w) : setBlock a i v ⟨put c H blk j, t⟩ = some ((), ⟨put c H (blk.set i v) j, t⟩) := by
  rw [setBlock, if_pos (by rw [g.size]; exact hi)]; rfl

theorem push_eq (g : Good h a nH) {i : Nat} (hi : i < 2 * h.w) (v : UInt8) (c : Ctx h.w) (H : List (BitVec h.w)) (blk : List UInt8)
    (t : BitVec h.w) : push a v ⟨put c H blk i, t⟩ = some ((), ⟨put c H (blk.set i v) (i + 1), t⟩) := by
  rw [push, bind_eq (getCtx_eq _)]
  show (setBlock a i v >>= _) _ = _
  rw [bind_eq (setBlock_eq g hi v c H blk i t)]; rfl

theorem process_eq (g : Good h a nH) {n : Nat} {P : List UInt8} {H : List (BitVec h.w)} {blk : List UInt8}
    (hh : Held h n P H blk (2 * h.w)) (c : Ctx h.w) (j : Nat) (t : BitVec h.w) :
    ∃ H', ProcessMessageBlock a ⟨put c H blk j, t⟩ = some ((), ⟨put c H' blk 0, t⟩) ∧ Held h (n + 1) P H' blk 0 := by
  have hl : H.length = nH := by rw [hh.hash]; exact after_length g P n
  refine ⟨h.compress H (bword h.w blk), ?_, ?_⟩
  · rw [ProcessMessageBlock, bind_eq (getCtx_eq _)]
    simp only [put, g.spec H blk hl hh.blk_len]; rfl
  · have hp := hh.pend
    rw [List.take_of_length_le (by rw [hh.blk_len]; exact Nat.le_refl _)] at hp
    have e : 2 * h.w * (n + 1) = 2 * h.w * n + 2 * h.w := by rw [Nat.mul_add]; omega
    refine ⟨?_, Nat.zero_le _, ?_, hh.blk_len, ?_⟩
    · rw [hh.len, e]; omega
    · rw [after, ← hp, ← hh.hash]
    · rw [List.take_zero, List.drop_eq_nil_of_le]; rw [hh.len, e]; omega

theorem zeroFill_eq (g : Good h a nH) {limit : Nat} (hl : limit ≤ 2 * h.w) (c : Ctx h.w) (H : List (BitVec h.w)) (t : BitVec h.w) (n : Nat) :
    ∀ (fuel i : Nat) (P blk : List UInt8), Held h n P H blk i → limit ≤ i + fuel →
      ∃ blk', zeroFill a limit fuel ⟨put c H blk i, t⟩ = some ((), ⟨put c H blk' (max i limit), t⟩) ∧
        Held h n (P ++ List.replicate (limit - i) 0) H blk' (max i limit)
  | 0, i, P, blk, hh, hf => by
    have : ¬ i < limit := by omega
    refine ⟨blk, ?_, ?_⟩
    · rw [zeroFill, bind_eq (getCtx_eq _)]
      show (if i < limit then ub else pure () : S h.w Unit) _ = _
      rw [if_neg this, Nat.max_eq_left (by omega)]; rfl
    · rw [Nat.max_eq_left (by omega), Nat.sub_eq_zero_of_le (by omega)]; simpa using hh
  | fuel + 1, i, P, blk, hh, hf => by
    by_cases hi : i < limit
    · obtain ⟨blk', h1, h2⟩ := zeroFill_eq g hl c H t n fuel (i + 1) (P ++ [0]) (blk.set i 0) (hh.push g (by omega) 0) (by omega)
      refine ⟨blk', ?_, ?_⟩
      · rw [zeroFill, bind_eq (getCtx_eq _)]
        show (if i < limit then (do push a 0; zeroFill a limit fuel) else pure () : S h.w Unit) _ = _
        rw [if_pos hi, bind_eq (push_eq g (by omega) 0 c H blk t), h1, Nat.max_eq_right (by omega), Nat.max_eq_right (by omega)]
      · rw [Nat.max_eq_right (by omega)] at h2 ⊢
        have e : limit - i = (limit - (i + 1)) + 1 := by omega
        rw [e, List.replicate_succ]
        simpa using h2
    · refine ⟨blk, ?_, ?_⟩
      · rw [zeroFill, bind_eq (getCtx_eq _)]
        show (if i < limit then (do push a 0; zeroFill a limit fuel) else pure () : S h.w Unit) _ = _
        rw [if_neg hi, Nat.max_eq_left (by omega)]; rfl
      · rw [Nat.max_eq_left (by omega), Nat.sub_eq_zero_of_le (by omega)]; simpa using hh

theorem storeWord_eq (g : Good h a nH) (x : BitVec h.w) (c : Ctx h.w) (H : List (BitVec h.w)) (t : BitVec h.w) (n j : Nat) :
    ∀ (m i : Nat) (P blk : List UInt8), Held h n P H blk i → i + m ≤ 2 * h.w →
      ∃ blk', storeWord a x i m ⟨put c H blk j, t⟩ = some ((), ⟨put c H blk' j, t⟩) ∧ Held h n (P ++ beBytes x.toNat m) H blk' (i + m)
  | 0, i, P, blk, hh, _ => ⟨blk, rfl, by simpa [beBytes] using hh⟩
  | m + 1, i, P, blk, hh, hm => by
    obtain ⟨blk', h1, h2⟩ := storeWord_eq g x c H t n j m (i + 1) _ _ (hh.push g (by omega) (byteAt x (8 * m))) (by omega)
    refine ⟨blk', ?_, ?_⟩
    · rw [storeWord, bind_eq (setBlock_eq g (by omega) _ c H blk j t)]
      exact h1
    · rw [show i + (m + 1) = i + 1 + m by omega, beBytes, ← byteAt_eq]
      simpa using h2

/-! ## The length counter -/

/-- The number of bits counted in a context. -/
def num {w : Nat} (c : Ctx w) : Nat := c.Length_High.toNat * 2 ^ w + c.Length_Low.toNat

theorem AddLength_eq {w : Nat} {n : Nat} (hn : n < 2 ^ w) (c : Ctx w) (t : BitVec w) :
    ∃ (lo hi : BitVec w) (r : Nat),
      AddLength n ⟨c, t⟩ = some (r, ⟨{ c with Length_Low := lo, Length_High := hi, Corrupted := r }, c.Length_Low⟩) ∧
      hi.toNat * 2 ^ w + lo.toNat = (num c + n) % 2 ^ (2 * w) ∧ r = if num c + n < 2 ^ (2 * w) then 0 else 1 := by
  have hlo := c.Length_Low.isLt
  have hhi := c.Length_High.isLt
  have e2 : (2 : Nat) ^ (2 * w) = 2 ^ w * 2 ^ w := by rw [← Nat.pow_add]; congr 1; omega
  have elo : (c.Length_Low + BitVec.ofNat w n).toNat = (c.Length_Low.toNat + n) % 2 ^ w := by simp
  have ehi : (c.Length_High + 1#w).toNat = (c.Length_High.toNat + 1) % 2 ^ w := by simp
  have hlt : (c.Length_Low + BitVec.ofNat w n < c.Length_Low) ↔ 2 ^ w ≤ c.Length_Low.toNat + n := by
    rw [BitVec.lt_def, elo]
    by_cases hc : c.Length_Low.toNat + n < 2 ^ w
    · rw [Nat.mod_eq_of_lt hc]; omega
    · rw [Nat.mod_eq_sub_mod (by omega), Nat.mod_eq_of_lt (by omega)]; omega
  have hunf : AddLength n ⟨c, t⟩ = (addCheck n : S w Nat) ⟨c, c.Length_Low⟩ := rfl
  rw [hunf]
  by_cases hc : 2 ^ w ≤ c.Length_Low.toNat + n
  · have elo' : (c.Length_Low + BitVec.ofNat w n).toNat = c.Length_Low.toNat + n - 2 ^ w := by
      rw [elo, Nat.mod_eq_sub_mod hc, Nat.mod_eq_of_lt (by omega)]
    by_cases hz : c.Length_High + 1#w = 0#w
    · refine ⟨c.Length_Low + BitVec.ofNat w n, c.Length_High + 1#w, 1, ?_, ?_, ?_⟩
      · rw [addCheck, bind_eq (modifyCtx_eq _ _)]
        show (if c.Length_Low + BitVec.ofNat w n < c.Length_Low then _ else _ : S w Nat) _ = _
        rw [if_pos (hlt.mpr hc), bind_eq (modifyCtx_eq _ _)]
        show (if c.Length_High + 1#w = 0#w then _ else _ : S w Nat) _ = _
        rw [if_pos hz]; rfl
      · have h0 : (c.Length_High.toNat + 1) % 2 ^ w = 0 := by rw [← ehi, hz]; simp
        have h1 : c.Length_High.toNat + 1 = 2 ^ w := by
          by_cases hx : c.Length_High.toNat + 1 < 2 ^ w
          · rw [Nat.mod_eq_of_lt hx] at h0; omega
          · omega
        have h2 : num c + n = 2 ^ w * 2 ^ w + (c.Length_Low.toNat + n - 2 ^ w) := by
          have : (c.Length_High.toNat + 1) * 2 ^ w = 2 ^ w * 2 ^ w := by rw [h1]
          rw [Nat.add_mul] at this
          unfold num; omega
        rw [hz, elo', h2, e2, Nat.add_mod_left, Nat.mod_eq_of_lt]
        · simp
        · have : 1 * 2 ^ w ≤ 2 ^ w * 2 ^ w := Nat.mul_le_mul_right _ (by omega)
          omega
      · have h0 : (c.Length_High.toNat + 1) % 2 ^ w = 0 := by rw [← ehi, hz]; simp
        have h1 : c.Length_High.toNat + 1 = 2 ^ w := by
          by_cases hx : c.Length_High.toNat + 1 < 2 ^ w
          · rw [Nat.mod_eq_of_lt hx] at h0; omega
          · omega
        have : (c.Length_High.toNat + 1) * 2 ^ w = 2 ^ w * 2 ^ w := by rw [h1]
        rw [Nat.add_mul] at this
        rw [if_neg (by unfold num; omega)]
    · refine ⟨c.Length_Low + BitVec.ofNat w n, c.Length_High + 1#w, 0, ?_, ?_, ?_⟩
      · rw [addCheck, bind_eq (modifyCtx_eq _ _)]
        show (if c.Length_Low + BitVec.ofNat w n < c.Length_Low then _ else _ : S w Nat) _ = _
        rw [if_pos (hlt.mpr hc), bind_eq (modifyCtx_eq _ _)]
        show (if c.Length_High + 1#w = 0#w then _ else _ : S w Nat) _ = _
        rw [if_neg hz]; rfl
      all_goals
        have h1 : c.Length_High.toNat + 1 < 2 ^ w := by
          rcases Nat.lt_or_ge (c.Length_High.toNat + 1) (2 ^ w) with hx | hx
          · exact hx
          · exfalso; apply hz
            apply BitVec.eq_of_toNat_eq
            rw [ehi]
            have : c.Length_High.toNat + 1 = 2 ^ w := by omega
            rw [this]; simp
        have hb : (c.Length_High.toNat + 1 + 1) * 2 ^ w ≤ 2 ^ w * 2 ^ w := Nat.mul_le_mul_right _ h1
        have h2 : num c + n = (c.Length_High.toNat + 1) * 2 ^ w + (c.Length_Low.toNat + n - 2 ^ w) := by
          rw [Nat.add_mul]; unfold num; omega
        have h3 : num c + n < 2 ^ w * 2 ^ w := by
          rw [Nat.add_mul] at hb; omega
      · rw [ehi, elo', Nat.mod_eq_of_lt h1, e2, Nat.mod_eq_of_lt h3, h2]
      · rw [e2, if_pos h3]
  · refine ⟨c.Length_Low + BitVec.ofNat w n, c.Length_High, 0, ?_, ?_, ?_⟩
    · rw [addCheck, bind_eq (modifyCtx_eq _ _)]
      show (if c.Length_Low + BitVec.ofNat w n < c.Length_Low then _ else _ : S w Nat) _ = _
      rw [if_neg (fun hx => hc (hlt.mp hx))]; rfl
    all_goals
      have hb : (c.Length_High.toNat + 1) * 2 ^ w ≤ 2 ^ w * 2 ^ w := Nat.mul_le_mul_right _ hhi
      have h3 : num c + n < 2 ^ w * 2 ^ w := by
        rw [Nat.add_mul] at hb; unfold num; omega
    · rw [elo, Nat.mod_eq_of_lt (by omega : c.Length_Low.toNat + n < 2 ^ w), e2, Nat.mod_eq_of_lt h3]; unfold num; omega
    · rw [e2, if_pos h3]

/-! ## Padding -/

theorem PadMessage_eq (g : Good h a nH) {n i : Nat} {P : List UInt8} {H : List (BitVec h.w)} {blk : List UInt8} (hh : Held h n P H blk i)
    (hi : i < 2 * h.w) (pb : UInt8) (c : Ctx h.w) (t : BitVec h.w) :
    ∃ H' blk' N z, PadMessage a pb ⟨put c H blk i, t⟩ = some ((), ⟨put c H' blk' 0, t⟩) ∧
      Held h N (P ++ [pb] ++ List.replicate z 0 ++ (wordBytes c.Length_High ++ wordBytes c.Length_Low)) H' blk' 0 ∧
      (P.length + 1 + z) % (2 * h.w) = 2 * h.w - h.w / 4 ∧ z < 2 * h.w := by
  have h8 := g.hw8
  have hL : h.w / 4 + h.w / 4 < 2 * h.w ∧ 2 * (h.w / 8) = h.w / 4 ∧ 0 < h.w / 4 := by rcases g.hw with e | e <;> rw [e] <;> omega
  -- the state after the first branch: `n'` blocks, index `i'` below the length field
  obtain ⟨H1, blk1, n1, i1, z1, hrun, hh1, hi1, hz1⟩ : ∃ H1 blk1 n1 i1 z1,
      (∀ k : Unit → S h.w Unit, (if i ≥ a.Message_Block_Size - h.w / 4 then
          (do push a pb; zeroFill a a.Message_Block_Size a.Message_Block_Size; let r ← ProcessMessageBlock a; k r)
        else (do let r ← push a pb; k r)) ⟨put c H blk i, t⟩ = k () ⟨put c H1 blk1 i1, t⟩) ∧
      Held h n1 (P ++ [pb] ++ List.replicate z1 0) H1 blk1 i1 ∧ i1 ≤ 2 * h.w - h.w / 4 ∧ z1 + (2 * h.w - h.w / 4 - i1) < 2 * h.w := by
    by_cases hc : i ≥ 2 * h.w - h.w / 4
    · obtain ⟨blk1, hz, hhz⟩ := zeroFill_eq g (Nat.le_refl (2 * h.w)) c H t n (2 * h.w) (i + 1) _ _ (hh.push g hi pb) (by omega)
      rw [Nat.max_eq_right (by omega)] at hz hhz
      obtain ⟨H1, hp, hhp⟩ := process_eq g hhz c (2 * h.w) t
      refine ⟨H1, blk1, n + 1, 0, _, ?_, hhp, by omega, by omega⟩
      intro k
      rw [g.size, if_pos hc, bind_eq (push_eq g hi pb c H blk t), bind_eq hz, bind_eq hp]
    · refine ⟨H, blk.set i pb, n, i + 1, 0, ?_, by simpa using hh.push g hi pb, by omega, by omega⟩
      intro k
      rw [g.size, if_neg hc, bind_eq (push_eq g hi pb c H blk t)]
  obtain ⟨blk2, hz2, hh2⟩ := zeroFill_eq (limit := 2 * h.w - h.w / 4) g (by omega) c H1 t n1 (2 * h.w) i1 _ _ hh1 (by omega)
  rw [Nat.max_eq_right hi1] at hz2 hh2
  obtain ⟨blk3, hs3, hh3⟩ := storeWord_eq g c.Length_High c H1 t n1 (2 * h.w - h.w / 4) (h.w / 8) _ _ _ hh2 (by omega)
  rw [show 2 * h.w - h.w / 4 + h.w / 8 = 2 * h.w - h.w / 8 by omega] at hh3
  obtain ⟨blk4, hs4, hh4⟩ := storeWord_eq g c.Length_Low c H1 t n1 (2 * h.w - h.w / 4) (h.w / 8) _ _ _ hh3 (by omega)
  rw [show 2 * h.w - h.w / 8 + h.w / 8 = 2 * h.w by omega] at hh4
  obtain ⟨H5, hp5, hh5⟩ := process_eq g hh4 c (2 * h.w - h.w / 4) t
  refine ⟨H5, blk4, n1 + 1, z1 + (2 * h.w - h.w / 4 - i1), ?_, ?_, ?_, by omega⟩
  · rw [PadMessage, bind_eq (getCtx_eq _)]
    refine (hrun _).trans ?_
    rw [g.size, bind_eq hz2, bind_eq (getCtx_eq _)]
    exact (bind_eq hs3).trans ((bind_eq hs4).trans hp5)
  · rw [wordBytes_beBytes h8, wordBytes_beBytes h8, ← List.replicate_append_replicate]
    simpa only [List.append_assoc] using hh5
  · have hl := hh2.len
    simp only [List.length_append, List.length_replicate, List.length_cons, List.length_nil] at hl
    rw [show P.length + 1 + (z1 + (2 * h.w - h.w / 4 - i1)) = 2 * h.w * n1 + (2 * h.w - h.w / 4) by omega, Nat.mul_add_mod,
      Nat.mod_eq_of_lt (by omega)]

theorem zeros_unique (g : Good h a nH) {l k : Nat} (h1 : (l + 1 + k) % (16 * h.w) = 14 * h.w) (h2 : k < 16 * h.w) : k = Fips.zeros h.w l := by
  have hp : 0 < h.w := by rcases g.hw with e | e <;> omega
  obtain ⟨h3, h4⟩ := Fips.zeros_spec hp l
  rcases g.hw with e | e <;> rw [e] at h1 h2 h3 h4 ⊢ <;> omega

theorem bits_replicate (z : Nat) : bits (List.replicate z 0) = List.replicate (8 * z) false := by
  induction z with
  | zero => rfl
  | succ z ih =>
    rw [List.replicate_succ, bits_cons, ih, show 8 * (z + 1) = 8 + 8 * z by omega, ← List.replicate_append_replicate]
    rfl

/-- The padded message of the standard is the byte string the code processes. -/
theorem pad_bits (g : Good h a nH) {P : List UInt8} {f : List Bool} {pb : UInt8} {z : Nat} {hi lo : BitVec h.w} (hf : f.length ≤ 7)
    (hpb : bitsOf pb = f ++ [true] ++ List.replicate (7 - f.length) false) (hz : (P.length + 1 + z) % (2 * h.w) = 2 * h.w - h.w / 4)
    (hz2 : z < 2 * h.w) (hn : hi.toNat * 2 ^ h.w + lo.toNat = 8 * P.length + f.length) :
    bits (P ++ [pb] ++ List.replicate z 0 ++ (wordBytes hi ++ wordBytes lo)) = Fips.pad h.w (bits P ++ f) := by
  have hk : 7 - f.length + 8 * z = Fips.zeros h.w (8 * P.length + f.length) := by
    apply zeros_unique g
    · rcases g.hw with e | e <;> rw [e] at hz hz2 ⊢ <;> omega
    · omega
  have hbl : (bits P ++ f).length = 8 * P.length + f.length := by rw [List.length_append, bits_length]
  rw [bits_append, lenBytes_bits g.hw8, bits_append, bits_append, bits_replicate, hn]
  have : bits [pb] = bitsOf pb := by simp [bits]
  rw [this, hpb, Fips.pad, hbl, ← hk, ← List.replicate_append_replicate]
  simp only [List.append_assoc]

/-- The digest computed from the padded bytes. -/
theorem digest_held (g : Good h a nH) {N : Nat} {Q : List UInt8} {m : List Bool} {H : List (BitVec h.w)} {blk : List UInt8}
    (hh : Held h N Q H blk 0) (hQ : bits Q = Fips.pad h.w m) : (H.flatMap wordBytes).take h.size = h.digest m := by
  have hp : 0 < h.w := by rcases g.hw with e | e <;> omega
  have hl : (bits Q).length / (16 * h.w) = N := by
    rw [bits_length, hh.len, Nat.add_zero, ← Nat.mul_assoc, ← Nat.mul_assoc]
    exact Nat.mul_div_cancel_left _ (by omega)
  rw [Fips.Hash.digest, ← hQ, hl, after_bits g, hh.hash]

/-- The context after `Finalize`. -/
def done {w : Nat} (c : Ctx w) (H : List (BitVec w)) : Ctx w :=
  { c with Intermediate_Hash := H, Message_Block := List.replicate (2 * w) 0, Message_Block_Index := 0, Length_Low := 0#w,
           Length_High := 0#w, Computed := 1 }

theorem Finalize_eq (g : Good h a nH) {n i : Nat} {P : List UInt8} {H : List (BitVec h.w)} {blk : List UInt8} (hh : Held h n P H blk i)
    (hi : i < 2 * h.w) {f : List Bool} {pb : UInt8} (hf : f.length ≤ 7)
    (hpb : bitsOf pb = f ++ [true] ++ List.replicate (7 - f.length) false) (c : Ctx h.w) (hn : num c = 8 * P.length + f.length) (t : BitVec h.w) :
    ∃ H', Finalize a pb ⟨put c H blk i, t⟩ = some ((), ⟨done c H', t⟩) ∧ H'.length = nH ∧
      (H'.flatMap wordBytes).take h.size = h.digest (bits P ++ f) := by
  obtain ⟨H', blk', N, z, hrun, hh', hz, hz2⟩ := PadMessage_eq g hh hi pb c t
  refine ⟨H', ?_, ?_, ?_⟩
  · rw [Finalize, bind_eq hrun, modifyCtx_eq, g.size]; rfl
  · rw [hh'.hash]; exact after_length g _ _
  · exact digest_held g hh' (pad_bits g hf hpb hz hz2 hn)

/-! ## Writing the digest -/

theorem wordBytes_length {w : Nat} (x : BitVec w) : (wordBytes x).length = w / 8 := by simp [wordBytes]

theorem flatMap_length {w : Nat} (H : List (BitVec w)) : (H.flatMap wordBytes).length = w / 8 * H.length := by
  induction H with
  | nil => simp
  | cons x H ih => rw [List.flatMap_cons, List.length_append, ih, wordBytes_length, List.length_cons, Nat.mul_add]; omega

theorem flatMap_get {w : Nat} (hw : w % 8 = 0) (hp : 0 < w) : ∀ (H : List (BitVec w)) (i : Nat),
    (H.flatMap wordBytes)[i]? = (H[i / (w / 8)]?).map fun x => byteAt x (8 * (w / 8 - 1 - i % (w / 8)))
  | [], i => by simp
  | x :: H, i => by
    have hp8 : 0 < w / 8 := by omega
    rw [List.flatMap_cons]
    by_cases hi : i < w / 8
    · rw [List.getElem?_append_left (by rw [wordBytes_length]; exact hi), Nat.div_eq_of_lt hi, Nat.mod_eq_of_lt hi]
      simp only [List.getElem?_cons_zero, Option.map_some]
      rw [byteAt_eq, wordBytes, List.getElem?_map, List.getElem?_range hi, Option.map_some]
      rw [show w - 8 * (i + 1) = 8 * (w / 8 - 1 - i) by omega]
    · rw [List.getElem?_append_right (by rw [wordBytes_length]; omega), wordBytes_length, flatMap_get hw hp H]
      have e : i = (i - w / 8) + w / 8 := by omega
      have e1 : i / (w / 8) = (i - w / 8) / (w / 8) + 1 := by
        conv => lhs; rw [e]
        rw [Nat.add_div_right _ hp8]
      have e2 : i % (w / 8) = (i - w / 8) % (w / 8) := by
        conv => lhs; rw [e]
        rw [Nat.add_mod_right]
      rw [e1, e2, List.getElem?_cons_succ]

theorem digestLoop_eq {w : Nat} (hw : w % 8 = 0) (hp : 0 < w) (H : List (BitVec w)) (s : Sh w) : ∀ (n i : Nat), i + n ≤ w / 8 * H.length →
    digestLoop H i n s = some (((H.flatMap wordBytes).drop i).take n, s)
  | 0, i, _ => by simp [digestLoop, pure_eq]
  | n + 1, i, hl => by
    have hi : i < (H.flatMap wordBytes).length := by rw [flatMap_length]; omega
    have hg := flatMap_get hw hp H i
    rw [List.getElem?_eq_getElem hi] at hg
    rw [digestLoop]
    rcases hx : H[i / (w / 8)]? with _ | x
    · rw [hx] at hg; simp at hg
    · rw [hx] at hg
      simp only [Option.map_some, Option.some.injEq] at hg
      show (digestLoop H (i + 1) n >>= _) s = _
      rw [bind_eq (digestLoop_eq hw hp H s n (i + 1) (by omega)), pure_eq, ← hg, List.drop_eq_getElem_cons hi, List.take_succ_cons]

end Verif.Sha
