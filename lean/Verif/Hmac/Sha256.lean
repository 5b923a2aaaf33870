import Verif.Hmac.Rfc
import Verif.Buffer.Props
import Verif.Tac
/-!
# hmacsha256.c (C38)
-/
set_option linter.unusedVariables false
namespace Verif.Hmac
open Verif.Sha Verif.Buffer
variable {rel : Prop}

theorem go_bytes : ∀ (bs : List UInt8), readBytes.go (bytesV bs) = (pure bs : M (List UInt8))
  | [] => rfl
  | b :: bs => by
    show readBytes.go (.byte b :: bytesV bs) = _
    unfold readBytes.go
    rw [go_bytes bs]; rfl

theorem readBytes_spec {p : CharPtr} {bs : List UInt8} {n : Nat} (hn : n ≤ bs.length) :
    Triple rel (Data p bs) (readBytes p n) (fun r => (r = bs.take n) ⋏ Data p bs) := by
  unfold readBytes
  refine Triple.ite (fun h => ?_) (fun h => ?_)
  · subst h
    exact Triple.pure (entails_pand_r (entails_refl _) (by simp))
  cases p with
  | null => unfold Data; hoist; rintro rfl; simp at hn; omega
  | lit l =>
    unfold Data; hoist; intro h1 h2
    unfold storage
    refine Triple.bind_pure ?_
    have := h1.length_le
    rw [if_pos (by rw [bytesV_length]; omega)]
    have e : (bytesV l).take n = bytesV (bs.take n) := by
      simp only [bytesV, ← List.map_take]; rw [prefix_take h1 hn]
    rw [e, go_bytes]
    refine Triple.pure (entails_pand_r ?_ rfl)
    exact entails_pand_r (entails_refl _) ⟨h1, h2⟩
  | heap p o =>
    unfold Data; hoist; intro vs h1 h2
    step (storage_pts h1)
    have hl := h2.length_le
    simp only [bytesV_length] at hl
    rw [if_pos (by omega)]
    have e : (vs.drop o).take n = bytesV (bs.take n) := by
      rw [prefix_take h2 (by rw [bytesV_length]; exact hn)]; simp [bytesV]
    rw [e, go_bytes]
    refine Triple.pure (entails_pand_r ?_ rfl)
    refine entails_ex_r vs ?_
    exact entails_pand_r (entails_refl _) ⟨h1, h2⟩

/-- What the casts to `int` make of a key. -/
def effKey (k : List UInt8) : List UInt8 := if k.length % 2 ^ 32 < 2 ^ 31 then k.take (k.length % 2 ^ 32) else []
/-- What the casts make of a payload. -/
def effText (m : List UInt8) : List UInt8 := m.take (m.length % 2 ^ 32)

theorem effKey_small {k : List UInt8} (h : k.length < 2 ^ 31) : effKey k = k := by
  unfold effKey; rw [Nat.mod_eq_of_lt (by omega), if_pos h, List.take_length]
theorem effText_small {m : List UInt8} (h : m.length < 2 ^ 32) : effText m = m := by
  unfold effText; rw [Nat.mod_eq_of_lt h, List.take_length]

theorem toUnsigned_toInt (n : Nat) : toUnsigned (toInt n) = n % 2 ^ 32 := by
  unfold toUnsigned toInt
  split <;> omega

theorem toInt_toNat (n : Nat) : (toInt n).toNat = if n % 2 ^ 32 < 2 ^ 31 then n % 2 ^ 32 else 0 := by
  unfold toInt
  split <;> omega

theorem hmac_casts {l : Locals} (ht : Sized l.tctx) (hs : Sized l.ctx.shaContext) (k m : List UInt8) :
    ∃ st', hmac l.tctx l.ctx SHA256 (some (effText m)) (toInt m.length) (effKey k) (toInt k.length) l.st =
      some ((0, rfc2104 Fips.SHA256 (effKey k) (effText m)), st') := by
  have hlt : (effText m).length = m.length % 2 ^ 32 := by
    unfold effText; rw [List.length_take]; have := Nat.mod_le m.length (2 ^ 32); omega
  have hu : toUnsigned (toInt m.length) = (effText m).length := by rw [toUnsigned_toInt, hlt]
  by_cases hk : k.length % 2 ^ 32 < 2 ^ 31
  · have hlk : (effKey k).length = k.length % 2 ^ 32 := by
      unfold effKey; rw [if_pos hk, List.length_take]; have := Nat.mod_le k.length (2 ^ 32); omega
    have hi : toInt k.length = ((effKey k).length : Int) := by unfold toInt; rw [if_pos hk, hlk]
    rw [hi]
    exact hmac_rfc2104 .sha256 ht hs l.st (effKey k) (effText m) (by omega) hu
  · have he : effKey k = [] := by unfold effKey; rw [if_neg hk]
    have hneg : toInt k.length < 0 := by unfold toInt; rw [if_neg hk]; omega
    rw [he]
    exact hmac_negative_key .sha256 hs l.st [] (effText m) hneg hu

/-- The effect on the buffer (`a` before, `a'` after): the digest `mac` is stored at the start of the buffer enlarged by 32 bytes. -/
def MacE (rel : Prop) (bad : Prop) (mac : List UInt8) (a : Option Content) (r : HMACSHA256_RESULT) (a' : Option Content) : Prop :=
  (r = .INVALID_ARG ∧ bad ∧ a' = a) ∨
  (r = .ERROR ∧ ¬ bad ∧ a' = a ∧ ∃ c, a = some c ∧ (¬ rel ∨ maxObj < clen c + 32)) ∨
  (r = .OK ∧ ¬ bad ∧ ∃ c, a = some c ∧ a' = some (some (bytesV mac ++ (c.getD [] ++ List.replicate 32 Val.undef).drop 32)))

theorem know_clen {h : Ptr} {c : Content} {P R : HProp} (pk : Pick P (OBuf h (some c)) R) : ∀ hp, P hp → clen c ≤ maxObj := by
  intro hp hP
  unfold Pick at pk; rw [pk] at hP
  cases c with
  | none => simp [clen]
  | some vs =>
    simp only [OBuf_some, Buf_some] at hP
    obtain ⟨x, y, hd, rfl, ⟨p, x1, x2, hd2, rfl, h1, h2⟩, h3⟩ := hP
    exact h2.2.1

theorem know_data_ne {p : CharPtr} {bs : List UInt8} {P R : HProp} (hb : bs ≠ []) (pk : Pick P (Data p bs) R) : ∀ hp, P hp → p ≠ .null := by
  rintro hp hP rfl
  unfold Pick at pk; rw [pk] at hP
  obtain ⟨x, y, hd, rfl, ⟨h1, _⟩, _⟩ := hP
  exact hb h1

/-- `source` reads as `bs` in the states described by `D` -/
def ReadsB (rel : Prop) (D : HProp) (source : CharPtr) (bs : List UInt8) : Prop :=
  ∀ n, n ≤ bs.length → Triple rel D (readBytes source n) (fun r => (r = bs.take n) ⋏ D)

/-- The exact behaviour, for all lengths a `size_t` can hold and any way of owning the key and the payload. -/
theorem HMACSHA256_ComputeHash_spec' {l : Locals} (ht : Sized l.tctx) (hs : Sized l.ctx.shaContext) {key payload : CharPtr} {k m : List UInt8}
    {hash : Ptr} {a : Option Content} {D : HProp} (hkr : ReadsB rel D key k) (hmr : ReadsB rel D payload m)
    (hkn : k ≠ [] → key ≠ .null) (hmn : m ≠ [] → payload ≠ .null) :
    Triple rel (OBuf hash a ∗ D) (HMACSHA256_ComputeHash l key k.length payload m.length hash)
      (fun r => ∃∃ a', (MacE rel (k = [] ∨ m = [] ∨ a = none) (rfc2104 Fips.SHA256 (effKey k) (effText m)) a r a') ⋏
        (OBuf hash a' ∗ D)) := by
  unfold HMACSHA256_ComputeHash
  cases a with
  | none =>
    rw [OBuf_none]; hoist; rintro rfl
    rw [if_pos (by simp)]
    refine Triple.pure (entails_ex_r none (entails_pand_r ?_ (Or.inl ⟨rfl, Or.inr (Or.inr rfl), rfl⟩)))
    rw [OBuf_null, emp_sep]
    exact entails_refl _
  | some c =>
  refine Triple.know (OBuf_some_ne (by pick)) fun hne => ?_
  refine Triple.know (know_clen (by pick)) fun hcl => ?_
  by_cases hk : k = []
  · subst hk
    rw [if_pos (by simp)]
    exact Triple.pure (entails_ex_r _ (entails_pand_r (entails_refl _) (Or.inl ⟨rfl, Or.inl rfl, rfl⟩)))
  by_cases hm : m = []
  · subst hm
    rw [if_pos (by simp)]
    exact Triple.pure (entails_ex_r _ (entails_pand_r (entails_refl _) (Or.inl ⟨rfl, Or.inr (Or.inl rfl), rfl⟩)))
  rw [if_neg (by simp [hkn hk, hmn hm, hne, hk, hm])]
  have hw : ∀ c', some c = some c' → clen c' + 32 < szMod := by
    rintro _ ⟨rfl⟩; simp only [maxObj, szMod] at *; omega
  step (BUFFER_enlarge_spec_partial (a := some c) hw) into e
  intro a' he
  rcases he with ⟨rfl, -, c', c'', hc', rfl, hok⟩ | ⟨hne', rfl, hbad⟩
  · cases hc'
    rw [if_neg (by simp)]
    subst hok
    step BUFFER_u_char_spec into p
    simp only [BufAt]
    have hmod : m.length % 2 ^ 32 ≤ m.length := Nat.mod_le _ _
    have hmodk : (toInt k.length).toNat ≤ k.length := by
      rw [toInt_toNat]; have := Nat.mod_le k.length (2 ^ 32); split <;> omega
    step (hmr (toUnsigned (toInt m.length)) (by rw [toUnsigned_toInt]; exact hmod))
    step (hkr (toInt k.length).toNat hmodk)
    have e1 : m.take (toUnsigned (toInt m.length)) = effText m := by rw [toUnsigned_toInt]; rfl
    have e2 : k.take (toInt k.length).toNat = effKey k := by
      rw [toInt_toNat]; unfold effKey; split <;> simp
    obtain ⟨st', hmac⟩ := hmac_casts ht hs k m
    rw [e1, e2, hmac]
    dsimp only
    have hlen : (bytesV (rfc2104 Fips.SHA256 (effKey k) (effText m))).length = 32 := by
      rw [bytesV_length]; exact (USHA_sizes .sha256).2.2.2 _
    step (storeN_spec' (p := p) (b := c.getD [] ++ List.replicate 32 Val.undef) (off := 0)
      (vs := bytesV (rfc2104 Fips.SHA256 (effKey k) (effText m))) (by rw [hlen]; simp))
    rw [if_neg (by simp)]
    refine Triple.pure (entails_ex_r _ (entails_pand_r ?_ (Or.inr (Or.inr ⟨rfl, by simp [hk, hm], c, rfl, rfl⟩))))
    have ep : patch (c.getD [] ++ List.replicate 32 Val.undef) 0 (bytesV (rfc2104 Fips.SHA256 (effKey k) (effText m))) =
        bytesV (rfc2104 Fips.SHA256 (effKey k) (effText m)) ++ (c.getD [] ++ List.replicate 32 Val.undef).drop 32 := by
      simp only [patch, hlen, List.take_zero, List.nil_append, Nat.zero_add]
    rw [ep]
    have el : (bytesV (rfc2104 Fips.SHA256 (effKey k) (effText m)) ++ (c.getD [] ++ List.replicate 32 Val.undef).drop 32).length =
        (c.getD [] ++ List.replicate 32 Val.undef).length := by
      rw [List.length_append, hlen, List.length_drop, List.length_append, List.length_replicate]; omega
    rw [OBuf_some, Buf_some, hex_sep, el]
    refine entails_ex_r p ?_
    simp only [sep_assoc]
    sep_cancel
  · rw [if_pos hne']
    refine Triple.pure (entails_ex_r (some c) (entails_pand_r (entails_refl _) (Or.inr (Or.inl ⟨rfl, by simp [hk, hm], rfl, c, rfl, ?_⟩))))
    rcases hbad with (h | h) | h | ⟨c', h1, h2⟩
    · cases h
    · omega
    · exact Or.inl h
    · cases h1; exact Or.inr h2

/-- The exact behaviour, for all lengths a `size_t` can hold. -/
theorem HMACSHA256_ComputeHash_spec {l : Locals} (ht : Sized l.tctx) (hs : Sized l.ctx.shaContext) {key payload : CharPtr} {k m : List UInt8}
    {hash : Ptr} {a : Option Content} :
    Triple rel (OBuf hash a ∗ Data key k ∗ Data payload m) (HMACSHA256_ComputeHash l key k.length payload m.length hash)
      (fun r => ∃∃ a', (MacE rel (k = [] ∨ m = [] ∨ a = none) (rfc2104 Fips.SHA256 (effKey k) (effText m)) a r a') ⋏
        (OBuf hash a' ∗ Data key k ∗ Data payload m)) := by
  have hkr : ReadsB rel (Data key k ∗ Data payload m) key k := fun n hn => by
    last (readBytes_spec hn)
    rw [pand_sep]; exact entails_refl _
  have hmr : ReadsB rel (Data key k ∗ Data payload m) payload m := fun n hn => by
    last (readBytes_spec (p := payload) hn)
    rw [pand_sep]
    exact entails_pand_l fun h => entails_pand_r (by sep_cancel) h
  by_cases hk : k = []
  · by_cases hm : m = []
    · exact HMACSHA256_ComputeHash_spec' ht hs hkr hmr (fun h => (h hk).elim) (fun h => (h hm).elim)
    · refine Triple.know (know_data_ne (p := payload) hm (by pick)) fun hmn => ?_
      exact HMACSHA256_ComputeHash_spec' ht hs hkr hmr (fun h => (h hk).elim) (fun _ => hmn)
  · refine Triple.know (know_data_ne (p := key) hk (by pick)) fun hkn => ?_
    by_cases hm : m = []
    · exact HMACSHA256_ComputeHash_spec' ht hs hkr hmr (fun _ => hkn) (fun h => (h hm).elim)
    · refine Triple.know (know_data_ne (p := payload) hm (by pick)) fun hmn => ?_
      exact HMACSHA256_ComputeHash_spec' ht hs hkr hmr (fun _ => hkn) (fun _ => hmn)

end Verif.Hmac
