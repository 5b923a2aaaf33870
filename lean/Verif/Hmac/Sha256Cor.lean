import Verif.Hmac.Sha256
import Verif.Pool
/-!
# hmacsha256.c: the claim C38 and where it fails
-/
set_option linter.unusedVariables false
namespace Verif.Hmac
open Verif.Sha Verif.Buffer
variable {rel : Prop}

/-- The claim C38 for an empty buffer (`none`: never filled, `some []`: emptied). -/
def Claim (rel : Prop) (k m : List UInt8) (a : Option Content) (r : HMACSHA256_RESULT) (a' : Option Content) : Prop :=
  (r = .OK → a' = some (some (bytesV (rfc2104 Fips.SHA256 k m)))) ∧
  (r ≠ .OK → a' = a) ∧
  (r = .INVALID_ARG ↔ k = [] ∨ m = [] ∨ a = none) ∧
  (r = .ERROR → ¬ rel)

/-- C38.  Missing: keys of 2³¹ bytes or more and payloads of 2³² bytes or more, for which the claim is false (`payload_truncated`,
`key_ignored`). -/
theorem HMACSHA256_ComputeHash_partial {l : Locals} (ht : Sized l.tctx) (hs : Sized l.ctx.shaContext) {key payload : CharPtr}
    {k m : List UInt8} (hk : k.length < 2 ^ 31) (hm : m.length < 2 ^ 32) {hash : Ptr} {a : Option Content} (ha : ∀ c, a = some c → c.getD [] = []) :
    Triple rel (OBuf hash a ∗ Data key k ∗ Data payload m) (HMACSHA256_ComputeHash l key k.length payload m.length hash)
      (fun r => ∃∃ a', (Claim rel k m a r a') ⋏ (OBuf hash a' ∗ Data key k ∗ Data payload m)) := by
  refine (HMACSHA256_ComputeHash_spec ht hs).conseq (entails_refl _) fun r => ?_
  rw [effKey_small hk, effText_small hm]
  refine entails_ex_l fun a' => entails_pand_l fun h => entails_ex_r a' (entails_pand_r (entails_refl _) ?_)
  have hcl : ∀ c, a = some c → clen c = 0 := by
    intro c hc
    have := ha c hc
    cases c with
    | none => rfl
    | some vs => simp only [Option.getD] at this; subst this; rfl
  unfold Claim
  rcases h with ⟨rfl, hb, rfl⟩ | ⟨rfl, hb, rfl, c, hc, h2⟩ | ⟨rfl, hb, c, hc, rfl⟩
  · exact ⟨nofun, fun _ => rfl, ⟨fun _ => hb, fun _ => rfl⟩, nofun⟩
  · refine ⟨nofun, fun _ => rfl, ⟨nofun, fun h => (hb h).elim⟩, fun _ => ?_⟩
    rcases h2 with h | h
    · exact h
    · rw [hcl c hc] at h; simp [maxObj] at h
  · refine ⟨fun _ => ?_, fun h => (h rfl).elim, ⟨nofun, fun h => (hb h).elim⟩, nofun⟩
    have hl : ([] ++ List.replicate 32 Val.undef).drop 32 = [] := by simp
    rw [ha c hc, hl, List.append_nil]

/-- A NULL pointer or a zero length is rejected, and nothing at all happens to the memory. -/
theorem HMACSHA256_ComputeHash_null {l : Locals} {key payload : CharPtr} {kl ml : Nat} {hash : Ptr}
    (h : key = .null ∨ kl = 0 ∨ payload = .null ∨ ml = 0 ∨ hash = 0) (st : St) :
    HMACSHA256_ComputeHash l key kl payload ml hash st = some (.ok (.INVALID_ARG, st)) := by
  unfold HMACSHA256_ComputeHash
  rw [if_pos h]; rfl

/-- The claim of C38 fails for long payloads: one of 2³² + n bytes gets the MAC of its first n bytes. -/
theorem payload_truncated {l : Locals} (ht : Sized l.tctx) (hs : Sized l.ctx.shaContext) {key payload : CharPtr}
    {k m : List UInt8} (hk : k.length < 2 ^ 31) (hk0 : k ≠ []) {n : Nat} (hn : n < 2 ^ 32) (hm : m.length = 2 ^ 32 + n) {hash : Ptr} :
    Triple True (OBuf hash (some none) ∗ Data key k ∗ Data payload m) (HMACSHA256_ComputeHash l key k.length payload m.length hash)
      (fun r => (r = .OK) ⋏ (OBuf hash (some (some (bytesV (rfc2104 Fips.SHA256 k (m.take n))))) ∗ Data key k ∗ Data payload m)) := by
  refine (HMACSHA256_ComputeHash_spec ht hs).conseq (entails_refl _) fun r => ?_
  have ht : effText m = m.take n := by unfold effText; rw [hm]; congr 1; omega
  have hm0 : m ≠ [] := by rintro rfl; simp at hm; omega
  rw [effKey_small hk, ht]
  refine entails_ex_l fun a' => entails_pand_l fun h => ?_
  rcases h with ⟨rfl, hb, rfl⟩ | ⟨rfl, hb, rfl, c, hc, h2⟩ | ⟨rfl, hb, c, hc, rfl⟩
  · simp [hk0, hm0] at hb
  · cases hc; simp [maxObj, clen] at h2
  · cases hc
    simp only [Option.getD, List.nil_append]
    have hl : (List.replicate 32 Val.undef).drop 32 = [] := by simp
    rw [hl, List.append_nil]
    exact entails_pand_r (entails_refl _) trivial

/-- The claim of C38 fails for long keys: one whose length, as a 32-bit number, has the top bit set is ignored. -/
theorem key_ignored {l : Locals} (ht : Sized l.tctx) (hs : Sized l.ctx.shaContext) {key payload : CharPtr}
    {k m : List UInt8} (hk : 2 ^ 31 ≤ k.length % 2 ^ 32) (hm : m.length < 2 ^ 32) (hm0 : m ≠ []) {hash : Ptr} :
    Triple True (OBuf hash (some none) ∗ Data key k ∗ Data payload m) (HMACSHA256_ComputeHash l key k.length payload m.length hash)
      (fun r => (r = .OK) ⋏ (OBuf hash (some (some (bytesV (rfc2104 Fips.SHA256 [] m)))) ∗ Data key k ∗ Data payload m)) := by
  refine (HMACSHA256_ComputeHash_spec ht hs).conseq (entails_refl _) fun r => ?_
  have ht : effKey k = [] := by unfold effKey; rw [if_neg (by omega)]
  have hk0 : k ≠ [] := by rintro rfl; simp at hk
  rw [effText_small hm, ht]
  refine entails_ex_l fun a' => entails_pand_l fun h => ?_
  rcases h with ⟨rfl, hb, rfl⟩ | ⟨rfl, hb, rfl, c, hc, h2⟩ | ⟨rfl, hb, c, hc, rfl⟩
  · simp [hk0, hm0] at hb
  · cases hc; simp [maxObj, clen] at h2
  · cases hc
    simp only [Option.getD, List.nil_append]
    have hl : (List.replicate 32 Val.undef).drop 32 = [] := by simp
    rw [hl, List.append_nil]
    exact entails_pand_r (entails_refl _) trivial

/-! ## The hypotheses can be met -/

/-- A context filled with a pattern, as uninitialised memory may be. -/
def junk (w n : Nat) : Ctx w where
  Intermediate_Hash := List.replicate 8 7
  Length_Low := 5
  Length_High := 3
  Message_Block_Index := 9
  Message_Block := List.replicate n 0xAA
  Computed := 1
  Corrupted := 1

def junkU : USHAContext := ⟨77, junk 32 64, junk 32 64, junk 64 128⟩
def junkL : Locals := ⟨junkU, ⟨9, 9, 9, junkU, [1, 2, 3]⟩, ⟨1, 2, 3⟩⟩

example : Sized junkL.tctx ∧ Sized junkL.ctx.shaContext := by
  constructor <;> exact ⟨rfl, rfl, rfl⟩

/-- RFC 4231, test case 1, run on the model. -/
theorem rfc4231_1 :
    outcome (do
      let h ← BUFFER_new
      let r ← HMACSHA256_ComputeHash junkL (.lit (List.replicate 20 0x0b)) 20 (.lit [0x48, 0x69, 0x20, 0x54, 0x68, 0x65, 0x72, 0x65]) 8 h
      let n ← BUFFER_length h
      let p ← BUFFER_u_char h
      let vs ← loadN p 0 32
      pure (r, n, vs)) (St.start bump) =
    some (.ok (.OK, 32, bytesV [0xb0, 0x34, 0x4c, 0x61, 0xd8, 0xdb, 0x38, 0x53, 0x5c, 0xa8, 0xaf, 0xce, 0xaf, 0x0b, 0xf1, 0x2b,
      0x88, 0x1d, 0xc2, 0x00, 0xc9, 0x83, 0x3d, 0xa7, 0x26, 0xe9, 0x37, 0x6c, 0x2e, 0x32, 0xcf, 0xf7])) := by
  decide +kernel

theorem same_digest {α β : Type} {x : Option ((Nat × α) × β)} {a b : α} {st : β} (h1 : x.map Prod.fst = some (0, a))
    (h2 : x = some ((0, b), st)) : b = a := by
  subst h2; exact congrArg Prod.snd (Option.some.inj h1)

/-- The specification gives the same (RFC 4231, test case 2: key "Jefe", text "what do ya want for nothing?"). -/
theorem rfc4231_2 :
    rfc2104 Fips.SHA256 [0x4a, 0x65, 0x66, 0x65]
      [0x77, 0x68, 0x61, 0x74, 0x20, 0x64, 0x6f, 0x20, 0x79, 0x61, 0x20, 0x77, 0x61, 0x6e, 0x74, 0x20, 0x66, 0x6f, 0x72, 0x20, 0x6e, 0x6f, 0x74, 0x68, 0x69, 0x6e, 0x67, 0x3f] =
      [0x5b, 0xdc, 0xc1, 0x46, 0xbf, 0x60, 0x75, 0x4e, 0x6a, 0x04, 0x24, 0x26, 0x08, 0x95, 0x75, 0xc7,
       0x5a, 0x00, 0x3f, 0x08, 0x9d, 0x27, 0x39, 0x83, 0x9d, 0xec, 0x58, 0xb9, 0x64, 0xec, 0x38, 0x43] := by
  have h1 : (hmac junkL.tctx junkL.ctx SHA256 (some [0x77, 0x68, 0x61, 0x74, 0x20, 0x64, 0x6f, 0x20, 0x79, 0x61, 0x20, 0x77, 0x61, 0x6e, 0x74, 0x20, 0x66, 0x6f, 0x72, 0x20, 0x6e, 0x6f, 0x74, 0x68, 0x69, 0x6e, 0x67, 0x3f]) 28 [0x4a, 0x65, 0x66, 0x65] 4 junkL.st).map Prod.fst =
    some (0, [0x5b, 0xdc, 0xc1, 0x46, 0xbf, 0x60, 0x75, 0x4e, 0x6a, 0x04, 0x24, 0x26, 0x08, 0x95, 0x75, 0xc7,
       0x5a, 0x00, 0x3f, 0x08, 0x9d, 0x27, 0x39, 0x83, 0x9d, 0xec, 0x58, 0xb9, 0x64, 0xec, 0x38, 0x43]) := by decide +kernel
  obtain ⟨st', h2⟩ := hmac_rfc2104 .sha256 (tctx := junkL.tctx) (ctx := junkL.ctx) ⟨rfl, rfl, rfl⟩ ⟨rfl, rfl, rfl⟩ junkL.st
    [0x4a, 0x65, 0x66, 0x65] [0x77, 0x68, 0x61, 0x74, 0x20, 0x64, 0x6f, 0x20, 0x79, 0x61, 0x20, 0x77, 0x61, 0x6e, 0x74, 0x20, 0x66, 0x6f, 0x72, 0x20, 0x6e, 0x6f, 0x74, 0x68, 0x69, 0x6e, 0x67, 0x3f] (text_len := 28) (by simp) (by decide)
  exact same_digest h1 h2

/-- A buffer that is not empty is not appended to: the MAC overwrites its beginning, and the 32 bytes added at its end are uninitialised. -/
theorem nonempty_buffer :
    outcome (do
      let h ← BUFFER_create (.lit [1, 2, 3]) 3
      let r ← HMACSHA256_ComputeHash junkL (.lit [0x4a, 0x65, 0x66, 0x65]) 4 (.lit [0x48]) 1 h
      let n ← BUFFER_length h
      let p ← BUFFER_u_char h
      let vs ← loadN p 32 3
      pure (r, n, vs)) (St.start bump) = some (.ok (.OK, 35, [.undef, .undef, .undef])) := by
  decide +kernel

end Verif.Hmac
