import Verif.Sha.History
/-!
# Concrete cases

The code is run on the example messages of the standard (FIPS 180-2 appendices A-D); with `digest` this also shows that the specification gives the
published digests.
-/
namespace Verif.Sha

/-- A context with arbitrary stale contents. -/
def stale (w : Nat) : Ctx w :=
  { Intermediate_Hash := [], Length_Low := 5#w, Length_High := 7#w, Message_Block_Index := 999
    Message_Block := List.replicate (2 * w) 0xaa, Computed := 1, Corrupted := 3 }

def ascii (s : String) : List UInt8 := s.toList.map fun c => UInt8.ofNat c.toNat

/-- The digest the code computes for a message given in parts. -/
def run (v : Which) (parts : List (List UInt8)) : Option (Nat × List UInt8) :=
  ((v.api.run (.reset :: parts.map .input ++ [.result]) ⟨stale _, 9#_⟩).map fun r => r.1.getLast?).join

theorem run_eq (v : Which) (parts : List (List UInt8)) (hl : 8 * parts.flatten.length < 2 ^ (2 * v.hash.w)) :
    run v parts = some (0, v.hash.ofBytes parts.flatten) := by
  obtain ⟨s', h⟩ := digest v (stale _) 9#_ (by simp [stale]) parts hl
  unfold run
  rw [h]
  rw [Option.map_some, Option.join_some]
  exact List.getLast?_concat ..

theorem pow_big (v : Which) : 2 ^ 64 ≤ 2 ^ (2 * v.hash.w) := by
  refine Nat.pow_le_pow_right (by decide) ?_
  cases v <;> decide

/-- FIPS 180-2 appendix A.1, given in two parts -/
theorem sha1_abc_run : run .sha1 [ascii "a", ascii "bc"] =
    some (0, [0xa9, 0x99, 0x3e, 0x36, 0x47, 0x06, 0x81, 0x6a, 0xba, 0x3e, 0x25, 0x71, 0x78, 0x50, 0xc2, 0x6c, 0x9c, 0xd0, 0xd8, 0x9d]) := by
  decide +kernel

theorem sha1_abc : Fips.SHA1.ofBytes (ascii "abc") =
    [0xa9, 0x99, 0x3e, 0x36, 0x47, 0x06, 0x81, 0x6a, 0xba, 0x3e, 0x25, 0x71, 0x78, 0x50, 0xc2, 0x6c, 0x9c, 0xd0, 0xd8, 0x9d] := by
  have h := run_eq .sha1 [ascii "a", ascii "bc"] (Nat.lt_of_lt_of_le (by decide) (pow_big _))
  rw [sha1_abc_run, show [ascii "a", ascii "bc"].flatten = ascii "abc" by decide] at h
  exact ((Prod.mk.inj (Option.some.inj h)).2).symm

/-- FIPS 180-2 change notice 1: SHA-224 of "abc" -/
theorem sha224_abc_run : run .sha224 [ascii "", ascii "abc", ascii ""] =
    some (0, [0x23, 0x09, 0x7d, 0x22, 0x34, 0x05, 0xd8, 0x22, 0x86, 0x42, 0xa4, 0x77, 0xbd, 0xa2, 0x55, 0xb3, 0x2a, 0xad, 0xbc, 0xe4,
      0xbd, 0xa0, 0xb3, 0xf7, 0xe3, 0x6c, 0x9d, 0xa7]) := by
  decide +kernel

/-- FIPS 180-2 appendix B.1 -/
theorem sha256_abc_run : run .sha256 [ascii "ab", ascii "c"] =
    some (0, [0xba, 0x78, 0x16, 0xbf, 0x8f, 0x01, 0xcf, 0xea, 0x41, 0x41, 0x40, 0xde, 0x5d, 0xae, 0x22, 0x23, 0xb0, 0x03, 0x61, 0xa3,
      0x96, 0x17, 0x7a, 0x9c, 0xb4, 0x10, 0xff, 0x61, 0xf2, 0x00, 0x15, 0xad]) := by
  decide +kernel

theorem sha256_abc : Fips.SHA256.ofBytes (ascii "abc") =
    [0xba, 0x78, 0x16, 0xbf, 0x8f, 0x01, 0xcf, 0xea, 0x41, 0x41, 0x40, 0xde, 0x5d, 0xae, 0x22, 0x23, 0xb0, 0x03, 0x61, 0xa3,
      0x96, 0x17, 0x7a, 0x9c, 0xb4, 0x10, 0xff, 0x61, 0xf2, 0x00, 0x15, 0xad] := by
  have h := run_eq .sha256 [ascii "ab", ascii "c"] (Nat.lt_of_lt_of_le (by decide) (pow_big _))
  rw [sha256_abc_run, show [ascii "ab", ascii "c"].flatten = ascii "abc" by decide] at h
  exact ((Prod.mk.inj (Option.some.inj h)).2).symm

/-- FIPS 180-2 appendix B.2: two blocks -/
theorem sha256_two_blocks : run .sha256 [ascii "abcdbcdecdefdefgefghfghighijhijkijkl", ascii "jklmklmnlmnomnopnopq"] =
    some (0, [0x24, 0x8d, 0x6a, 0x61, 0xd2, 0x06, 0x38, 0xb8, 0xe5, 0xc0, 0x26, 0x93, 0x0c, 0x3e, 0x60, 0x39, 0xa3, 0x3c, 0xe4, 0x59,
      0x64, 0xff, 0x21, 0x67, 0xf6, 0xec, 0xed, 0xd4, 0x19, 0xdb, 0x06, 0xc1]) := by
  decide +kernel

/-- FIPS 180-2 appendix D.1 -/
theorem sha384_abc_run : run .sha384 [ascii "abc"] =
    some (0, [0xcb, 0x00, 0x75, 0x3f, 0x45, 0xa3, 0x5e, 0x8b, 0xb5, 0xa0, 0x3d, 0x69, 0x9a, 0xc6, 0x50, 0x07, 0x27, 0x2c, 0x32, 0xab,
      0x0e, 0xde, 0xd1, 0x63, 0x1a, 0x8b, 0x60, 0x5a, 0x43, 0xff, 0x5b, 0xed, 0x80, 0x86, 0x07, 0x2b, 0xa1, 0xe7, 0xcc, 0x23,
      0x58, 0xba, 0xec, 0xa1, 0x34, 0xc8, 0x25, 0xa7]) := by
  decide +kernel

/-- FIPS 180-2 appendix C.1 -/
theorem sha512_abc_run : run .sha512 [ascii "abc"] =
    some (0, [0xdd, 0xaf, 0x35, 0xa1, 0x93, 0x61, 0x7a, 0xba, 0xcc, 0x41, 0x73, 0x49, 0xae, 0x20, 0x41, 0x31, 0x12, 0xe6, 0xfa, 0x4e,
      0x89, 0xa9, 0x7e, 0xa2, 0x0a, 0x9e, 0xee, 0xe6, 0x4b, 0x55, 0xd3, 0x9a, 0x21, 0x92, 0x99, 0x2a, 0x27, 0x4f, 0xc1, 0xa8,
      0x36, 0xba, 0x3c, 0x23, 0xa3, 0xfe, 0xeb, 0xbd, 0x45, 0x4d, 0x44, 0x23, 0x64, 0x3c, 0xe8, 0x0e, 0x2a, 0x9a, 0xc9, 0x4f,
      0xa5, 0x4c, 0xa4, 0x9f]) := by
  decide +kernel

/-- The hypothesis of `misuse` is met: Result succeeds, Input then fails, so does Result, Reset repairs. -/
theorem misuse_case : ((Which.sha256.api.run [.reset, .input (ascii "x"), .result, .input (ascii "y"), .result, .input [], .finalBits 0 3,
      .reset, .input (ascii "x"), .result] ⟨stale _, 0#_⟩).map fun r => r.1.map (·.1)) = some [0, 0, 0, 3, 3, 0, 3, 0, 0, 0] := by
  decide +kernel

end Verif.Sha
