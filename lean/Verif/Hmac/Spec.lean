import Verif.Sha.Fips
/-!
# Specification: RFC 2104
-/
namespace Verif.Hmac
open Verif.Sha

/-- §2: the key is hashed if it is longer than a block, then zero-padded to the size of a block. -/
def blockKey (h : Fips.Hash) (key : List UInt8) : List UInt8 :=
  let k := if key.length > 2 * h.w then h.ofBytes key else key
  k ++ List.replicate (2 * h.w - k.length) 0

/-- `H(K XOR opad, H(K XOR ipad, text))`; a block has `2 w` bytes (16 words of `w` bits) -/
def rfc2104 (h : Fips.Hash) (key text : List UInt8) : List UInt8 :=
  h.ofBytes ((blockKey h key).map (· ^^^ 0x5c) ++ h.ofBytes ((blockKey h key).map (· ^^^ 0x36) ++ text))

end Verif.Hmac
