import Verif.Uid.Model
import Verif.World
/-! # What `UniqueId_Generate` promises -/
namespace Verif.Uid

/-- an upper-case hexadecimal digit -/
def hexDigit (n : Nat) : UInt8 := if n < 10 then UInt8.ofNat (48 + n) else UInt8.ofNat (55 + n)

/-- the 32 digits of 16 bytes: of each byte the low half first -/
def digits (bs : List UInt8) : List UInt8 := bs.flatMap fun b => [hexDigit (b.toNat % 16), hexDigit (b.toNat / 16)]

/-- the canonical 8-4-4-4-12 layout -/
def text (bs : List UInt8) : List UInt8 :=
  let d := digits bs
  d.take 8 ++ [45] ++ (d.drop 8).take 4 ++ [45] ++ (d.drop 12).take 4 ++ [45] ++ (d.drop 16).take 4 ++ [45] ++ d.drop 20

/-- Byte `i` of the identifier made from the random values `rs`: the low 8 bits of value `i`, except that the upper half
of byte 7 is 4, and bits 2-3 of byte 8 are 10. -/
def uuid (rs : List Nat) : List UInt8 :=
  (List.range 16).map fun i =>
    let r := rs.getD i 0 % 256
    UInt8.ofNat (if i = 7 then 64 + r % 16 else if i = 8 then r / 16 * 16 + 8 + r % 4 else r)

/-- Contract of the random source: `Net rs` is its memory after returning the values `rs`. -/
def Honours (rel : Prop) (rand : M Nat) (Net : List Nat → HProp) : Prop :=
  ∀ rs, Triple rel (Net rs) rand (fun r => Net (rs ++ [r]))

end Verif.Uid
