import Verif.Mem
/-!
# Model of `adapters/uniqueid_stub.c`

`rand()` is a parameter.  The local arrays are Lean lists of their length, accessed only at loop indices below it.
`uid` is a block of the caller.  Logging is left out.
-/
namespace Verif.Uid

/-- `UNIQUEID_RESULT`, inc/azure_c_shared_utility/uniqueid.h -/
inductive UNIQUEID_RESULT | ok | invalid_arg | error
  deriving DecidableEq, Repr

/-- `tochar`, adapters/uniqueid_stub.c:12 -/
def tochar : List UInt8 := [48, 49, 50, 51, 52, 53, 54, 55, 56, 57, 65, 66, 67, 68, 69, 70]

section
variable (rand : M Nat)

/-- the loop of adapters/uniqueid_stub.c:17-20, `n` iterations left -/
def fillRand : (n : Nat) → (arrayIndex : Nat) → List UInt8 → M (List UInt8)
  | 0, _, a => pure a
  | n + 1, arrayIndex, a => do
    let r ← rand
    fillRand n (arrayIndex + 1) (a.set arrayIndex (UInt8.ofNat r))

/-- `generate128BitUUID`, adapters/uniqueid_stub.c:13-34; `a` is the content of the array before the call -/
def generate128BitUUID (a : List UInt8) : M (List UInt8) := do
  let a ← fillRand rand 16 0 a
  let a := a.set 7 (a.getD 7 0 &&& 0x0f)
  let a := a.set 7 (a.getD 7 0 ||| 0x40)
  let a := a.set 8 (a.getD 8 0 &&& 0xf3)
  let a := a.set 8 (a.getD 8 0 ||| 0x08)
  pure a

/-- the inner loop, adapters/uniqueid_stub.c:59-70: `n` iterations left; returns the array and the position -/
def putNibbles (uid : Ptr) (arrayIndex : Nat) : (n : Nat) → List UInt8 → (characterPosition : Nat) → M (List UInt8 × Nat)
  | 0, a, characterPosition => pure (a, characterPosition)
  | n + 1, a, characterPosition => do
    let hexChar := tochar.getD (a.getD arrayIndex 0 &&& 0xf).toNat 0
    let characterPosition ← if characterPosition = 8 ∨ characterPosition = 13 ∨ characterPosition = 18 ∨ characterPosition = 23 then do
        store uid characterPosition (.byte 45)
        pure (characterPosition + 1)
      else pure characterPosition
    store uid characterPosition (.byte hexChar)
    putNibbles uid arrayIndex n (a.set arrayIndex (a.getD arrayIndex 0 >>> 4)) (characterPosition + 1)

/-- the outer loop, adapters/uniqueid_stub.c:57-71: `n` iterations left -/
def putBytes (uid : Ptr) : (n : Nat) → (arrayIndex : Nat) → List UInt8 → (characterPosition : Nat) → M Nat
  | 0, _, _, characterPosition => pure characterPosition
  | n + 1, arrayIndex, a, characterPosition => do
    let x ← putNibbles uid arrayIndex 2 a characterPosition
    putBytes uid n (arrayIndex + 1) x.1 x.2

/-- `UniqueId_Generate`, adapters/uniqueid_stub.c:37-76; `arrayOfChar` is the (indeterminate) initial content of the
local array. -/
def UniqueId_Generate (arrayOfChar : List UInt8) (uid : Ptr) (len : Nat) : M UNIQUEID_RESULT := do
  if uid = 0 ∨ len < 37 then pure .invalid_arg else do
  let a ← generate128BitUUID rand arrayOfChar
  let characterPosition ← putBytes uid 16 0 a 0
  store uid characterPosition (.byte 0)
  pure .ok

end
end Verif.Uid
