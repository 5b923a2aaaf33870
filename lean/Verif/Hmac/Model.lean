import Verif.Sha.Model
import Verif.Buffer.Model
/-!
# Model of `/repo/src/usha.c`, `/repo/src/hmac.c`, `/repo/src/hmacsha256.c`

The union of contexts in `USHAContext` (sha.h:155-162) is modelled by separate members: after `USHAReset` only the member of the selected
hash is used, and the theorems hold for arbitrary previous contents of the members (the arrays have their declared sizes).  The contexts passed
to these functions are not NULL.  The file-scope variables `addTemp` of the three files are the state `Statics`; undefined behaviour is `none`.
-/
namespace Verif.Hmac
open Verif.Sha

/-- The variables `addTemp` of sha1.c:59, sha224.c:70, sha384-512.c:300. -/
structure Statics where
  t1 : BitVec 32
  t256 : BitVec 32
  t512 : BitVec 64

/-- sha.h:155-162 -/
structure USHAContext where
  whichSha : Nat
  sha1Context : Ctx 32
  sha256Context : Ctx 32
  sha512Context : Ctx 64

abbrev U := StateT Statics Option

/-- Call a function of sha1.c on the context. -/
def on1 {α : Type} (x : S 32 α) (u : USHAContext) : U (α × USHAContext) := fun st =>
  match x ⟨u.sha1Context, st.t1⟩ with
  | none => none
  | some (a, s) => some ((a, { u with sha1Context := s.ctx }), { st with t1 := s.addTemp })

/-- Call a function of sha224.c on the context. -/
def on256 {α : Type} (x : S 32 α) (u : USHAContext) : U (α × USHAContext) := fun st =>
  match x ⟨u.sha256Context, st.t256⟩ with
  | none => none
  | some (a, s) => some ((a, { u with sha256Context := s.ctx }), { st with t256 := s.addTemp })

/-- Call a function of sha384-512.c on the context. -/
def on512 {α : Type} (x : S 64 α) (u : USHAContext) : U (α × USHAContext) := fun st =>
  match x ⟨u.sha512Context, st.t512⟩ with
  | none => none
  | some (a, s) => some ((a, { u with sha512Context := s.ctx }), { st with t512 := s.addTemp })

/-- sha.h:78-80 -/
abbrev SHA1 : Nat := 0
abbrev SHA224 : Nat := 1
abbrev SHA256 : Nat := 2
abbrev SHA384 : Nat := 3
abbrev SHA512 : Nat := 4

/-- usha.c:36-52 -/
def USHAReset (u : USHAContext) (whichSha : Nat) : U (Nat × USHAContext) :=
  let u := { u with whichSha := whichSha }
  match whichSha with
  | 0 => on1 SHA1Reset u
  | 1 => on256 SHA224Reset u
  | 2 => on256 SHA256Reset u
  | 3 => on512 SHA384Reset u
  | 4 => on512 SHA512Reset u
  | _ => pure (shaBadParam, u)

/-- usha.c:74-99 -/
def USHAInput (u : USHAContext) (bytes : Option (List UInt8)) (bytecount : Nat) : U (Nat × USHAContext) :=
  match u.whichSha with
  | 0 => on1 (SHA1Input bytes bytecount) u
  | 1 => on256 (SHA224Input bytes bytecount) u
  | 2 => on256 (SHA256Input bytes bytecount) u
  | 3 => on512 (SHA384Input bytes bytecount) u
  | 4 => on512 (SHA512Input bytes bytecount) u
  | _ => pure (shaBadParam, u)

/-- usha.c:120-145 -/
def USHAFinalBits (u : USHAContext) (bits : UInt8) (bitcount : Nat) : U (Nat × USHAContext) :=
  match u.whichSha with
  | 0 => on1 (SHA1FinalBits bits bitcount) u
  | 1 => on256 (SHA224FinalBits bits bitcount) u
  | 2 => on256 (SHA256FinalBits bits bitcount) u
  | 3 => on512 (SHA384FinalBits bits bitcount) u
  | 4 => on512 (SHA512FinalBits bits bitcount) u
  | _ => pure (shaBadParam, u)

/-- usha.c:166-187; the bytes stored in `Message_Digest` are returned -/
def USHAResult (u : USHAContext) : U ((Nat × List UInt8) × USHAContext) :=
  match u.whichSha with
  | 0 => on1 SHA1Result u
  | 1 => on256 SHA224Result u
  | 2 => on256 SHA256Result u
  | 3 => on512 SHA384Result u
  | 4 => on512 SHA512Result u
  | _ => pure ((shaBadParam, []), u)

/-- usha.c:204-214; sha.h:62-65 -/
def USHABlockSize (whichSha : Nat) : Nat :=
  match whichSha with
  | 0 => 64
  | 1 => 64
  | 2 => 64
  | 3 => 128
  | _ => 128

/-- usha.c:231-241; sha.h:67-69 -/
def USHAHashSize (whichSha : Nat) : Nat :=
  match whichSha with
  | 0 => 20
  | 1 => 28
  | 2 => 32
  | 3 => 48
  | _ => 64

/-- usha.c:258-268; sha.h:71-73 -/
def USHAHashSizeBits (whichSha : Nat) : Nat :=
  match whichSha with
  | 0 => 160
  | 1 => 224
  | 2 => 256
  | 3 => 384
  | _ => 512

/-- sha.h:168-175 -/
structure HMACContext where
  whichSha : Nat
  hashSize : Nat
  blockSize : Nat
  shaContext : USHAContext
  k_opad : List UInt8

/-- `a || b`: 0 or 1, the second operand is evaluated only if the first is 0 -/
def truth (n : Nat) : Nat := if n ≠ 0 then 1 else 0

/-- hmac.c:123-126: `for (i = 0; i < key_len; i++) k_pad[i] = key[i] ^ x;` with `n` iterations left, for one of the two arrays (of 128 bytes);
`pad` holds the elements assigned so far -/
def xorLoop (x : UInt8) (key : List UInt8) : Nat → List UInt8 → Option (List UInt8)
  | 0, pad => some pad
  | n + 1, pad =>
    if pad.length < 128 then
      match key[pad.length]? with
      | none => none
      | some k => xorLoop x key n (pad ++ [k ^^^ x])
    else none

/-- hmac.c:128-131: `for (; i < blocksize; i++) k_pad[i] = x;` with `n` iterations left -/
def fillLoop (x : UInt8) : Nat → List UInt8 → Option (List UInt8)
  | 0, pad => some pad
  | n + 1, pad => if pad.length < 128 then fillLoop x n (pad ++ [x]) else none

def lift {α : Type} (x : Option α) : U α := fun st => x.map fun a => (a, st)

/-- The conversion from `int` to `unsigned int` -/
def toUnsigned (n : Int) : Nat := (n % 2 ^ 32).toNat

/-- The block of hmac.c:100-109: `key = HASH(key)`; `none` on the right is an error return -/
def hashKey (tctx : USHAContext) (whichSha : Nat) (key : List UInt8) (key_len : Int) : U (Option (List UInt8)) := do
  let (e1, tctx) ← USHAReset tctx whichSha
  if e1 ≠ 0 then pure none
  else
    let (e2, tctx) ← USHAInput tctx (some key) (toUnsigned key_len)
    if e2 ≠ 0 then pure none
    else
      let ((e3, tempkey), _) ← USHAResult tctx
      if e3 ≠ 0 then pure none else pure (some tempkey)

/-- hmac.c:123-137, for the effective key -/
def hmacPads (ctx : HMACContext) (whichSha : Nat) (key : List UInt8) (key_len : Int) : U (Nat × HMACContext) := do
  let k_ipad ← lift (xorLoop 0x36 key key_len.toNat [])
  let k_opad ← lift (xorLoop 0x5c key key_len.toNat [])
  let k_ipad ← lift (fillLoop 0x36 (ctx.blockSize - k_ipad.length) k_ipad)
  let k_opad ← lift (fillLoop 0x5c (ctx.blockSize - k_opad.length) k_opad)
  let ctx := { ctx with k_opad := k_opad }
  let (e1, u) ← USHAReset ctx.shaContext whichSha
  if e1 ≠ 0 then pure (1, { ctx with shaContext := u })
  else
    let (e2, u) ← USHAInput u (some k_ipad) ctx.blockSize
    pure (truth e2, { ctx with shaContext := u })

/-- hmac.c:78-138; `tctx` is the uninitialised local context, `key` the bytes from the pointer to the end of the caller's array -/
def hmacReset (tctx : USHAContext) (ctx : HMACContext) (whichSha : Nat) (key : List UInt8) (key_len : Int) : U (Nat × HMACContext) := do
  let ctx := { ctx with blockSize := USHABlockSize whichSha, hashSize := USHAHashSize whichSha, whichSha := whichSha }
  if key_len > ctx.blockSize then
    match ← hashKey tctx whichSha key key_len with
    | none => pure (1, ctx)
    | some tempkey => hmacPads ctx whichSha tempkey ctx.hashSize
  else hmacPads ctx whichSha key key_len

/-- hmac.c:160-166 -/
def hmacInput (ctx : HMACContext) (text : Option (List UInt8)) (text_len : Int) : U (Nat × HMACContext) := do
  let (e, u) ← USHAInput ctx.shaContext text (toUnsigned text_len)
  pure (e, { ctx with shaContext := u })

/-- hmac.c:187-194 -/
def hmacFinalBits (ctx : HMACContext) (bits : UInt8) (bitcount : Nat) : U (Nat × HMACContext) := do
  let (e, u) ← USHAFinalBits ctx.shaContext bits bitcount
  pure (e, { ctx with shaContext := u })

/-- hmac.c:217-237; the second component is what the digest array holds, from its start -/
def hmacResult (ctx : HMACContext) : U ((Nat × List UInt8) × HMACContext) := do
  let ((e1, digest), u) ← USHAResult ctx.shaContext
  if e1 ≠ 0 then pure ((1, digest), { ctx with shaContext := u })
  else
    let (e2, u) ← USHAReset u ctx.whichSha
    if e2 ≠ 0 then pure ((1, digest), { ctx with shaContext := u })
    else
      let (e3, u) ← USHAInput u (some ctx.k_opad) ctx.blockSize
      if e3 ≠ 0 then pure ((1, digest), { ctx with shaContext := u })
      else
        let (e4, u) ← USHAInput u (some digest) ctx.hashSize
        if e4 ≠ 0 then pure ((1, digest), { ctx with shaContext := u })
        else
          let ((e5, digest), u) ← USHAResult u
          pure ((truth e5, digest), { ctx with shaContext := u })

/-- hmac.c:47-55; `ctx` and `tctx` are the uninitialised local contexts, `text` and `key` the bytes from the pointers to the ends of the
caller's arrays -/
def hmac (tctx : USHAContext) (ctx : HMACContext) (whichSha : Nat) (text : Option (List UInt8)) (text_len : Int) (key : List UInt8) (key_len : Int) :
    U (Nat × List UInt8) := do
  let (e1, ctx) ← hmacReset tctx ctx whichSha key key_len
  if e1 ≠ 0 then pure (1, [])
  else
    let (e2, ctx) ← hmacInput ctx text text_len
    if e2 ≠ 0 then pure (1, [])
    else
      let ((e3, digest), _) ← hmacResult ctx
      pure (truth e3, digest)

/-! ## hmacsha256.c -/

/-- The conversion `(int)` of a `size_t` -/
def toInt (n : Nat) : Int := if n % 2 ^ 32 < 2 ^ 31 then (n % 2 ^ 32 : Nat) else (n % 2 ^ 32 : Nat) - 2 ^ 32

/-- The uninitialised locals of `hmac` and `hmacReset`, and the file-scope variables -/
structure Locals where
  tctx : USHAContext
  ctx : HMACContext
  st : Statics

/-- The first `n` bytes at a pointer. -/
def readBytes (p : CharPtr) (n : Nat) : M (List UInt8) :=
  if n = 0 then pure [] else do
    let vs ← storage p
    if n ≤ vs.length then go (vs.take n) else Verif.ub "read past the end"
where
  go : List Val → M (List UInt8)
    | [] => pure []
    | .byte b :: vs => do
      let bs ← go vs
      pure (b :: bs)
    | _ :: _ => Verif.ub "uninitialised or non-byte value"

inductive HMACSHA256_RESULT where
  | OK | INVALID_ARG | ERROR
  deriving DecidableEq, Repr

/-- hmacsha256.c:14-43.  `hmac` reads `key_len` bytes of the key (none if negative) and `text_len`, converted to unsigned, bytes of the payload, and
writes the digest at the start of the buffer. -/
def HMACSHA256_ComputeHash (l : Locals) (key : CharPtr) (keyLen : Nat) (payload : CharPtr) (payloadLen : Nat) (hash : Ptr) : M HMACSHA256_RESULT := do
  if key = .null ∨ keyLen = 0 ∨ payload = .null ∨ payloadLen = 0 ∨ hash = 0 then pure .INVALID_ARG
  else
    let e ← Buffer.BUFFER_enlarge hash 32
    if e ≠ 0 then pure .ERROR
    else
      let out ← Buffer.BUFFER_u_char hash
      let text ← readBytes payload (toUnsigned (toInt payloadLen))
      let k ← readBytes key (toInt keyLen).toNat
      match hmac l.tctx l.ctx SHA256 (some text) (toInt payloadLen) k (toInt keyLen) l.st with
      | none => Verif.ub "in hmac"
      | some ((e, digest), _) =>
        storeN out 0 (bytesV digest)
        if e ≠ 0 then pure .ERROR else pure .OK

end Verif.Hmac
