/-!
# Model of `/repo/src/sha1.c`, `/repo/src/sha224.c`, `/repo/src/sha384-512.c`

The three files hold the same code for the streaming interface (Reset, Input, FinalBits, Result, Finalize, PadMessage), up to
the names, the word size `w` (32, 32, 64), the block size (64, 64, 128 bytes, i.e. `2 * w`), the number of hash words and
`ProcessMessageBlock`.  That code is modelled once, for an `Alg w` which holds what differs; `ProcessMessageBlock` is modelled
separately for each file.  The configuration is the one the build files select: neither `USE_32BIT_ONLY` nor
`USE_MODIFIED_MACROS` is defined.

A context is a structure value; every access to one of its arrays, to the array `W`, to the table `K` and to the caller's array is
checked, and a failing check (undefined behaviour) is the failure of the monad `S` (`none`).  The file-scope variable `addTemp` is part
of the state, because it is shared by all contexts (see `Threads`).  Loops are structural recursions on the remaining count.
Writing the digest to the caller's array is modelled by returning the list of bytes written.
-/
namespace Verif.Sha

/-- inc/azure_c_shared_utility/sha.h:85-95, 101-113, 118-134 -/
structure Ctx (w : Nat) where
  Intermediate_Hash : List (BitVec w)
  Length_Low : BitVec w
  Length_High : BitVec w
  Message_Block_Index : Nat
  Message_Block : List UInt8
  Computed : Nat
  Corrupted : Nat
  deriving DecidableEq, Repr

/-- A context and the file-scope variable `addTemp` (sha1.c:59, sha224.c:70, sha384-512.c:300). -/
structure Sh (w : Nat) where
  ctx : Ctx w
  addTemp : BitVec w
  deriving DecidableEq, Repr

/-- Computations on a context; `none` is undefined behaviour. -/
abbrev S (w : Nat) := StateT (Sh w) Option

def ub {w : Nat} {α : Type} : S w α := fun _ => none

/-- sha.h:47-53 -/
abbrev shaSuccess : Nat := 0
abbrev shaNull : Nat := 1
abbrev shaStateError : Nat := 3
abbrev shaBadParam : Nat := 4

/-- What differs between the three files: the size of `Message_Block` and the body of `ProcessMessageBlock` as a function of
`Intermediate_Hash` and `Message_Block`. -/
structure Alg (w : Nat) where
  Message_Block_Size : Nat
  compress : List (BitVec w) → List UInt8 → Option (List (BitVec w))

variable {w : Nat}

def modifyCtx (f : Ctx w → Ctx w) : S w Unit := modify fun s => { s with ctx := f s.ctx }
def getCtx : S w (Ctx w) := do pure (← get).ctx

/-- `context->Message_Block[i] = v;` -/
def setBlock (a : Alg w) (i : Nat) (v : UInt8) : S w Unit :=
  if i < a.Message_Block_Size then modifyCtx fun c => { c with Message_Block := c.Message_Block.set i v } else ub

/-- `context->Message_Block[context->Message_Block_Index++] = v;` -/
def push (a : Alg w) (v : UInt8) : S w Unit := do
  let c ← getCtx
  setBlock a c.Message_Block_Index v
  modifyCtx fun c => { c with Message_Block_Index := c.Message_Block_Index + 1 }

/-- sha1.c:366-441, sha224.c:452-522, sha384-512.c:730-938 -/
def ProcessMessageBlock (a : Alg w) : S w Unit := do
  let c ← getCtx
  match a.compress c.Intermediate_Hash c.Message_Block with
  | none => ub
  | some h => modifyCtx fun c => { c with Intermediate_Hash := h, Message_Block_Index := 0 }

/-- First operand of the `AddLength` macro: `addTemp = context->Length_Low` (sha1.c:61, sha224.c:72, sha384-512.c:302) -/
def saveLow : S w Unit := modify fun s => { s with addTemp := s.ctx.Length_Low }

/-- Second operand of the `AddLength` macro (sha1.c:62-64, sha224.c:72-74, sha384-512.c:302-304) -/
def addCheck (length : Nat) : S w Nat := do
  modifyCtx fun c => { c with Length_Low := c.Length_Low + BitVec.ofNat w length }
  let s ← get
  if s.ctx.Length_Low < s.addTemp then
    modifyCtx fun c => { c with Length_High := c.Length_High + 1#w }
    let c ← getCtx
    if c.Length_High = 0#w then
      modifyCtx fun c => { c with Corrupted := 1 }
      pure 1
    else
      modifyCtx fun c => { c with Corrupted := 0 }
      pure 0
  else
    modifyCtx fun c => { c with Corrupted := 0 }
    pure 0

/-- The macro `AddLength` (sha1.c:60-64, sha224.c:71-74, sha384-512.c:301-304) -/
def AddLength (length : Nat) : S w Nat := do
  saveLow
  addCheck length

/-- `while (Message_Block_Index < limit) Message_Block[Message_Block_Index++] = 0;`; `fuel` is an upper bound of the number of
iterations, the callers pass the size of the block (sha1.c:321-322, 329-330, sha224.c:408-409, 415-416, sha384-512.c:654-655, 662-663) -/
def zeroFill (a : Alg w) (limit : Nat) : Nat → S w Unit
  | 0 => do
    let c ← getCtx
    if c.Message_Block_Index < limit then ub else pure ()
  | fuel + 1 => do
    let c ← getCtx
    if c.Message_Block_Index < limit then
      push a 0
      zeroFill a limit fuel
    else pure ()

/-- `(uint8_t)(x >> sh)` -/
def byteAt (x : BitVec w) (sh : Nat) : UInt8 := UInt8.ofBitVec ((x >>> sh).setWidth 8)

/-- The assignments of the bytes of one length word, most significant first: `n` bytes are left (sha1.c:335-343, sha224.c:421-428,
sha384-512.c:687-703) -/
def storeWord (a : Alg w) (x : BitVec w) (at_ : Nat) : Nat → S w Unit
  | 0 => pure ()
  | n + 1 => do
    setBlock a at_ (byteAt x (8 * n))
    storeWord a x (at_ + 1) n

/-- sha1.c:311-346, sha224.c:397-431, sha384-512.c:643-707 -/
def PadMessage (a : Alg w) (Pad_Byte : UInt8) : S w Unit := do
  let c ← getCtx
  if c.Message_Block_Index ≥ a.Message_Block_Size - w / 4 then
    push a Pad_Byte
    zeroFill a a.Message_Block_Size a.Message_Block_Size
    ProcessMessageBlock a
  else
    push a Pad_Byte
  zeroFill a (a.Message_Block_Size - w / 4) a.Message_Block_Size
  let c ← getCtx
  storeWord a c.Length_High (a.Message_Block_Size - w / 4) (w / 8)
  storeWord a c.Length_Low (a.Message_Block_Size - w / 8) (w / 8)
  ProcessMessageBlock a

/-- sha1.c:275-285, sha224.c:360-371, sha384-512.c:575-591 -/
def Finalize (a : Alg w) (Pad_Byte : UInt8) : S w Unit := do
  PadMessage a Pad_Byte
  modifyCtx fun c => { c with
    Message_Block := List.replicate a.Message_Block_Size 0
    Length_Low := 0#w
    Length_High := 0#w
    Computed := 1 }

/-- sha1.c:86-110, sha224.c:538-560, sha384-512.c:961-989; the context is not NULL -/
def Reset (H0 : List (BitVec w)) : S w Nat := do
  modifyCtx fun c => { c with
    Length_Low := 0#w
    Length_High := 0#w
    Message_Block_Index := 0
    Intermediate_Hash := H0
    Computed := 0
    Corrupted := 0 }
  pure shaSuccess

/-- One iteration of the loop of `Input` (sha1.c:147-154, sha224.c:248-255, sha384-512.c:486-493) -/
def inputByte (a : Alg w) (b : UInt8) : S w Unit := do
  push a b
  let r ← AddLength 8
  let c ← getCtx
  if r = 0 ∧ c.Message_Block_Index = a.Message_Block_Size then ProcessMessageBlock a else pure ()

/-- The loop of `Input` (sha1.c:146-155, sha224.c:247-256, sha384-512.c:485-494) -/
def inputLoop (a : Alg w) : List UInt8 → Nat → S w Unit
  | _, 0 => pure ()
  | arr, length + 1 => do
    let c ← getCtx
    if c.Corrupted ≠ 0 then pure ()
    else
      match arr with
      | [] => ub
      | b :: rest =>
        inputByte a b
        inputLoop a rest length

/-- sha1.c:129-158, sha224.c:230-260, sha384-512.c:467-497; `none` is a NULL array, otherwise the bytes from the pointer to the
end of the caller's array.  The context is not NULL. -/
def Input (a : Alg w) (message_array : Option (List UInt8)) (length : Nat) : S w Nat := do
  if length = 0 then pure shaSuccess
  else
    match message_array with
    | none => pure shaNull
    | some arr =>
      let c ← getCtx
      if c.Computed ≠ 0 then
        modifyCtx fun c => { c with Corrupted := shaStateError }
        pure shaStateError
      else if c.Corrupted ≠ 0 then pure c.Corrupted
      else
        inputLoop a arr length
        pure shaSuccess

/-- sha1.c:182-188, sha224.c:284-290, sha384-512.c:522-528 -/
def masks : List UInt8 := [0x00, 0x80, 0xC0, 0xE0, 0xF0, 0xF8, 0xFC, 0xFE]
/-- sha1.c:189-194, sha224.c:292-297, sha384-512.c:529-534 -/
def markbit : List UInt8 := [0x80, 0x40, 0x20, 0x10, 0x08, 0x04, 0x02, 0x01]

/-- sha1.c:179-216, sha224.c:281-319, sha384-512.c:519-554 -/
def FinalBits (a : Alg w) (message_bits : UInt8) (length : Nat) : S w Nat := do
  if length = 0 then pure shaSuccess
  else
    let c ← getCtx
    if c.Computed ≠ 0 ∨ length ≥ 8 ∨ length = 0 then
      modifyCtx fun c => { c with Corrupted := shaStateError }
      pure shaStateError
    else if c.Corrupted ≠ 0 then pure c.Corrupted
    else
      let _ ← AddLength length
      match masks[length]?, markbit[length]? with
      | some m, some k =>
        Finalize a ((message_bits &&& m) ||| k)
        pure shaSuccess
      | _, _ => ub

/-- `for (i = 0; i < HashSize; ++i) Message_Digest[i] = ...` with `n` iterations left (sha1.c:250-252, sha224.c:597-599,
sha384-512.c:1040-1042; `i >> 2` and `i & 3` are written as quotient and remainder by the number of bytes of a word) -/
def digestLoop (H : List (BitVec w)) (i : Nat) : Nat → S w (List UInt8)
  | 0 => pure []
  | n + 1 => do
    match H[i / (w / 8)]? with
    | none => ub
    | some x =>
      let rest ← digestLoop H (i + 1) n
      pure (byteAt x (8 * (w / 8 - 1 - i % (w / 8))) :: rest)

/-- sha1.c:235-255, sha224.c:582-602, sha384-512.c:1010-1046; the result is the return code and, on success, the bytes stored in
`Message_Digest`.  The context and the digest array are not NULL. -/
def ResultN (a : Alg w) (HashSize : Nat) : S w (Nat × List UInt8) := do
  let c ← getCtx
  if c.Corrupted ≠ 0 then pure (c.Corrupted, [])
  else
    if c.Computed = 0 then Finalize a 0x80 else pure ()
    let c ← getCtx
    let d ← digestLoop c.Intermediate_Hash 0 HashSize
    pure (shaSuccess, d)

/-! ## sha-private.h -/

/-- sha-private.h:17 -/
def SHA_Ch (x y z : BitVec w) : BitVec w := (x &&& y) ^^^ (~~~x &&& z)
/-- sha-private.h:18 -/
def SHA_Maj (x y z : BitVec w) : BitVec w := (x &&& y) ^^^ (x &&& z) ^^^ (y &&& z)
/-- sha-private.h:31 -/
def SHA_Parity (x y z : BitVec w) : BitVec w := x ^^^ y ^^^ z

/-- `(uint32_t)b`, `(uint64_t)b` -/
def cast (w : Nat) (b : UInt8) : BitVec w := b.toBitVec.setWidth w

/-- The word at byte `t4` of a block (sha1.c:383-386, sha224.c:485-488) -/
def load32 (blk : List UInt8) (t4 : Nat) : Option (BitVec 32) := do
  let b0 ← blk[t4]?
  let b1 ← blk[t4 + 1]?
  let b2 ← blk[t4 + 2]?
  let b3 ← blk[t4 + 3]?
  pure ((cast 32 b0 <<< 24) ||| (cast 32 b1 <<< 16) ||| (cast 32 b2 <<< 8) ||| cast 32 b3)

/-- The word at byte `t8` of a block (sha384-512.c:892-899) -/
def load64 (blk : List UInt8) (t8 : Nat) : Option (BitVec 64) := do
  let b0 ← blk[t8]?
  let b1 ← blk[t8 + 1]?
  let b2 ← blk[t8 + 2]?
  let b3 ← blk[t8 + 3]?
  let b4 ← blk[t8 + 4]?
  let b5 ← blk[t8 + 5]?
  let b6 ← blk[t8 + 6]?
  let b7 ← blk[t8 + 7]?
  pure ((cast 64 b0 <<< 56) ||| (cast 64 b1 <<< 48) ||| (cast 64 b2 <<< 40) ||| (cast 64 b3 <<< 32) ||| (cast 64 b4 <<< 24)
    ||| (cast 64 b5 <<< 16) ||| (cast 64 b6 <<< 8) ||| cast 64 b7)

/-- `for (; t < ...; t++) W[t] = next(t, W)` with `n` iterations left; `W` holds the elements assigned so far, so `t = W.length` -/
def fill (next : Nat → List (BitVec w) → Option (BitVec w)) : Nat → List (BitVec w) → Option (List (BitVec w))
  | 0, W => some W
  | n + 1, W => do
    let x ← next W.length W
    fill next n (W ++ [x])

/-! ## sha1.c -/

/-- sha1.c:53-54 -/
def SHA1_ROTL (bits : Nat) (word : BitVec 32) : BitVec 32 := (word <<< bits) ||| (word >>> (32 - bits))

/-- sha1.c:369-371 -/
def K1 : List (BitVec 32) := [0x5A827999, 0x6ED9EBA1, 0x8F1BBCDC, 0xCA62C1D6]

/-- The variables `A`..`E` (sha1.c:375) -/
structure Regs1 where
  A : BitVec 32
  B : BitVec 32
  C : BitVec 32
  D : BitVec 32
  E : BitVec 32

/-- sha1.c:389-390 -/
def next1 (t : Nat) (W : List (BitVec 32)) : Option (BitVec 32) := do
  let w3 ← W[t - 3]?
  let w8 ← W[t - 8]?
  let w14 ← W[t - 14]?
  let w16 ← W[t - 16]?
  pure (SHA1_ROTL 1 (w3 ^^^ w8 ^^^ w14 ^^^ w16))

/-- One of the four loops of sha1.c:398-432 with `n` iterations left, for the function `f` and the constant `K[k]` -/
def rounds1 (f : BitVec 32 → BitVec 32 → BitVec 32 → BitVec 32) (k : Nat) (W : List (BitVec 32)) : Nat → Nat → Regs1 → Option Regs1
  | 0, _, r => some r
  | n + 1, t, r => do
    let wt ← W[t]?
    let kk ← K1[k]?
    let temp := SHA1_ROTL 5 r.A + f r.B r.C r.D + r.E + wt + kk
    rounds1 f k W n (t + 1) { A := temp, B := r.A, C := SHA1_ROTL 30 r.B, D := r.C, E := r.D }

/-- sha1.c:366-441 -/
def compress1 (H : List (BitVec 32)) (blk : List UInt8) : Option (List (BitVec 32)) := do
  let W ← fill (fun t _ => load32 blk (t * 4)) 16 []
  let W ← fill next1 64 W
  let h0 ← H[0]?
  let h1 ← H[1]?
  let h2 ← H[2]?
  let h3 ← H[3]?
  let h4 ← H[4]?
  let r : Regs1 := { A := h0, B := h1, C := h2, D := h3, E := h4 }
  let r ← rounds1 SHA_Ch 0 W 20 0 r
  let r ← rounds1 SHA_Parity 1 W 20 20 r
  let r ← rounds1 SHA_Maj 2 W 20 40 r
  let r ← rounds1 SHA_Parity 3 W 20 60 r
  pure [h0 + r.A, h1 + r.B, h2 + r.C, h3 + r.D, h4 + r.E]

def sha1 : Alg 32 := { Message_Block_Size := 64, compress := compress1 }

/-- sha1.c:96-101 -/
def SHA1_H0 : List (BitVec 32) := [0x67452301, 0xEFCDAB89, 0x98BADCFE, 0x10325476, 0xC3D2E1F0]

/-! ## sha224.c -/

/-- sha224.c:51 -/
def SHA256_SHR (bits : Nat) (word : BitVec 32) : BitVec 32 := word >>> bits
/-- sha224.c:54-55 -/
def SHA256_ROTR (bits : Nat) (word : BitVec 32) : BitVec 32 := (word >>> bits) ||| (word <<< (32 - bits))
/-- sha224.c:58-59 -/
def SHA256_SIGMA0 (word : BitVec 32) : BitVec 32 := SHA256_ROTR 2 word ^^^ SHA256_ROTR 13 word ^^^ SHA256_ROTR 22 word
/-- sha224.c:60-61 -/
def SHA256_SIGMA1 (word : BitVec 32) : BitVec 32 := SHA256_ROTR 6 word ^^^ SHA256_ROTR 11 word ^^^ SHA256_ROTR 25 word
/-- sha224.c:62-63 -/
def SHA256_sigma0 (word : BitVec 32) : BitVec 32 := SHA256_ROTR 7 word ^^^ SHA256_ROTR 18 word ^^^ SHA256_SHR 3 word
/-- sha224.c:64-65 -/
def SHA256_sigma1 (word : BitVec 32) : BitVec 32 := SHA256_ROTR 17 word ^^^ SHA256_ROTR 19 word ^^^ SHA256_SHR 10 word

/-- sha224.c:455-473 -/
def K256 : List (BitVec 32) :=
  [0x428a2f98, 0x71374491, 0xb5c0fbcf, 0xe9b5dba5, 0x3956c25b, 0x59f111f1,
   0x923f82a4, 0xab1c5ed5, 0xd807aa98, 0x12835b01, 0x243185be, 0x550c7dc3,
   0x72be5d74, 0x80deb1fe, 0x9bdc06a7, 0xc19bf174, 0xe49b69c1, 0xefbe4786,
   0x0fc19dc6, 0x240ca1cc, 0x2de92c6f, 0x4a7484aa, 0x5cb0a9dc, 0x76f988da,
   0x983e5152, 0xa831c66d, 0xb00327c8, 0xbf597fc7, 0xc6e00bf3, 0xd5a79147,
   0x06ca6351, 0x14292967, 0x27b70a85, 0x2e1b2138, 0x4d2c6dfc, 0x53380d13,
   0x650a7354, 0x766a0abb, 0x81c2c92e, 0x92722c85, 0xa2bfe8a1, 0xa81a664b,
   0xc24b8b70, 0xc76c51a3, 0xd192e819, 0xd6990624, 0xf40e3585, 0x106aa070,
   0x19a4c116, 0x1e376c08, 0x2748774c, 0x34b0bcb5, 0x391c0cb3, 0x4ed8aa4a,
   0x5b9cca4f, 0x682e6ff3, 0x748f82ee, 0x78a5636f, 0x84c87814, 0x8cc70208,
   0x90befffa, 0xa4506ceb, 0xbef9a3f7, 0xc67178f2]

/-- The variables `A`..`H` (sha224.c:477, sha384-512.c:886) -/
structure Regs (w : Nat) where
  A : BitVec w
  B : BitVec w
  C : BitVec w
  D : BitVec w
  E : BitVec w
  F : BitVec w
  G : BitVec w
  H : BitVec w

/-- sha224.c:491-492 -/
def next256 (t : Nat) (W : List (BitVec 32)) : Option (BitVec 32) := do
  let w2 ← W[t - 2]?
  let w7 ← W[t - 7]?
  let w15 ← W[t - 15]?
  let w16 ← W[t - 16]?
  pure (SHA256_sigma1 w2 + w7 + SHA256_sigma0 w15 + w16)

/-- sha224.c:503-514 with `n` iterations left -/
def rounds256 (W : List (BitVec 32)) : Nat → Nat → Regs 32 → Option (Regs 32)
  | 0, _, r => some r
  | n + 1, t, r => do
    let k ← K256[t]?
    let wt ← W[t]?
    let temp1 := r.H + SHA256_SIGMA1 r.E + SHA_Ch r.E r.F r.G + k + wt
    let temp2 := SHA256_SIGMA0 r.A + SHA_Maj r.A r.B r.C
    rounds256 W n (t + 1)
      { H := r.G, G := r.F, F := r.E, E := r.D + temp1, D := r.C, C := r.B, B := r.A, A := temp1 + temp2 }

/-- sha224.c:452-525 -/
def compress256 (H : List (BitVec 32)) (blk : List UInt8) : Option (List (BitVec 32)) := do
  let W ← fill (fun t _ => load32 blk (t * 4)) 16 []
  let W ← fill next256 48 W
  let h0 ← H[0]?
  let h1 ← H[1]?
  let h2 ← H[2]?
  let h3 ← H[3]?
  let h4 ← H[4]?
  let h5 ← H[5]?
  let h6 ← H[6]?
  let h7 ← H[7]?
  let r ← rounds256 W 64 0 { A := h0, B := h1, C := h2, D := h3, E := h4, F := h5, G := h6, H := h7 }
  pure [h0 + r.A, h1 + r.B, h2 + r.C, h3 + r.D, h4 + r.E, h5 + r.F, h6 + r.G, h7 + r.H]

def sha256 : Alg 32 := { Message_Block_Size := 64, compress := compress256 }

/-- sha224.c:87-90 -/
def SHA224_H0 : List (BitVec 32) :=
  [0xC1059ED8, 0x367CD507, 0x3070DD17, 0xF70E5939, 0xFFC00B31, 0x68581511,
   0x64F98FA7, 0xBEFA4FA4]

/-- sha224.c:93-96 -/
def SHA256_H0 : List (BitVec 32) :=
  [0x6A09E667, 0xBB67AE85, 0x3C6EF372, 0xA54FF53A, 0x510E527F, 0x9B05688C,
   0x1F83D9AB, 0x5BE0CD19]

/-! ## sha384-512.c -/

/-- sha384-512.c:283 -/
def SHA512_SHR (bits : Nat) (word : BitVec 64) : BitVec 64 := word >>> bits
/-- sha384-512.c:284-285 -/
def SHA512_ROTR (bits : Nat) (word : BitVec 64) : BitVec 64 := (word >>> bits) ||| (word <<< (64 - bits))
/-- sha384-512.c:288-289 -/
def SHA512_SIGMA0 (word : BitVec 64) : BitVec 64 := SHA512_ROTR 28 word ^^^ SHA512_ROTR 34 word ^^^ SHA512_ROTR 39 word
/-- sha384-512.c:290-291 -/
def SHA512_SIGMA1 (word : BitVec 64) : BitVec 64 := SHA512_ROTR 14 word ^^^ SHA512_ROTR 18 word ^^^ SHA512_ROTR 41 word
/-- sha384-512.c:292-293 -/
def SHA512_sigma0 (word : BitVec 64) : BitVec 64 := SHA512_ROTR 1 word ^^^ SHA512_ROTR 8 word ^^^ SHA512_SHR 7 word
/-- sha384-512.c:294-295 -/
def SHA512_sigma1 (word : BitVec 64) : BitVec 64 := SHA512_ROTR 19 word ^^^ SHA512_ROTR 61 word ^^^ SHA512_SHR 6 word

/-- sha384-512.c:854-882 -/
def K512 : List (BitVec 64) :=
  [0x428A2F98D728AE22, 0x7137449123EF65CD, 0xB5C0FBCFEC4D3B2F, 0xE9B5DBA58189DBBC,
   0x3956C25BF348B538, 0x59F111F1B605D019, 0x923F82A4AF194F9B, 0xAB1C5ED5DA6D8118,
   0xD807AA98A3030242, 0x12835B0145706FBE, 0x243185BE4EE4B28C, 0x550C7DC3D5FFB4E2,
   0x72BE5D74F27B896F, 0x80DEB1FE3B1696B1, 0x9BDC06A725C71235, 0xC19BF174CF692694,
   0xE49B69C19EF14AD2, 0xEFBE4786384F25E3, 0x0FC19DC68B8CD5B5, 0x240CA1CC77AC9C65,
   0x2DE92C6F592B0275, 0x4A7484AA6EA6E483, 0x5CB0A9DCBD41FBD4, 0x76F988DA831153B5,
   0x983E5152EE66DFAB, 0xA831C66D2DB43210, 0xB00327C898FB213F, 0xBF597FC7BEEF0EE4,
   0xC6E00BF33DA88FC2, 0xD5A79147930AA725, 0x06CA6351E003826F, 0x142929670A0E6E70,
   0x27B70A8546D22FFC, 0x2E1B21385C26C926, 0x4D2C6DFC5AC42AED, 0x53380D139D95B3DF,
   0x650A73548BAF63DE, 0x766A0ABB3C77B2A8, 0x81C2C92E47EDAEE6, 0x92722C851482353B,
   0xA2BFE8A14CF10364, 0xA81A664BBC423001, 0xC24B8B70D0F89791, 0xC76C51A30654BE30,
   0xD192E819D6EF5218, 0xD69906245565A910, 0xF40E35855771202A, 0x106AA07032BBD1B8,
   0x19A4C116B8D2D0C8, 0x1E376C085141AB53, 0x2748774CDF8EEB99, 0x34B0BCB5E19B48A8,
   0x391C0CB3C5C95A63, 0x4ED8AA4AE3418ACB, 0x5B9CCA4F7763E373, 0x682E6FF3D6B2B8A3,
   0x748F82EE5DEFB2FC, 0x78A5636F43172F60, 0x84C87814A1F0AB72, 0x8CC702081A6439EC,
   0x90BEFFFA23631E28, 0xA4506CEBDE82BDE9, 0xBEF9A3F7B2C67915, 0xC67178F2E372532B,
   0xCA273ECEEA26619C, 0xD186B8C721C0C207, 0xEADA7DD6CDE0EB1E, 0xF57D4F7FEE6ED178,
   0x06F067AA72176FBA, 0x0A637DC5A2C898A6, 0x113F9804BEF90DAE, 0x1B710B35131C471B,
   0x28DB77F523047D84, 0x32CAAB7B40C72493, 0x3C9EBE0A15C9BEBC, 0x431D67C49C100D4C,
   0x4CC5D4BECB3E42B6, 0x597F299CFC657E2A, 0x5FCB6FAB3AD6FAEC, 0x6C44198C4A475817]

/-- sha384-512.c:902-903 -/
def next512 (t : Nat) (W : List (BitVec 64)) : Option (BitVec 64) := do
  let w2 ← W[t - 2]?
  let w7 ← W[t - 7]?
  let w15 ← W[t - 15]?
  let w16 ← W[t - 16]?
  pure (SHA512_sigma1 w2 + w7 + SHA512_sigma0 w15 + w16)

/-- sha384-512.c:914-925 with `n` iterations left -/
def rounds512 (W : List (BitVec 64)) : Nat → Nat → Regs 64 → Option (Regs 64)
  | 0, _, r => some r
  | n + 1, t, r => do
    let k ← K512[t]?
    let wt ← W[t]?
    let temp1 := r.H + SHA512_SIGMA1 r.E + SHA_Ch r.E r.F r.G + k + wt
    let temp2 := SHA512_SIGMA0 r.A + SHA_Maj r.A r.B r.C
    rounds512 W n (t + 1)
      { H := r.G, G := r.F, F := r.E, E := r.D + temp1, D := r.C, C := r.B, B := r.A, A := temp1 + temp2 }

/-- sha384-512.c:883-938 -/
def compress512 (H : List (BitVec 64)) (blk : List UInt8) : Option (List (BitVec 64)) := do
  let W ← fill (fun t _ => load64 blk (t * 8)) 16 []
  let W ← fill next512 64 W
  let h0 ← H[0]?
  let h1 ← H[1]?
  let h2 ← H[2]?
  let h3 ← H[3]?
  let h4 ← H[4]?
  let h5 ← H[5]?
  let h6 ← H[6]?
  let h7 ← H[7]?
  let r ← rounds512 W 80 0 { A := h0, B := h1, C := h2, D := h3, E := h4, F := h5, G := h6, H := h7 }
  pure [h0 + r.A, h1 + r.B, h2 + r.C, h3 + r.D, h4 + r.E, h5 + r.F, h6 + r.G, h7 + r.H]

def sha512 : Alg 64 := { Message_Block_Size := 128, compress := compress512 }

/-- sha384-512.c:317-321 -/
def SHA384_H0 : List (BitVec 64) :=
  [0xCBBB9D5DC1059ED8, 0x629A292A367CD507, 0x9159015A3070DD17, 0x152FECD8F70E5939,
   0x67332667FFC00B31, 0x8EB44A8768581511, 0xDB0C2E0D64F98FA7, 0x47B5481DBEFA4FA4]

/-- sha384-512.c:322-326 -/
def SHA512_H0 : List (BitVec 64) :=
  [0x6A09E667F3BCC908, 0xBB67AE8584CAA73B, 0x3C6EF372FE94F82B, 0xA54FF53A5F1D36F1,
   0x510E527FADE682D1, 0x9B05688C2B3E6C1F, 0x1F83D9ABFB41BD6B, 0x5BE0CD19137E2179]

/-! ## The public functions of the three files -/

/-- sha1.c:86-110 -/
def SHA1Reset : S 32 Nat := Reset SHA1_H0
/-- sha224.c:112-115 -/
def SHA224Reset : S 32 Nat := Reset SHA224_H0
/-- sha224.c:206-209 -/
def SHA256Reset : S 32 Nat := Reset SHA256_H0
/-- sha384-512.c:345-348 -/
def SHA384Reset : S 64 Nat := Reset SHA384_H0
/-- sha384-512.c:442-445 -/
def SHA512Reset : S 64 Nat := Reset SHA512_H0

/-- sha1.c:129-158 -/
def SHA1Input (m : Option (List UInt8)) (length : Nat) : S 32 Nat := Input sha1 m length
/-- sha224.c:230-260 -/
def SHA256Input (m : Option (List UInt8)) (length : Nat) : S 32 Nat := Input sha256 m length
/-- sha224.c:137-141 -/
def SHA224Input (m : Option (List UInt8)) (length : Nat) : S 32 Nat := SHA256Input m length
/-- sha384-512.c:467-497 -/
def SHA512Input (m : Option (List UInt8)) (length : Nat) : S 64 Nat := Input sha512 m length
/-- sha384-512.c:370-374 -/
def SHA384Input (m : Option (List UInt8)) (length : Nat) : S 64 Nat := SHA512Input m length

/-- sha1.c:179-216 -/
def SHA1FinalBits (b : UInt8) (length : Nat) : S 32 Nat := FinalBits sha1 b length
/-- sha224.c:281-319 -/
def SHA256FinalBits (b : UInt8) (length : Nat) : S 32 Nat := FinalBits sha256 b length
/-- sha224.c:162-166 -/
def SHA224FinalBits (b : UInt8) (length : Nat) : S 32 Nat := SHA256FinalBits b length
/-- sha384-512.c:519-554 -/
def SHA512FinalBits (b : UInt8) (length : Nat) : S 64 Nat := FinalBits sha512 b length
/-- sha384-512.c:396-400 -/
def SHA384FinalBits (b : UInt8) (length : Nat) : S 64 Nat := SHA512FinalBits b length

/-- sha1.c:235-255; size sha.h:67 -/
def SHA1Result : S 32 (Nat × List UInt8) := ResultN sha1 20
/-- sha224.c:186-190; size sha.h:67 -/
def SHA224Result : S 32 (Nat × List UInt8) := ResultN sha256 28
/-- sha224.c:337-340; size sha.h:67 -/
def SHA256Result : S 32 (Nat × List UInt8) := ResultN sha256 32
/-- sha384-512.c:421-425; size sha.h:68 -/
def SHA384Result : S 64 (Nat × List UInt8) := ResultN sha512 48
/-- sha384-512.c:612-616; size sha.h:68 -/
def SHA512Result : S 64 (Nat × List UInt8) := ResultN sha512 64

end Verif.Sha
