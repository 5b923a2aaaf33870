/-!
# Memory model of the C abstract machine used by the translated modules

This is not a translation of a file of `/repo`; it is the C semantics the translations are
written in (ISO C11 §6.5.6, §7.22.3, §7.24), see DESIGN.md §1.
-/

namespace Verif

/-- Content of one slot of a block: an indeterminate value, a byte, an integer field, or a pointer
(to the start of a block / to a position inside a block).  Address 0 is `NULL`. -/
inductive Val where
  | undef
  | byte (b : UInt8)
  | int (n : Nat)
  | ptr (p : Nat)
  | pos (p : Nat) (off : Nat)
  deriving DecidableEq, Repr, Inhabited

/-- A live allocation: a sequence of slots. -/
abbrev Block := List Val
/-- Address of a block (its start). `0` is `NULL`. -/
macro "Ptr" : term => `(Nat)
/-- The set of live blocks. -/
abbrev Heap := Ptr → Option Block

/-- No object is larger: the user address space of the 64-bit platforms considered has at most `2^56` bytes
(x86-64 with 5-level paging; `PTRDIFF_MAX` is `2^63 - 1`).  The allocator refuses larger requests. -/
def maxObj : Nat := 2 ^ 56
/-- `SIZE_MAX + 1`. -/
def szMod : Nat := 2 ^ 64

/-- Undefined behaviour; the string names the kind for the reader. -/
inductive Err where
  | ub (what : String)
  deriving Repr, DecidableEq

/-- Machine state: live blocks, the allocator's strategy and the number of requests made so far.
The strategy sees the request number, the live blocks and the size, and proposes an address. -/
structure St where
  heap : Heap
  alloc : Nat → Heap → Nat → Ptr
  tick : Nat

/-- Computations: `none` is divergence, `some (.error _)` undefined behaviour. -/
abbrev M := StateT St (ExceptT Err Option)

def St.upd (s : St) (p : Ptr) (b : Option Block) : St :=
  { s with heap := fun q => if q = p then b else s.heap q }

/-- Undefined behaviour. -/
def ub {α} (what : String) : M α := fun _ => some (.error (.ub what))

/-- `malloc`: `slots` slots occupying `bytes` bytes.  The allocator refuses by proposing `NULL`;
an address that is live is not a possible answer and is treated as a refusal. -/
def mallocW (bytes slots : Nat) : M Ptr := fun s =>
  let p := s.alloc s.tick s.heap bytes
  let s := { s with tick := s.tick + 1 }
  if bytes ≤ maxObj ∧ p ≠ 0 ∧ s.heap p = none then
    some (.ok (p, s.upd p (some (List.replicate slots .undef))))
  else some (.ok (0, s))

/-- `malloc(n)` for a byte array. -/
def malloc (n : Nat) : M Ptr := mallocW n n
/-- `malloc(sizeof(struct))` / `malloc(n*sizeof(T*))` with `n` one-word fields. -/
def mallocS (n : Nat) : M Ptr := mallocW (8 * n) n

/-- `free` -/
def free (p : Ptr) : M Unit := fun s =>
  if p = 0 then some (.ok ((), s)) else
  match s.heap p with
  | none => some (.error (.ub "free of a block that is not live"))
  | some _ => some (.ok ((), s.upd p none))

/-- `realloc`: may keep the block in place or move it; keeps the common prefix; new slots are
indeterminate; on refusal the old block is untouched.  `realloc(NULL, n)` is `malloc(n)`.
`realloc(p, 0)` is undefined behaviour (C23 §7.24.3.7). -/
def reallocW (p : Ptr) (bytes slots : Nat) : M Ptr :=
  if p = 0 then mallocW bytes slots else fun s =>
  match s.heap p with
  | none => some (.error (.ub "realloc of a block that is not live"))
  | some b =>
    if bytes = 0 then some (.error (.ub "realloc to size 0")) else
    let q := s.alloc s.tick s.heap bytes
    let s := { s with tick := s.tick + 1 }
    if bytes ≤ maxObj ∧ q ≠ 0 ∧ (q = p ∨ s.heap q = none) then
      some (.ok (q, (s.upd p none).upd q (some (b.take slots ++ List.replicate (slots - b.length) .undef))))
    else some (.ok (0, s))

def realloc (p : Ptr) (n : Nat) : M Ptr := reallocW p n n
def reallocS (p : Ptr) (n : Nat) : M Ptr := reallocW p (8 * n) n

/-- Read `n` slots starting at `off`. -/
def loadN (p : Ptr) (off n : Nat) : M (List Val) := fun s =>
  match s.heap p with
  | none => some (.error (.ub "load from a block that is not live"))
  | some b => if off + n ≤ b.length then some (.ok ((b.drop off).take n, s))
              else some (.error (.ub "load out of bounds"))

/-- Overwrite `vs.length` slots starting at `off`. -/
def storeN (p : Ptr) (off : Nat) (vs : List Val) : M Unit := fun s =>
  match s.heap p with
  | none => some (.error (.ub "store to a block that is not live"))
  | some b => if off + vs.length ≤ b.length then
                some (.ok ((), s.upd p (some (b.take off ++ vs ++ b.drop (off + vs.length)))))
              else some (.error (.ub "store out of bounds"))

/-- Read one slot. -/
def load (p : Ptr) (off : Nat) : M Val := fun s =>
  match s.heap p with
  | none => some (.error (.ub "load from a block that is not live"))
  | some b => match b[off]? with
    | some v => some (.ok (v, s))
    | none => some (.error (.ub "load out of bounds"))

/-- Write one slot. -/
def store (p : Ptr) (off : Nat) (v : Val) : M Unit := fun s =>
  match s.heap p with
  | none => some (.error (.ub "store to a block that is not live"))
  | some b => if off < b.length then some (.ok ((), s.upd p (some (b.set off v))))
              else some (.error (.ub "store out of bounds"))

/-- Read a field of pointer type. -/
def loadPtr (p : Ptr) (off : Nat) : M Ptr := do
  match (← load p off) with
  | .ptr q => pure q
  | _ => ub "pointer read of a slot that holds no pointer"

/-- Read a field of integer type. -/
def loadInt (p : Ptr) (off : Nat) : M Nat := do
  match (← load p off) with
  | .int n => pure n
  | _ => ub "integer read of a slot that holds no integer"

/-- Read one byte. -/
def loadByte (p : Ptr) (off : Nat) : M UInt8 := do
  match (← load p off) with
  | .byte b => pure b
  | _ => ub "byte read of a slot that holds no byte"

/-- A `const char*` / `const unsigned char*` argument: `NULL`, static or automatic storage of the caller
that no callee writes (`lit`, its bytes), or a position in a heap block. -/
inductive CharPtr where
  | null
  | lit (bs : List UInt8)
  | heap (p : Ptr) (off : Nat)
  deriving DecidableEq, Repr

/-- A string constant. -/
abbrev CharPtr.str (t : List UInt8) : CharPtr := .lit (t ++ [0])

/-- A `char*` value kept as a plain address (`NULL` or the start of a heap block), seen as an argument. -/
def CharPtr.ofPtr (p : Ptr) : CharPtr := if p = 0 then .null else .heap p 0

/-- The bytes before the first NUL; `none` if there is an indeterminate slot or the end of the block first. -/
def cstrV : List Val → Option (List UInt8)
  | .byte b :: vs => if b = 0 then some [] else (cstrV vs).map (b :: ·)
  | _ => none

/-- Bytes as slots. -/
def bytesV (bs : List UInt8) : List Val := bs.map .byte

/-- The storage a pointer argument designates. -/
def storage : CharPtr → M (List Val)
  | .null => ub "dereference of NULL"
  | .lit bs => pure (bytesV bs)
  | .heap p off => fun s => match s.heap p with
    | none => some (.error (.ub "read from a block that is not live"))
    | some b => if off ≤ b.length then some (.ok (b.drop off, s))
                else some (.error (.ub "read out of bounds"))

/-- The C string a pointer designates (what `strlen`, `strcmp`, … read). -/
def cstr (s : CharPtr) : M (List UInt8) := do
  match cstrV (← storage s) with
  | some t => pure t
  | none => ub "string not terminated"

/-- `s[i]` for a `const char*` -/
def charAt (s : CharPtr) (i : Nat) : M UInt8 := do
  let vs ← storage s
  match vs[i]? with
  | some (.byte b) => pure b
  | some _ => ub "read of an indeterminate character"
  | none => ub "string read out of bounds"

/-- `strlen` -/
def strlen (s : CharPtr) : M Nat := do
  let t ← cstr s
  pure t.length

/-- `memcpy(dst + off, src, n)`.  A source and destination in the same block is treated as overlapping.
`n = 0` is a no-op, also for `NULL` operands (C2y N3322; C11 leaves that case undefined). -/
def memcpy (dst : Ptr) (off : Nat) (src : CharPtr) (n : Nat) : M Unit :=
  if n = 0 then pure () else do
  let vs ← storage src
  if n ≤ vs.length then
    match src with
    | .heap p _ => if p = dst then ub "overlapping memcpy" else storeN dst off (vs.take n)
    | _ => storeN dst off (vs.take n)
  else ub "memcpy source out of bounds"

/-- `memmove(p + d, p + s, n)` inside one block. -/
def memmove (p : Ptr) (d s n : Nat) : M Unit := do
  let vs ← loadN p s n
  storeN p d vs

/-- `strcpy(dst + off, src)` -/
def strcpy (dst : Ptr) (off : Nat) (src : CharPtr) : M Unit := do
  let t ← cstr src
  memcpy dst off src (t.length + 1)

/-- Lexicographic comparison of C strings as unsigned bytes: sign of `strcmp`. -/
def strcmpL : List UInt8 → List UInt8 → Int
  | [], [] => 0
  | [], _ :: _ => -1
  | _ :: _, [] => 1
  | a :: as, b :: bs => if a < b then -1 else if b < a then 1 else strcmpL as bs

/-- `strcmp` (normalised to -1, 0, 1). -/
def strcmp (a b : CharPtr) : M Int := do
  let x ← cstr a
  let y ← cstr b
  pure (strcmpL x y)

deriving instance DecidableEq for Except

/-- Result of running a computation, heap dropped (for concrete examples). -/
def outcome {α} (c : M α) (s : St) : Option (Except Err α) :=
  match c s with
  | none => none
  | some (.error e) => some (.error e)
  | some (.ok (a, _)) => some (.ok a)

end Verif
