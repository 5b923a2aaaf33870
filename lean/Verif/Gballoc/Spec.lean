import Verif.Gballoc.Model
/-! # What the gballoc calls mean (C30-C32), without reference to the code -/
namespace Verif.Gballoc
open Verif

/-- A block a client has: its address and contents (one slot per byte). -/
abbrev Blk := Nat × Block

/-- The world as a client of gballoc sees it. -/
structure World where
  /-- between `gballoc_init` and `gballoc_deinit` -/
  init : Bool
  /-- blocks obtained through gballoc while it was initialised and not yet freed -/
  live : List Blk
  /-- blocks obtained through gballoc while it was not initialised and not yet freed -/
  other : List Blk
  /-- largest usage seen since `gballoc_init` -/
  peak : Nat

/-- total size of blocks -/
def bytes (l : List Blk) : Nat := (l.map fun b => b.2.length).sum
/-- the usage a `size_t` can report; it is `bytes` itself unless that is 2^64 or more -/
def World.used (w : World) : Nat := bytes w.live % szMod
/-- addresses of blocks -/
def addrs (l : List Blk) : List Nat := l.map Prod.fst

inductive Op where
  | init (mutexOk : Bool)
  | deinit
  | malloc (lockOk : Bool) (n : Nat)
  | calloc (lockOk : Bool) (n m : Nat)
  | realloc (lockOk : Bool) (p n : Nat)
  | free (lockOk : Bool) (p : Nat)
  | getMax (lockOk : Bool)
  | getCur (lockOk : Bool)
  /-- the client writes or reads its block directly -/
  | poke (p off : Nat) (v : Val)
  | peek (p off : Nat)

inductive Out where
  | num (n : Nat)
  | val (v : Val)
  deriving DecidableEq

/-- the world with other live blocks, peak kept up to date -/
def World.withLive (w : World) (l : List Blk) : World :=
  { w with live := l, peak := max w.peak (bytes l % szMod) }

/-- A request for `n` bytes with initial contents `b`: a fresh block is handed out, tracked iff gballoc is initialised; or NULL and
no change.  NULL is possible only if the lock fails (`lockOk = false`, gballoc initialised), memory is scarce or `n` is too large. -/
def GetE (rel : Prop) (w : World) (lockOk : Bool) (n : Nat) (b : Block) (r : Nat) (w' : World) : Prop :=
  (r = 0 ∧ w' = w ∧ (¬ rel ∨ maxObj < n ∨ (w.init = true ∧ lockOk = false))) ∨
  (r ≠ 0 ∧ r ∉ addrs w.live ∧ r ∉ addrs w.other ∧ n ≤ maxObj ∧ (w.init = true → lockOk = true) ∧
    w' = if w.init then w.withLive ((r, b) :: w.live) else { w with other := (r, b) :: w.other })

/-- contents after `realloc` to `n` bytes -/
def resized (b : Block) (n : Nat) : Block := b.take n ++ List.replicate (n - b.length) .undef

/-- the block at `p` in `l` becomes `x` -/
def replaceBlk (l : List Blk) (p : Nat) (x : Blk) : List Blk := l.map fun e => if e.1 = p then x else e
/-- the block at `p` in `l` goes -/
def dropBlk (l : List Blk) (p : Nat) : List Blk := l.filter fun e => e.1 ≠ p

/-- Resizing the block at `p` (not NULL): a block gballoc does not know gives NULL and no change. -/
def ResizeE (rel : Prop) (w : World) (lockOk : Bool) (p n : Nat) (r : Nat) (w' : World) : Prop :=
  (r = 0 ∧ w' = w ∧ (¬ rel ∨ maxObj < n ∨ (w.init = true ∧ (lockOk = false ∨ p ∉ addrs w.live)))) ∨
  (r ≠ 0 ∧ (r = p ∨ r ∉ addrs w.live ∧ r ∉ addrs w.other) ∧ n ≤ maxObj ∧ (w.init = true → lockOk = true) ∧
    ∃ b, (p, b) ∈ (if w.init then w.live else w.other) ∧
      w' = if w.init then w.withLive (replaceBlk w.live p (r, resized b n)) else { w with other := replaceBlk w.other p (r, resized b n) })

/-- The meaning of every call. -/
def Step (rel : Prop) (w : World) (op : Op) (o : Out) (w' : World) : Prop :=
  match op with
  | .init mutexOk =>
    (∃ r, r ≠ 0 ∧ o = .num r ∧ w' = w ∧ (w.init = true ∨ mutexOk = false ∨ ¬ rel)) ∨
    (o = .num 0 ∧ w.init = false ∧ mutexOk = true ∧ w' = { w with init := true, peak := 0 })
  | .deinit => o = .num 0 ∧ w' = { w with init := false }
  | .malloc lockOk n => ∃ r, o = .num r ∧ GetE rel w lockOk n (List.replicate n .undef) r w'
  | .calloc lockOk n m => ∃ r, o = .num r ∧ GetE rel w lockOk (n * m) (List.replicate (n * m) (.byte 0)) r w'
  | .realloc lockOk p n => ∃ r, o = .num r ∧
      if p = 0 then GetE rel w lockOk n (List.replicate n .undef) r w' else ResizeE rel w lockOk p n r w'
  | .free lockOk p => o = .num 0 ∧
      w' = if w.init then (if lockOk then { w with live := dropBlk w.live p } else w) else { w with other := dropBlk w.other p }
  | .getMax lockOk => o = .num (if w.init ∧ lockOk then w.peak else SIZE_MAX) ∧ w' = w
  | .getCur lockOk => o = .num (if w.init ∧ lockOk then w.used else SIZE_MAX) ∧ w' = w
  | .poke p off v => ∃ b, o = .num 0 ∧ (((p, b) ∈ w.live ∧ w' = { w with live := replaceBlk w.live p (p, b.set off v) }) ∨
      ((p, b) ∈ w.other ∧ w' = { w with other := replaceBlk w.other p (p, b.set off v) }))
  | .peek p off => ∃ b v, (p, b) ∈ w.live ++ w.other ∧ b[off]? = some v ∧ o = .val v ∧ w' = w

/-- The calls a client may make.  While gballoc is initialised any pointer at all may be passed to `gballoc_free` and
`gballoc_realloc`; otherwise they are plain `free` and `realloc`.  `realloc` of a block to size 0 is undefined in C23 and excluded.
`gballoc_deinit` only when all tracked blocks have been freed (see `gballoc_deinit_live` for what happens otherwise). -/
def Legal (w : World) : Op → Prop
  | .deinit => w.live = []
  | .realloc _ p n => (n = 0 → p ∉ addrs w.live ∧ p ∉ addrs w.other) ∧ (w.init = false → p = 0 ∨ p ∈ addrs w.other)
  | .free _ p => w.init = false → p = 0 ∨ p ∈ addrs w.other
  | .poke p off _ => ∃ b, (p, b) ∈ w.live ++ w.other ∧ off < b.length
  | .peek p off => ∃ b, (p, b) ∈ w.live ++ w.other ∧ off < b.length
  | _ => True

/-- A client program: what it calls may depend on everything returned so far. -/
inductive Client where
  | done
  | call (op : Op) (k : Out → Client)

/-- every call the client makes is legal, whatever the outcomes -/
inductive Safe (rel : Prop) : World → Client → Prop
  | done (w) : Safe rel w .done
  | call {w op k} : Legal w op → (∀ o w', Step rel w op o w' → Safe rel w' (k o)) → Safe rel w (.call op k)

/-- a history: calls, results, and the world after each -/
inductive Hist (rel : Prop) : World → List (Op × Out × World) → World → Prop
  | nil (w) : Hist rel w [] w
  | cons {w op o w1 l w2} : Step rel w op o w1 → Hist rel w1 l w2 → Hist rel w ((op, o, w1) :: l) w2

/-- the program before any call -/
def World.start : World := ⟨false, [], [], 0⟩

end Verif.Gballoc
