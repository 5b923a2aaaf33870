import Verif.Sha.Fips
/-!
# Specification of the streaming interface

A context is, for its user, in one of three phases; `step` says what each call does, for a hash function `h` of the standard.
-/
namespace Verif.Sha

/-- What the user of a context has done since the last reset. -/
inductive Phase where
  /-- the bytes `m` have been given -/
  | absorbing (m : List UInt8)
  /-- the message `m` (a bit string) is complete -/
  | finished (m : List Bool)
  /-- the context was misused, or the message was too long (`code` is the error); `computed` tells whether this happened after
  the message was complete -/
  | bad (code : Nat) (computed : Bool)

/-- The calls. -/
inductive Op where
  | reset
  /-- the next part of the message -/
  | input (m : List UInt8)
  /-- `length > 0` with a NULL array -/
  | inputNull (length : Nat)
  /-- the `n` most significant bits of `b` end the message -/
  | finalBits (b : UInt8) (n : Nat)
  | result

/-- Bits the message may have at most: less than `2 ^ 64` for SHA-1, SHA-224, SHA-256, less than `2 ^ 128` for SHA-384, SHA-512 -/
def limit (h : Fips.Hash) : Nat := 2 ^ (2 * h.w)

/-- Phase after the call, return code (0 success, 1 null, 3 state error), digest written. -/
def step (h : Fips.Hash) : Phase → Op → Phase × Nat × List UInt8
  | _, .reset => (.absorbing [], 0, [])
  | p, .inputNull n => (p, if n = 0 then 0 else 1, [])
  | .absorbing acc, .input m =>
    if m = [] then (.absorbing acc, 0, [])
    else if 8 * (acc.length + m.length) < limit h then (.absorbing (acc ++ m), 0, [])
    else (.bad 1 false, 0, [])
  | .finished f, .input m => if m = [] then (.finished f, 0, []) else (.bad 3 true, 3, [])
  | .bad e c, .input m => if m = [] then (.bad e c, 0, []) else if c then (.bad 3 true, 3, []) else (.bad e false, e, [])
  | .absorbing acc, .finalBits b n =>
    if n = 0 then (.absorbing acc, 0, [])
    else if 8 ≤ n then (.bad 3 false, 3, [])
    else (.finished (Fips.bits acc ++ (Fips.bitsOf b).take n), 0, [])
  | .finished f, .finalBits _ n => if n = 0 then (.finished f, 0, []) else (.bad 3 true, 3, [])
  | .bad e c, .finalBits _ n =>
    if n = 0 then (.bad e c, 0, [])
    else if c = true ∨ 8 ≤ n then (.bad 3 c, 3, [])
    else (.bad e c, e, [])
  | .absorbing acc, .result => (.finished (Fips.bits acc), 0, h.ofBytes acc)
  | .finished f, .result => (.finished f, 0, h.digest f)
  | .bad e c, .result => (.bad e c, e, [])

/-- A whole history: the return codes and digests. -/
def trace (h : Fips.Hash) : Phase → List Op → List (Nat × List UInt8)
  | _, [] => []
  | p, o :: os => (step h p o).2 :: trace h (step h p o).1 os

end Verif.Sha
