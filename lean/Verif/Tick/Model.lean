import Verif.Mem
/-!
# Model of `adapters/tickcounter_linux.c`

`time(NULL)` is a parameter (`clock`).  `time_t` is a signed 64-bit integer, kept in memory as its two's complement.
`double` arithmetic is IEEE 754 binary64 with rounding to nearest, ties to even; all values occurring are integers.
Converting a negative or too large `double` to `uint64_t` is undefined behaviour (C11 §6.3.1.4).  Logging is left out.
-/
namespace Verif.Tick

/-- nearest `double` of a natural number (53 significant bits, ties to even) -/
def roundNat (n : Nat) : Nat :=
  if n < 2 ^ 53 then n else
  let u := 2 ^ (Nat.log2 n - 52)
  let q := n / u
  let r := n % u
  (if 2 * r < u then q else if u < 2 * r then q + 1 else q + q % 2) * u

/-- nearest `double` of an integer -/
def toDouble (z : Int) : Int := if z < 0 then -(roundNat z.natAbs : Int) else (roundNat z.natAbs : Int)

/-- `difftime(a, b)` (C11 §7.27.2.2) -/
def difftime (a b : Int) : Int := toDouble (a - b)

/-- `(uint64_t)d` for an integral `double` -/
def toUint64 (d : Int) : M Nat :=
  if 0 ≤ d ∧ d < 2 ^ 64 then pure d.toNat else ub "double out of the range of uint64_t"

/-- `time_t` in memory -/
def timeV (t : Int) : Val := .int (t % 2 ^ 64).toNat
def loadTime (p off : Nat) : M Int := do
  let n ← loadInt p off
  pure (if n < 2 ^ 63 then (n : Int) else (n : Int) - 2 ^ 64)

section
variable (clock : M Int)

/-- `tickcounter_create`, adapters/tickcounter_linux.c:23-41.  Fields: 0 `init_time_value`, 1 `current_ms` (17-21). -/
def tickcounter_create : M Ptr := do
  let result ← mallocS 2
  if result ≠ 0 then do
    let t ← clock
    store result 0 (timeV t)
    if (← loadTime result 0) = -1 then do
      free result
      pure 0
    else do
      store result 1 (.int 0)
      pure result
  else pure result

/-- `tickcounter_destroy`, adapters/tickcounter_linux.c:43-49 -/
def tickcounter_destroy (tick_counter : Ptr) : M Unit := do
  if tick_counter ≠ 0 then free tick_counter else pure ()

/-- `tickcounter_get_current_ms`, adapters/tickcounter_linux.c:51-77 -/
def tickcounter_get_current_ms (tick_counter current_ms : Ptr) : M Int := do
  if tick_counter = 0 ∨ current_ms = 0 then pure 58 else do
  let time_value ← clock
  if time_value = -1 then pure 65 else do
  let init ← loadTime tick_counter 0
  let v ← toUint64 (toDouble (difftime time_value init * 1000))
  store tick_counter 1 (.int v)
  store current_ms 0 (.int (← loadInt tick_counter 1))
  pure 0

end
end Verif.Tick
