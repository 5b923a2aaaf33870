import Verif.Cond.Spec
/-!
# The deadline computed by `Condition_Wait` in `adapters/condition_c11.c`

The rest of that file is modelled in `Sync/Ports.lean`.  `time_t` is a 64-bit number of seconds, `now` is what `get_time(NULL)` (adapters/agenttime.c:11-14)
answers; `get_difftime(now, 0)` is exact below `2^53`; `unsigned long` has 32 bits on the platform of this file (Windows, see `threadapi_c11.c`).
-/
namespace Verif.Cond.C11

/-- `tm.sec` and `tm.nsec`, adapters/condition_c11.c:72-73; C division and remainder truncate -/
def deadline (now timeout_milliseconds : Int) : Timespec :=
  ⟨(now % 2 ^ 32 + timeout_milliseconds.tdiv 1000) % 2 ^ 32, timeout_milliseconds.tmod 1000 * 1000000⟩

/-- What the clock says at real time `real` (nanoseconds since 1970): whole seconds. -/
def seconds (real : Int) : Int := real / 1000000000

/-- The deadline is a valid time and never later than the requested number of milliseconds after the call; it is less than one second too early.
Missing: it should not be early at all (`early`). -/
theorem deadline_partial {real ms : Int} (h0 : 0 < ms) (hr : 0 ≤ real) (hl : seconds real + ms / 1000 < 2 ^ 32) :
    (deadline (seconds real) ms).valid ∧ (deadline (seconds real) ms).ns ≤ real + ms * 1000000 ∧
      real + ms * 1000000 < (deadline (seconds real) ms).ns + 1000000000 := by
  unfold deadline Timespec.valid Timespec.ns seconds at *
  rw [Int.tdiv_eq_ediv_of_nonneg (by omega), Int.tmod_eq_emod_of_nonneg (by omega)]
  have e1 : real / 1000000000 % 2 ^ 32 = real / 1000000000 := Int.emod_eq_of_lt (by omega) (by omega)
  rw [e1]
  have e2 : (real / 1000000000 + ms / 1000) % 2 ^ 32 = real / 1000000000 + ms / 1000 := Int.emod_eq_of_lt (by omega) hl
  rw [e2]
  dsimp only
  refine ⟨⟨?_, ?_⟩, ?_, ?_⟩ <;> omega

/-- A wait of half a second may have a deadline that is already past when the wait begins. -/
theorem early : ∃ real, 0 ≤ real ∧ seconds real + 500 / 1000 < 2 ^ 32 ∧ (deadline (seconds real) 500).ns < real :=
  ⟨1700000000999999999, by decide, by decide, by decide⟩

example : (deadline (seconds 1700000000250000000) 1500) = ⟨1700000001, 500000000⟩ := by decide

end Verif.Cond.C11
