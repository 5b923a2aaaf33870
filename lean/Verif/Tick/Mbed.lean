import Verif.Tick.Model
/-!
# `adapters/tickcounter_mbed.cpp`

`clock_t` is an unsigned 32-bit number on mbed, so its arithmetic is modulo `2^32`; `CLOCKS_PER_SEC` is a parameter `f`.  `new` does not
return NULL (it throws, and mbed ends the program): memory management is left out, as are the checks for NULL.
-/
namespace Verif.Tick.Mbed

/-- `TICK_COUNTER_INSTANCE_TAG`, adapters/tickcounter_mbed.cpp:15-20 -/
structure Inst where
  last_clock_value : Nat
  current_ms : Nat
  deriving DecidableEq, Repr

/-- `tickcounter_create`, adapters/tickcounter_mbed.cpp:22-29; `clock` is what `clock()` returns -/
def tickcounter_create (f clock : Nat) : Inst := ⟨clock, clock * 1000 % 2 ^ 32 / f⟩

/-- `tickcounter_get_current_ms`, adapters/tickcounter_mbed.cpp:39-59: the instance afterwards, and `*current_ms` -/
def tickcounter_get_current_ms (f : Nat) (i : Inst) (clock : Nat) : Inst × Nat :=
  let d := (clock + 2 ^ 32 - i.last_clock_value) % 2 ^ 32
  let j : Inst := ⟨clock, (i.current_ms + d * 1000 % 2 ^ 32 / f) % 2 ^ 64⟩
  (j, j.current_ms)

/-- a history of calls: the readings of the clock they get; the values they report -/
def gets (f : Nat) (i : Inst) : List Nat → Inst × List Nat
  | [] => (i, [])
  | c :: cs =>
    let (j, v) := tickcounter_get_current_ms f i c
    let (l, vs) := gets f j cs
    (l, v :: vs)

/-! ## Specification -/

/-- The hardware counts `t` ticks, without end; `clock()` shows the low 32 bits. -/
def clock (t : Nat) : Nat := t % 2 ^ 32

/-- Times at which the counter may be asked after the time `t`: time does not go back, and less than `2^32 / 1000` ticks pass between two
calls (4.29 seconds if there are a million ticks in a second). -/
def Times (t : Nat) : List Nat → Prop
  | [] => True
  | u :: us => t ≤ u ∧ (u - t) * 1000 < 2 ^ 32 ∧ Times u us

/-- the last of the times -/
def final (t : Nat) (ts : List Nat) : Nat := ts.foldl (fun _ u => u) t

theorem final_mono {t : Nat} {ts : List Nat} (h : Times t ts) : t ≤ final t ts := by
  induction ts generalizing t with
  | nil => exact Nat.le_refl _
  | cons u us ih => exact Nat.le_trans h.1 (ih h.2.2)

/-- One call, also across a wrap of the clock. -/
theorem get_exact {f t u v : Nat} (h1 : t ≤ u) (h2 : (u - t) * 1000 < 2 ^ 32) (h3 : v + (u - t) * 1000 / f < 2 ^ 64) :
    tickcounter_get_current_ms f ⟨clock t, v⟩ (clock u) =
      (⟨clock u, v + (u - t) * 1000 / f⟩, v + (u - t) * 1000 / f) := by
  have e1 : (clock u + 2 ^ 32 - clock t) % 2 ^ 32 = u - t := by unfold clock; omega
  simp only [tickcounter_get_current_ms, e1, Nat.mod_eq_of_lt h2, Nat.mod_eq_of_lt h3]

set_option maxRecDepth 4000 in
/-- What is reported, for all histories: the values never decrease; the milliseconds counted are not more than those elapsed, and fall
behind by at most one for each call. -/
theorem elapsed_partial {f t0 v0 : Nat} (hf : 0 < f) (ts : List Nat) {t v n : Nat} (h0 : t0 ≤ t) (hr : Times t ts) (hv : v0 ≤ v)
    (hu : (v - v0) * f ≤ (t - t0) * 1000) (hd : (t - t0) * 1000 ≤ (v - v0) * f + n * f)
    (hb : v0 * f + (final t ts - t0) * 1000 < 2 ^ 64 * f) :
    ∃ w vs, gets f ⟨clock t, v⟩ (ts.map clock) = (⟨clock (final t ts), w⟩, vs) ∧ vs.length = ts.length ∧ v ≤ w ∧
      (w - v0) * f ≤ (final t ts - t0) * 1000 ∧ (final t ts - t0) * 1000 ≤ (w - v0) * f + (n + ts.length) * f ∧
      (∀ x ∈ vs, v ≤ x ∧ x ≤ w) ∧ vs.Pairwise (· ≤ ·) ∧ vs.getLastD v = w := by
  induction ts generalizing t v n with
  | nil => exact ⟨v, [], rfl, rfl, Nat.le_refl _, hu, hd, by simp, by simp, rfl⟩
  | cons u us ih =>
    obtain ⟨r1, r2, r3⟩ := hr
    have hmono := final_mono r3
    have hfin : final t (u :: us) = final u us := rfl
    rw [hfin] at hb ⊢
    have hq1 : (u - t) * 1000 / f * f ≤ (u - t) * 1000 := Nat.div_mul_le_self _ _
    have hq2 : (u - t) * 1000 < ((u - t) * 1000 / f + 1) * f := by
      rw [Nat.mul_comm _ f]; exact Nat.lt_mul_div_succ _ hf
    have hget := get_exact (f := f) (v := v) r1 r2
    generalize hq : (u - t) * 1000 / f = q at *
    rw [Nat.add_mul, Nat.one_mul] at hq2
    have ev : (v + q - v0) * f = (v - v0) * f + q * f := by rw [← Nat.add_mul]; congr 1; omega
    have hu' : (v + q - v0) * f ≤ (u - t0) * 1000 := by omega
    have hd' : (u - t0) * 1000 ≤ (v + q - v0) * f + (n + 1) * f := by 
      rw [ev, Nat.add_mul n, Nat.one_mul]
      omega
    have hsmall : v + q < 2 ^ 64 := by
      refine Nat.lt_of_mul_lt_mul_right (a := f) ?_
      have : (v + q) * f = v0 * f + (v + q - v0) * f := by rw [← Nat.add_mul]; congr 1; omega
      omega
    obtain ⟨w, vs, h1, h2, h3, h4, h5, h6, h7, h8⟩ := ih (by omega : t0 ≤ u) r3 (by omega : v0 ≤ v + q) hu' hd' hb
    refine ⟨w, (v + q) :: vs, ?_, by simp [h2], by omega, h4, ?_, ?_, ?_, ?_⟩
    · simp only [List.map_cons, gets, hget hsmall, h1]
    · rw [show n + (u :: us).length = n + 1 + us.length by simp; omega]
      exact h5
    · intro x hx
      rcases List.mem_cons.1 hx with rfl | hx
      · omega
      · have := h6 x hx; omega
    · exact List.pairwise_cons.2 ⟨fun x hx => (h6 x hx).1, h7⟩
    · rw [List.getLastD_cons]
      exact h8

/-- From creation at time `t0` on: the values reported never decrease, and the last one is the first value plus the milliseconds elapsed,
less at most one for each call. -/
theorem reported_partial {f : Nat} (hf : 0 < f) (t0 : Nat) (ts : List Nat) (hr : Times t0 ts)
    (hb : 2 ^ 32 + (final t0 ts - t0) * 1000 < 2 ^ 64 * f) :
    let i := tickcounter_create f (clock t0)
    ∃ vs, (gets f i (ts.map clock)).2 = vs ∧ vs.length = ts.length ∧ (∀ x ∈ vs, i.current_ms ≤ x) ∧ vs.Pairwise (· ≤ ·) ∧
      (vs.getLastD i.current_ms - i.current_ms) * f ≤ (final t0 ts - t0) * 1000 ∧
      (final t0 ts - t0) * 1000 ≤ (vs.getLastD i.current_ms - i.current_ms + ts.length) * f := by
  intro i
  have hi : i = ⟨clock t0, i.current_ms⟩ := rfl
  have hi2 : i.current_ms * f ≤ 2 ^ 32 := by
    have h1 : i.current_ms * f ≤ clock t0 * 1000 % 2 ^ 32 := Nat.div_mul_le_self _ _
    have := Nat.mod_lt (clock t0 * 1000) (show 2 ^ 32 > 0 by decide)
    omega
  obtain ⟨w, vs, h1, h2, h3, h4, h5, h6, h7, h8⟩ := elapsed_partial (f := f) (t0 := t0) (v0 := i.current_ms) hf ts (t := t0)
    (v := i.current_ms) (n := 0) (Nat.le_refl _) hr (Nat.le_refl _) (by simp) (by simp) (by omega)
  rw [← hi] at h1
  refine ⟨vs, by rw [h1], h2, fun x hx => (h6 x hx).1, h7, by rw [h8]; exact h4, ?_⟩
  rw [h8, Nat.add_mul]
  simpa using h5

/-- The hypotheses are met by a history in which the clock wraps. -/
example : Times 4294000000 [4295000000, 4296500000] ∧ clock 4294000000 = 4294000000 ∧ clock 4295000000 = 32704 ∧
    (gets 1000000 (tickcounter_create 1000000 (clock 4294000000)) ([4295000000, 4296500000].map clock)).2 =
      [(tickcounter_create 1000000 (clock 4294000000)).current_ms + 1000,
       (tickcounter_create 1000000 (clock 4294000000)).current_ms + 2500] := by
  refine ⟨⟨by decide, by decide, by decide, by decide, trivial⟩, by decide, by decide, by decide⟩

/-- The lag is real and not bounded: with a million ticks in a second and a call every 999 microseconds, the counter stands still. -/
theorem falls_behind (n : Nat) :
    (gets 1000000 (tickcounter_create 1000000 0) ((List.range n).map fun k => clock (999 * (k + 1)))).2 = List.replicate n 0 := by
  have : ∀ (m k : Nat), (gets 1000000 ⟨clock (999 * k), 0⟩ ((List.range' k m).map fun k => clock (999 * (k + 1)))).2 = List.replicate m 0 := by
    intro m
    induction m with
    | zero => intro k; rfl
    | succ m ih =>
      intro k
      have g := get_exact (f := 1000000) (t := 999 * k) (u := 999 * (k + 1)) (v := 0) (by omega) (by omega) (by omega)
      rw [show 999 * (k + 1) - 999 * k = 999 by omega] at g
      simp only [List.range'_succ, List.map_cons, gets, g, List.replicate_succ]
      exact congrArg (0 :: ·) (ih (k + 1))
  rw [List.range_eq_range']
  exact this n 0

/-- Time is lost between calls that are too far apart: five seconds count as 705 milliseconds. -/
theorem gap_lost : (gets 1000000 (tickcounter_create 1000000 (clock 0)) [clock 5000000]).2 = [705] := by decide

end Verif.Tick.Mbed
