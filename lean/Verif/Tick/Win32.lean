import Verif.Tick.Model
/-!
# `adapters/tickcounter_win32.c`

The instance is a record; memory management is that of `tickcounter_linux.c` (`Tick/Model.lean`) and is left out here, as is the
branch for systems without a performance counter, which computes what `tickcounter_linux.c` computes.  `LARGE_INTEGER.QuadPart` is a
signed 64-bit integer: overflow is undefined behaviour (`none`).
-/
namespace Verif.Tick.Win32

/-- `TICK_COUNTER_INSTANCE`, adapters/tickcounter_win32.c:17-23 (`current_ms` counts microseconds in this branch) -/
structure Inst where
  perf_freqency : Int
  last_perf_counter : Int
  current_ms : Nat
  deriving DecidableEq, Repr

/-- signed 64-bit arithmetic -/
def int64 (v : Int) : Option Int := if -(2 ^ 63) ≤ v ∧ v < 2 ^ 63 then some v else none

/-- `tickcounter_create`, adapters/tickcounter_win32.c:25-62: the frequency and the reading of the counter (`none`: the call failed) -/
def tickcounter_create (freq : Int) (counter : Option Int) : Option Inst :=
  match counter with
  | none => none
  | some c => some ⟨freq, c, 0⟩

/-- `tickcounter_get_current_ms`, adapters/tickcounter_win32.c:72-105: the instance afterwards, the result, and `*current_ms` if it was written.
`none`: undefined behaviour. -/
def tickcounter_get_current_ms (i : Inst) (counter : Option Int) : Option (Inst × Int × Option Nat) :=
  match counter with
  | none => some (i, 87, none)
  | some curr => do
    let d ← int64 (curr - i.last_perf_counter)
    let m ← int64 (d * 1000000)
    let perf_in_ms := m.tdiv i.perf_freqency
    let current := ((i.current_ms : Int) + perf_in_ms) % 2 ^ 64
    some (⟨i.perf_freqency, curr, current.toNat⟩, 0, some (current.toNat / 1000))

/-- a history of calls: the readings they get; the values they report -/
def gets (i : Inst) : List (Option Int) → Option (Inst × List (Int × Option Nat))
  | [] => some (i, [])
  | c :: cs => do
    let (j, r, v) ← tickcounter_get_current_ms i c
    let (l, rs) ← gets j cs
    some (l, (r, v) :: rs)

/-! ## Specification -/

/-- Readings that may follow `last`: the counter does not go back, and two successive readings are less than `2^63 / 10^6` ticks apart. -/
def Readings (last : Int) : List (Option Int) → Prop
  | [] => True
  | none :: cs => Readings last cs
  | some c :: cs => last ≤ c ∧ (c - last) * 1000000 < 2 ^ 63 ∧ c < 2 ^ 63 ∧ Readings c cs

/-- the last successful reading -/
def final (last : Int) (cs : List (Option Int)) : Int := cs.foldl (fun l c => c.getD l) last

/-- the number of successful readings -/
def count (cs : List (Option Int)) : Nat := (cs.filter Option.isSome).length

theorem get_exact {i : Inst} {c : Int} (hf : 0 < i.perf_freqency) (h0 : 0 ≤ i.last_perf_counter) (h1 : i.last_perf_counter ≤ c)
    (h2 : (c - i.last_perf_counter) * 1000000 < 2 ^ 63) (h3 : c < 2 ^ 63) (h4 : i.current_ms + ((c - i.last_perf_counter) * 1000000 / i.perf_freqency).toNat < 2 ^ 64) :
    tickcounter_get_current_ms i (some c) = some (⟨i.perf_freqency, c, i.current_ms + ((c - i.last_perf_counter) * 1000000 / i.perf_freqency).toNat⟩, 0,
      some ((i.current_ms + ((c - i.last_perf_counter) * 1000000 / i.perf_freqency).toNat) / 1000)) := by
  have e1 : int64 (c - i.last_perf_counter) = some (c - i.last_perf_counter) := by unfold int64; rw [if_pos (by omega)]
  have e2 : int64 ((c - i.last_perf_counter) * 1000000) = some ((c - i.last_perf_counter) * 1000000) := by unfold int64; rw [if_pos (by omega)]
  have hd : 0 ≤ (c - i.last_perf_counter) * 1000000 := by omega
  have e3 : ((c - i.last_perf_counter) * 1000000).tdiv i.perf_freqency = (c - i.last_perf_counter) * 1000000 / i.perf_freqency := Int.tdiv_eq_ediv_of_nonneg hd
  have hq : 0 ≤ (c - i.last_perf_counter) * 1000000 / i.perf_freqency := Int.ediv_nonneg hd (by omega)
  simp only [tickcounter_get_current_ms, e1, e2, e3, Option.bind_eq_bind, Option.bind_some]
  generalize (c - i.last_perf_counter) * 1000000 / i.perf_freqency = q at *
  have e4 : ((i.current_ms : Int) + q) % 2 ^ 64 = ((i.current_ms + q.toNat : Nat) : Int) := by omega
  rw [e4, Int.toNat_natCast]

theorem final_mono {c : Int} {cs : List (Option Int)} (h : Readings c cs) : c ≤ final c cs := by
  induction cs generalizing c with
  | nil => exact Int.le_refl _
  | cons d cs ih =>
    cases d with
    | none => exact ih h
    | some d => exact Int.le_trans h.1 (ih h.2.2.2)

/-- What is reported, for all histories: the calls succeed exactly when the counter can be read; the value reported never decreases; the
microseconds counted are not more than those elapsed, and fall behind by at most one for each call. -/
theorem elapsed_partial {f : Int} (hf : 0 < f) (cs : List (Option Int)) {i : Inst} {x0 : Int} {n : Nat} (hi : i.perf_freqency = f)
    (h0 : 0 ≤ x0) (hx : x0 ≤ i.last_perf_counter) (hl : i.last_perf_counter < 2 ^ 63) (hr : Readings i.last_perf_counter cs)
    (hu : (i.current_ms : Int) * f ≤ (i.last_perf_counter - x0) * 1000000) (hd : (i.last_perf_counter - x0) * 1000000 ≤ i.current_ms * f + n * f)
    (hb : (final i.last_perf_counter cs - x0) * 1000000 < 2 ^ 64 * f) :
    ∃ j rs, gets i cs = some (j, rs) ∧ rs.map (fun x => decide (x.1 = 0)) = cs.map Option.isSome ∧
      j.perf_freqency = f ∧ j.last_perf_counter = final i.last_perf_counter cs ∧ i.current_ms ≤ j.current_ms ∧
      (j.current_ms : Int) * f ≤ (j.last_perf_counter - x0) * 1000000 ∧ (j.last_perf_counter - x0) * 1000000 ≤ j.current_ms * f + (n + count cs : Nat) * f ∧
      (∀ x ∈ rs, ∀ v, x.2 = some v → i.current_ms / 1000 ≤ v ∧ v ≤ j.current_ms / 1000) ∧
      (rs.filterMap Prod.snd).Pairwise (· ≤ ·) := by
  induction cs generalizing i n with
  | nil => exact ⟨i, [], rfl, rfl, hi, rfl, Nat.le_refl _, hu, by simpa [count] using hd, by simp, by simp⟩
  | cons c cs ih =>
    cases c with
    | none =>
      obtain ⟨j, rs, e, h1, h2, h3, h4, h5, h6, h7, h8⟩ := ih hi hx hl hr hu hd hb
      refine ⟨j, (87, none) :: rs, ?_, by simp [h1], h2, h3, h4, h5, by simpa [count] using h6, ?_, by simpa using h8⟩
      · simp [gets, tickcounter_get_current_ms, e]
      · intro x hx v hv
        rcases List.mem_cons.1 hx with rfl | hx
        · cases hv
        · exact h7 x hx v hv
    | some c =>
      obtain ⟨r1, r2, r3, r4⟩ := hr
      have hmono := final_mono r4
      have hq1 : (c - i.last_perf_counter) * 1000000 / f * f ≤ (c - i.last_perf_counter) * 1000000 := Int.ediv_mul_le _ (by omega)
      have hq2 : (c - i.last_perf_counter) * 1000000 < ((c - i.last_perf_counter) * 1000000 / f + 1) * f := Int.lt_ediv_add_one_mul_self _ hf
      have hq0 : 0 ≤ (c - i.last_perf_counter) * 1000000 / f := Int.ediv_nonneg (by omega) (by omega)
      have hget := get_exact (i := i) (c := c) (by omega) (by omega) r1 r2 r3
      rw [hi] at hget
      generalize hq : (c - i.last_perf_counter) * 1000000 / f = q at *
      rw [Int.add_mul] at hq2
      have hu' : ((i.current_ms + q.toNat : Nat) : Int) * f ≤ (c - x0) * 1000000 := by
        rw [show ((i.current_ms + q.toNat : Nat) : Int) = i.current_ms + q by omega, Int.add_mul]; omega
      have hsmall : i.current_ms + q.toNat < 2 ^ 64 := by
        have hb' : (final c cs - x0) * 1000000 < 2 ^ 64 * f := hb
        have : ((i.current_ms + q.toNat : Nat) : Int) * f < 2 ^ 64 * f := by omega
        have := Int.lt_of_mul_lt_mul_right this (by omega)
        omega
      have hget := hget hsmall
      obtain ⟨j, rs, e, h1, h2, h3, h4, h5, h6, h7, h8⟩ := ih (i := ⟨f, c, i.current_ms + q.toNat⟩) (n := n + 1) rfl (by simp only; omega) r3 r4 hu'
        (by
          rw [show ((i.current_ms + q.toNat : Nat) : Int) = i.current_ms + q by omega, Int.add_mul, show ((n + 1 : Nat) : Int) = (n : Int) + 1 by omega, Int.add_mul]
          simp only; omega) hb
      dsimp only at h4
      refine ⟨j, (0, some ((i.current_ms + q.toNat) / 1000)) :: rs, ?_, by simp [h1], h2, h3, by omega, h5, ?_, ?_, ?_⟩
      · simp [gets, hget, e]
      · rw [show n + count (some c :: cs) = n + 1 + count cs by simp [count]; omega]; exact h6
      · intro x hx v hv
        rcases List.mem_cons.1 hx with rfl | hx
        · cases hv; exact ⟨Nat.div_le_div_right (by omega), Nat.div_le_div_right h4⟩
        · have := h7 x hx v hv
          exact ⟨Nat.le_trans (Nat.div_le_div_right (by simp only; omega)) this.1, this.2⟩
      · simp only [List.filterMap_cons]
        refine List.pairwise_cons.2 ⟨fun v hv => ?_, h8⟩
        obtain ⟨x, hx, hxv⟩ := List.mem_filterMap.1 hv
        exact (h7 x hx v hxv).1

/-- From creation on, as long as less than 2^64 microseconds have passed: the last value reported is not ahead of the elapsed time and
falls behind by less than one millisecond, plus one microsecond per call. -/
theorem reported_partial {f x0 : Int} (hf : 0 < f) (h0 : 0 ≤ x0) (hl : x0 < 2 ^ 63) (cs : List (Option Int)) (c : Int) (hr : Readings x0 (cs ++ [some c]))
    (hb : (c - x0) * 1000000 < 2 ^ 64 * f) :
    ∃ i j rs v, tickcounter_create f (some x0) = some i ∧ gets i (cs ++ [some c]) = some (j, rs ++ [(0, some v)]) ∧
      (v : Int) * 1000 * f ≤ (c - x0) * 1000000 ∧ (c - x0) * 1000000 < ((v : Int) + 1) * 1000 * f + (count (cs ++ [some c]) : Nat) * f := by
  have hfin : final x0 (cs ++ [some c]) = c := by simp [final]
  obtain ⟨j, rs, e, h1, h2, h3, h4, h5, h6, h7, h8⟩ := elapsed_partial (f := f) hf (cs ++ [some c]) (i := ⟨f, x0, 0⟩) (x0 := x0) (n := 0) rfl h0 (Int.le_refl _) hl hr
    (by simp) (by simp) (by simpa [hfin] using hb)
  rw [hfin] at h3
  rw [h3] at h5 h6
  have last : ∀ (cs : List (Option Int)) (i j : Inst) rs, gets i (cs ++ [some c]) = some (j, rs) → ∃ rs0, rs = rs0 ++ [(0, some (j.current_ms / 1000))] := by
    intro cs
    induction cs with
    | nil =>
      intro i j rs e
      simp only [List.nil_append, gets, tickcounter_get_current_ms, Option.bind_eq_bind] at e
      cases e1 : int64 (c - i.last_perf_counter) with
      | none => rw [e1] at e; cases e
      | some d =>
        rw [e1, Option.bind_some] at e
        cases e2 : int64 (d * 1000000) with
        | none => rw [e2] at e; cases e
        | some m => rw [e2] at e; cases e; exact ⟨[], rfl⟩
    | cons d cs ih =>
      intro i j rs e
      simp only [List.cons_append, gets, Option.bind_eq_bind] at e
      cases e1 : tickcounter_get_current_ms i d with
      | none => rw [e1] at e; cases e
      | some y =>
        obtain ⟨i1, r, v⟩ := y
        rw [e1, Option.bind_some] at e
        dsimp only at e
        cases e2 : gets i1 (cs ++ [some c]) with
        | none => rw [e2] at e; cases e
        | some z =>
          obtain ⟨l, rs1⟩ := z
          rw [e2] at e
          cases e
          obtain ⟨rs0, rfl⟩ := ih i1 l rs1 e2
          exact ⟨(r, v) :: rs0, rfl⟩
  obtain ⟨rs0, rfl⟩ := last cs _ _ _ e
  refine ⟨⟨f, x0, 0⟩, j, rs0, _, rfl, e, ?_, ?_⟩
  · refine Int.le_trans (Int.mul_le_mul_of_nonneg_right ?_ (by omega)) h5
    omega
  · rw [show 0 + count (cs ++ [some c]) = count (cs ++ [some c]) by omega] at h6
    refine Int.lt_of_le_of_lt h6 (Int.add_lt_add_right (Int.mul_lt_mul_of_pos_right ?_ hf) _)
    omega

/-- The lag is real and not bounded: at 10 MHz, with a call every 9 ticks (0.9 microseconds), the counter reports 0 for ever. -/
theorem falls_behind (n : Nat) (hn : 9 * (n : Int) < 2 ^ 63) :
    ∃ i, tickcounter_create 10000000 (some 0) = some i ∧
      gets i ((List.range n).map fun k : Nat => some (9 * (k : Int) + 9)) = some (⟨10000000, 9 * n, 0⟩, List.replicate n (0, some 0)) := by
  refine ⟨_, rfl, ?_⟩
  have : ∀ (m k : Nat), 9 * ((m + k : Nat) : Int) < 2 ^ 63 → gets ⟨10000000, 9 * k, 0⟩ ((List.range' k m).map fun k : Nat => some (9 * (k : Int) + 9)) =
      some (⟨10000000, 9 * ((k + m : Nat) : Int), 0⟩, List.replicate m (0, some 0)) := by
    intro m
    induction m with
    | zero => intro k _; rfl
    | succ m ih =>
      intro k hk
      have e := ih (k + 1) (by omega)
      rw [show (9 * ((k + 1 : Nat) : Int)) = 9 * (k : Int) + 9 by omega] at e
      have g := get_exact (i := ⟨10000000, 9 * k, 0⟩) (c := 9 * (k : Int) + 9) (by simp) (by simp only; omega) (by simp only; omega) (by simp only; omega) (by omega)
        (by simp only; rw [show (9 * (k : Int) + 9 - 9 * (k : Int)) * 1000000 / 10000000 = 0 by omega]; decide)
      simp only at g
      rw [show (9 * (k : Int) + 9 - 9 * (k : Int)) * 1000000 / 10000000 = 0 by omega] at g
      simp only [List.range'_succ, List.map_cons, gets, g, Option.bind_eq_bind, Option.bind_some, List.replicate_succ]
      rw [show (0 : Nat) + Int.toNat 0 = 0 from rfl, e]
      dsimp only [Option.bind]
      rw [show k + 1 + m = k + (m + 1) by omega]
  have h := this n 0 (by omega)
  rw [List.range_eq_range']
  simpa using h

/-- Two readings too far apart: undefined behaviour (signed overflow), e.g. eleven days at 10 MHz. -/
theorem overflow_ub : ∃ i, tickcounter_create 10000000 (some 0) = some i ∧ tickcounter_get_current_ms i (some (11 * 86400 * 10000000)) = none :=
  ⟨_, rfl, by decide⟩

/-- A concrete history: 3 MHz, two calls, one failed reading. -/
example : ∃ i j, tickcounter_create 3000000 (some 5) = some i ∧
    gets i [some 3000005, none, some 4500005] = some (j, [(0, some 1000), (87, none), (0, some 1500)]) := ⟨_, _, rfl, rfl⟩
example : Readings 5 ([some 3000005, none] ++ [some 4500005]) ∧ ((4500005 : Int) - 5) * 1000000 < 2 ^ 64 * 3000000 := by
  refine ⟨⟨?_, ?_, ?_, ?_, ?_, ?_, trivial⟩, ?_⟩ <;> decide

end Verif.Tick.Win32
