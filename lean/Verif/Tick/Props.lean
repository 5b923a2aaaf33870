import Verif.Tick.Spec
import Verif.Tac
/-! # C52: the tick counter -/
namespace Verif.Tick
variable {rel : Prop} {clock : M Int} {Net : List Int → HProp}

/-- A tick counter created at time `t`. -/
def TickR (p : Ptr) (t : Int) : HProp :=
  ∃∃ n : Nat, (0 ≤ t ∧ t < 9007199254740) ⋏ p ↦ [timeV t, .int n]

theorem roundNat_small {n : Nat} (h : n < 2 ^ 53) : roundNat n = n := by
  unfold roundNat; rw [if_pos h]

theorem toDouble_small {z : Int} (h0 : 0 ≤ z) (h : z < 2 ^ 53) : toDouble z = z := by
  unfold toDouble
  rw [if_neg (by omega), roundNat_small (by omega)]; omega

theorem elapsed {a b : Int} (h : b ≤ a) (hb : 0 ≤ b) (ha : a < 9007199254740) :
    toDouble (difftime a b * 1000) = 1000 * (a - b) := by
  unfold difftime
  rw [toDouble_small (z := a - b) (by omega) (by omega), toDouble_small (by omega) (by omega)]
  omega

theorem loadTime_spec {p off : Nat} {b : Block} {t : Int} (h : b[off]? = some (timeV t)) (h1 : -(2 ^ 63) ≤ t) (h2 : t < 2 ^ 63) :
    Triple rel (p ↦ b) (loadTime p off) (fun r => (r = t) ⋏ p ↦ b) := by
  unfold loadTime
  step (loadInt_spec h)
  refine Triple.pure (entails_pand_r (entails_refl _) ?_)
  split <;> omega

theorem toUint64_spec {d : Int} (h0 : 0 ≤ d) (h : d < 2 ^ 64) : Triple rel emp (toUint64 d) (fun r => (r = d.toNat) ⋏ emp) := by
  unfold toUint64; rw [if_pos ⟨h0, h⟩]; exact Triple.ret

theorem tickcounter_create_spec (H : Honours rel clock Net) (tr : List Int) :
    Triple rel (Net tr) (tickcounter_create clock)
      (fun r => ∃∃ a' tr', (CreateE (¬ rel) tr (decide (r ≠ 0)) a' tr' ∧ ∀ t, a' = some t → t ∈ tr') ⋏ ORep TickR r a' ∗ Net tr') := by
  unfold tickcounter_create
  refine Triple.mallocS (by decide) (fun hr => ?_) fun p hp => ?_
  · rw [if_neg (by simp)]
    refine Triple.pure (entails_ex_r none (entails_ex_r tr (entails_pand_r ?_ ⟨Or.inl ⟨rfl, rfl, Or.inl ⟨hr, rfl⟩⟩, by simp⟩)))
    rw [ORep_null, emp_sep]; exact entails_refl _
  · rw [if_pos hp]
    step (H tr) into t
    intro hn h1 h2
    stepd (store_spec ?_)
    stepd (loadTime_spec (t := t) ?_ h1 h2)
    refine Triple.ite (fun ht => ?_) fun ht => ?_
    · subst ht
      step free_spec
      refine Triple.pure (entails_ex_r none (entails_ex_r _ (entails_pand_r ?_ ⟨Or.inl ⟨rfl, rfl, Or.inr rfl⟩, by simp⟩)))
      rw [ORep_null, emp_sep]; exact entails_refl _
    · stepd (store_spec ?_)
      obtain ⟨g1, g2, _⟩ := hn.resolve_left ht
      refine Triple.pure (entails_ex_r (some t) (entails_ex_r _ (entails_pand_r ?_ ⟨Or.inr ⟨t, by simp [hp], ht, rfl, rfl⟩, by simp⟩)))
      rw [ORep_some, TickR, hex_sep]
      refine entails_ex_r 0 ?_
      rw [pand_sep]
      exact entails_pand_r (by sep_cancel) ⟨g1, g2⟩

theorem tickcounter_destroy_spec (p : Ptr) (a : Option Int) :
    Triple rel (ORep TickR p a) (tickcounter_destroy p) (fun _ => emp) := by
  unfold tickcounter_destroy
  cases a with
  | none =>
    rw [ORep_none]; hoist; rintro rfl
    rw [if_neg (by simp)]
    exact Triple.pure (entails_refl _)
  | some t =>
    rw [ORep_some, TickR]; hoist; intro n h1 h2
    refine Triple.know (know_pts (p := p) (φ := p ≠ 0) (by pick) fun h1 _ => h1) fun hp => ?_
    rw [if_pos hp]
    exact free_spec

theorem tickcounter_get_current_ms_spec (H : Honours rel clock Net) (p : Ptr) (a : Option Int) (tr : List Int) (out old : Nat)
    (ha : ∀ t, a = some t → t ∈ tr) :
    Triple rel (ORep TickR p a ∗ Net tr ∗ out ↦ [.int old]) (tickcounter_get_current_ms clock p out)
      (fun r => ∃∃ (new : Nat) (tr' : List Int), (GetE a tr old r new tr' ∧ ∀ t ∈ tr, t ∈ tr') ⋏ ORep TickR p a ∗ Net tr' ∗ out ↦ [.int new]) := by
  unfold tickcounter_get_current_ms
  refine Triple.know (know_pts (p := out) (φ := out ≠ 0) (by pick) fun h1 _ => h1) fun ho => ?_
  cases a with
  | none =>
    rw [ORep_none]; hoist; rintro rfl
    rw [if_pos (Or.inl rfl)]
    refine Triple.pure (entails_ex_r old (entails_ex_r tr (entails_pand_r ?_ ⟨⟨by decide, rfl, rfl⟩, fun _ h => h⟩)))
    rw [pand_sep, emp_sep]; exact entails_pand_r (entails_refl _) rfl
  | some t0 =>
    rw [ORep_some, TickR]; hoist; intro n h1 h2
    refine Triple.know (know_pts (p := p) (φ := p ≠ 0) (by pick) fun h1 _ => h1) fun hp => ?_
    rw [if_neg (by simp [hp, ho])]
    step (H tr) into t
    intro hn g1 g2
    refine Triple.ite (fun ht => ?_) fun ht => ?_
    · refine Triple.pure (entails_ex_r old (entails_ex_r (tr ++ [t]) (entails_pand_r ?_ ⟨⟨t, rfl, ?_⟩, fun u hu => by simp [hu]⟩)))
      · rw [hex_sep]; refine entails_ex_r n ?_
        rw [pand_sep]; exact entails_pand_r (by sep_cancel) ⟨h1, h2⟩
      · rw [if_pos ht]; exact ⟨by decide, rfl⟩
    · obtain ⟨k1, k2, k3⟩ := hn.resolve_left ht
      have k4 := k3 t0 (ha t0 rfl)
      stepd (loadTime_spec (t := t0) ?_ (by omega) (by omega))
      rw [elapsed k4 h1 k2]
      step (toUint64_spec (d := 1000 * (t - t0)) (by omega) (by omega))
      stepd (store_spec ?_)
      stepd (loadInt_spec (n := (1000 * (t - t0)).toNat) ?_)
      stepd (store_spec ?_)
      refine Triple.pure (entails_ex_r (1000 * (t - t0)).toNat (entails_ex_r (tr ++ [t]) (entails_pand_r ?_ ⟨⟨t, rfl, ?_⟩, fun u hu => by simp [hu]⟩)))
      · rw [hex_sep]; refine entails_ex_r (1000 * (t - t0)).toNat ?_
        rw [pand_sep]; exact entails_pand_r (by sep_cancel) ⟨h1, h2⟩
      · rw [if_neg ht]; exact ⟨rfl, by omega⟩

/-! ## Histories -/

/-- the client: a table of counters, and one variable (at `out`) for results -/
def exec (clock : M Int) (out : Nat) (op : Op) (env : List Nat) : M (Option Int × List Nat) :=
  match op with
  | .create => do let h ← tickcounter_create clock; pure (some (if decide (h ≠ 0) = true then 1 else 0), env ++ [h])
  | .get i => on1 env i fun h => do let r ← tickcounter_get_current_ms clock h out; pure (some r, env)
  | .destroy i => on1 env i fun h => do tickcounter_destroy h; pure (some 0, env.set i 0)

/-- memory of the client, the counters and the clock; every counter was created at a reading of the clock -/
def Inv (Net : List Int → HProp) (out : Nat) (env : List Nat) (x : Abs) : HProp :=
  (∀ t, some t ∈ x.as → t ∈ x.tr) ⋏ Own (ORep TickR) env x.as ∗ Net x.tr ∗ out ↦ [.int x.out]

theorem exec_spec (H : Honours rel clock Net) (out : Nat) (op : Op) (env : List Nat) (x : Abs) :
    Triple rel (Inv Net out env x) (exec clock out op env) (fun r => ∃∃ x', (step (¬ rel) x op r.1 x') ⋏ Inv Net out r.2 x') := by
  obtain ⟨as, tr, v⟩ := x
  unfold Inv
  hoist
  intro hinv
  refine Triple.know (φ := env.length = as.length) (by rintro _ ⟨a, b, _, _, h, _⟩; exact h.1) fun hl => ?_
  cases op with
  | create =>
    unfold exec
    step (tickcounter_create_spec H tr) into h
    intro a' tr' hE hin
    refine Triple.pure (entails_ex_r ⟨as ++ [a'], tr', v⟩ (entails_pand_r (entails_pand_r ?_ ?_) ⟨_, a', hE, rfl, rfl, rfl⟩))
    · refine entails_trans ?_ (sep_mono Own_snoc (entails_refl _))
      rw [sep_assoc]; sep_cancel
    · intro t ht
      simp only [List.mem_append, List.mem_singleton] at ht
      rcases ht with ht | ht
      · have := hinv t ht
        rcases hE with ⟨_, _, ⟨_, rfl⟩ | rfl⟩ | ⟨u, _, _, _, rfl⟩ <;> simp [this]
      · exact hin t ht.symm
  | get i =>
    simp only [exec, on1]
    cases hi : env[i]? with
    | none => exact Triple.pure (entails_ex_r ⟨as, tr, v⟩ (entails_pand_r (entails_pand_r (entails_refl _) hinv) (Or.inl ⟨get_none hl hi, rfl, rfl⟩)))
    | some h =>
      obtain ⟨a, F, ha, h2, h3⟩ := Own_get (R := ORep TickR) hi hl
      dsimp only
      rw [h2, sep_assoc]
      step (tickcounter_get_current_ms_spec H h a tr out v (fun t ht => hinv t (by rw [← ht]; exact List.mem_of_getElem? ha))) into r
      intro new tr' hE hin
      refine Triple.pure (entails_ex_r ⟨as, tr', new⟩ (entails_pand_r (entails_pand_r ?_ (fun t ht => hin t (hinv t ht)))
        (Or.inr ⟨a, r, ha, rfl, hE, rfl⟩)))
      dsimp only
      rw [h2, sep_assoc]; sep_cancel
  | destroy i =>
    simp only [exec, on1]
    cases hi : env[i]? with
    | none => exact Triple.pure (entails_ex_r ⟨as, tr, v⟩ (entails_pand_r (entails_pand_r (entails_refl _) hinv) (Or.inl ⟨get_none hl hi, rfl, rfl⟩)))
    | some h =>
      obtain ⟨a, F, ha, h2, h3⟩ := Own_get (R := ORep TickR) hi hl
      dsimp only
      rw [h2, sep_assoc]
      step (tickcounter_destroy_spec h a)
      refine Triple.pure (entails_ex_r ⟨as.set i none, tr, v⟩ (entails_pand_r (entails_pand_r ?_ ?_) (Or.inr ⟨a, ha, rfl, rfl⟩)))
      · dsimp only; rw [h3, ORep_null, emp_sep]; sep_cancel
      · intro t ht
        refine hinv t ?_
        rcases List.mem_or_eq_of_mem_set ht with h | h
        · exact h
        · simp at h

/-- C52 over every history of any number of counters: the values reported are 1000 times the seconds between the
reading at creation and the reading of the call; calls fail exactly when the clock (or, at creation, memory) fails.  Missing: clocks that go back (see `clock_back_ub`),
or beyond the year 285 000 (contract `Honours`). -/
theorem history_partial (H : Honours rel clock Net) (out : Nat) (ops : List Op) (env : List Nat) (x : Abs) :
    Triple rel (Inv Net out env x) (runOps (exec clock out) ops env)
      (fun r => ∃∃ x', (Runs (step (¬ rel)) x ops r.1 x') ⋏ Inv Net out r.2 x') :=
  runOps_spec (good := fun _ => True) (fun op _ env x => exec_spec H out op env x) ops (fun _ _ => trivial) env x

/-- Monotone: a later successful reading of the same counter never reports less, if the clock does not go back. -/
theorem monotone {t0 : Int} {tr1 tr1' tr2 tr2' : List Int} {o1 o2 n1 n2 : Nat}
    (h1 : GetE (some t0) tr1 o1 0 n1 tr1') (h2 : GetE (some t0) tr2 o2 0 n2 tr2')
    (hlater : ∃ l, tr2 = tr1' ++ l)
    (hclock : ∀ t l, tr2' = l ++ [t] → NextReading l t) : n1 ≤ n2 := by
  obtain ⟨t, e1, h1⟩ := h1
  obtain ⟨u, e2, h2⟩ := h2
  obtain ⟨l, rfl⟩ := hlater
  split at h1
  · exact absurd rfl h1.1
  split at h2
  · exact absurd rfl h2.1
  rename_i hu
  have := ((hclock u _ e2).resolve_left hu).2.2 t (by simp [e1])
  omega

/-- The clock going back below the creation time is undefined behaviour. -/
theorem clock_back_ub : outcome (tickcounter_get_current_ms (pure 4) 1 2)
      { heap := fun p => if p = 1 then some [timeV 5, .int 0] else if p = 2 then some [.int 0] else none, alloc := bump, tick := 0 }
    = some (.error (.ub "double out of the range of uint64_t")) := by decide +kernel

/-! ## A concrete clock -/

/-- a clock in memory at address 1000: it advances by 3 s at each reading and starts at 0 -/
def demoClock : M Int := do
  let n ← loadInt 1000 0
  let n := if n < 9000000000000 then n + 3 else n
  store 1000 0 (.int n)
  pure n

def demoNet (tr : List Int) : HProp := ∃∃ n : Nat, (n ≤ 9000000000003 ∧ ∀ u ∈ tr, u ≤ n) ⋏ 1000 ↦ [.int n]

theorem demo_honours : Honours rel demoClock demoNet := by
  intro tr
  unfold demoClock demoNet
  hoist
  intro n h1 h2
  stepd (loadInt_spec (n := n) ?_)
  stepd (store_spec ?_)
  refine Triple.pure ?_
  generalize hm : (if n < 9000000000000 then n + 3 else n) = m
  have hm' : n ≤ m ∧ m ≤ 9000000000003 := by split at hm <;> omega
  refine entails_pand_r (entails_ex_r m (entails_pand_r (entails_refl _) ⟨hm'.2, ?_⟩)) ⟨Or.inr ⟨by omega, by omega, ?_⟩, by omega, by omega⟩
  · intro u hu
    simp only [List.mem_append, List.mem_singleton] at hu
    rcases hu with hu | hu
    · have := h2 u hu; omega
    · omega
  · intro u hu; have := h2 u hu; omega

def demoSt : St := { heap := fun p => if p = 1000 ∨ p = 999 then some [.int 0] else none, alloc := bump, tick := 0 }

/-- two counters, read at 9 s and 12 s after the epoch -/
example : outcome (do
      let r ← runOps (exec demoClock 999) [.create, .create, .get 0] []
      let a ← loadInt 999 0
      let q ← runOps (exec demoClock 999) [.get 1, .destroy 0, .get 0] r.2
      let b ← loadInt 999 0
      pure (r.1, a, q.1, b)) demoSt = some (.ok ([some 1, some 1, some 0], 6000, [some 0, some 0, some 58], 6000)) := by
  decide +kernel

/-- the history theorem applies to it -/
example (ops : List Op) : ∃ outs env s', runOps (exec demoClock 999) ops [] demoSt = some (.ok ((outs, env), s')) ∧
    ∃ x', Runs (step True) ⟨[], [], 0⟩ ops outs x' := by
  have t := history_partial (rel := False) demo_honours 999 ops [] ⟨[], [], 0⟩
  have hP : Inv demoNet 999 [] ⟨[], [], 0⟩ demoSt.heap := by
    refine ⟨by simp, ?_⟩
    rw [Own_nil, emp_sep]
    refine ⟨Heap.single 1000 [.int 0], Heap.single 999 [.int 0], ?_, ?_, ⟨0, ⟨by omega, by simp⟩, by decide, by decide, rfl⟩, by decide, by decide, rfl⟩
    · intro p; unfold Heap.single
      by_cases h : p = 1000
      · right; rw [if_neg (by omega)]
      · left; rw [if_neg h]
    · funext p; unfold Heap.union Heap.single demoSt
      by_cases h : p = 1000
      · simp [h]
      · by_cases h' : p = 999 <;> simp [h, h']
  obtain ⟨r, s', h1, ⟨x', hx, hh⟩⟩ := t.run demoSt ⟨1001, fun p hp => by
    have : ¬ (p = 1000 ∨ p = 999) := by omega
    simp [demoSt, this]⟩ (fun h => h.elim) hP
  exact ⟨r.1, r.2, s', h1, x', by simpa using hx⟩

end Verif.Tick
