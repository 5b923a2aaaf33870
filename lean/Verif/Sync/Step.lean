import Verif.Sync.Inv
/-! # The invariant is kept by every step -/
namespace Verif.Sync
variable {pts : Tid → Pt} {mem : Nat → Cell} {log : Log}

theorem Good_used {u : Tid} {pt : Pt} {p : Nat} (g : Good mem log u pt) (h : pt.pend = some p) : mem p ≠ .free := by
  have two : ∀ {q : Nat} {c : Cell}, (if q = 0 then none else some q) = some p → (q = 0 ∨ mem q = c) → mem p = c := by
    intro q c h1 h2
    by_cases e : q = 0
    · rw [if_pos e] at h1; cases h1
    · rw [if_neg e] at h1; cases h1; exact h2.resolve_left e
  have one : ∀ {q : Nat} {c : Cell}, some q = some p → mem q = c → mem p = c := by
    intro q c h1 h2; cases h1; exact h2
  cases pt with
  | iRaw q => rw [one h g]; nofun
  | iFree q => rw [one h g]; nofun
  | dStart q => rw [one h g]; nofun
  | dFree q => rw [one h g]; nofun
  | ciRaw q => rw [one h g]; nofun
  | cdStart q => rw [one h g]; nofun
  | cdFree q => rw [one h g]; nofun
  | iDone q => rw [two h g]; nofun
  | ciDone q => rw [two h g]; nofun
  | dDone q r => cases r with
    | ok => cases h
    | error => rw [two h g]; nofun
  | _ => cases h

/-- a step of thread `t` that is not recorded -/
theorem J_silent (j : J pts mem log) {t : Tid} {pt' : Pt} {mem' : Nat → Cell} (hop : pt'.op = (pts t).op)
    (hown : ∀ u h, mem' h = .mutex (some u) ↔ (held log u h = true ∨ (upd pts t pt' u).owns h))
    (hlv : ∀ h, live log h = true → ∃ o, mem' h = .mutex o) (hlvc : ∀ c, liveC log c = true → mem' c = .cond)
    (hgood : Good mem' log t pt') (hmine : ∀ u p, u ≠ t → (pts u).pend = some p → mem' p = mem p)
    (hpend : ∀ p, pt'.pend = some p → (pts t).pend = some p ∨ mem p = .free ∧ p ≠ 0)
    (hall : ∀ p, mem' p ≠ .free → mem p ≠ .free ∨ pt'.pend = some p) (hdone : ∀ p, (pts t).pend = some p → pt'.pend = some p ∨ mem' p = .free)
    (hw : ∀ c h, pt'.waits = some (c, h) → (pts t).waits = some (c, h)) : J (upd pts t pt') mem' log := by
  obtain ⟨call, own, lv, lvc, hl, good, disj, pfree, all, nz, same⟩ := j
  have used : ∀ u p, (pts u).pend = some p → mem p ≠ .free := fun u p h => Good_used (good u) h
  constructor
  · intro u; have := call u; simp only [upd]; split
    · rename_i e; rw [hop, ← e]; exact this
    · exact this
  · exact hown
  · intro h k; exact ⟨(lv h k).1, hlv h k⟩
  · intro h k; exact ⟨(lvc h k).1, hlvc h k⟩
  · exact hl
  · intro u; simp only [upd]; split
    · rename_i e; rw [e]; exact hgood
    · rename_i e; exact Good_frame (good u) (fun p hp => hmine u p e hp) (fun _ _ _ _ h => h) (fun _ _ _ _ h => h) (fun _ h => h)
  · intro u v p; simp only [upd]
    have d := disj u v p
    have d1 := disj t v p
    have d2 := disj u t p
    have k := hpend p
    have k1 := used u p
    have k2 := used v p
    grind
  · intro u p; simp only [upd]
    have k := hpend p
    have f1 := pfree u p
    have f2 := pfree t p
    have k1 := lv p
    have k2 := lvc p
    grind
  · intro p hp
    rcases hall p hp with h | h
    · rcases all p h with h | h | ⟨u, h⟩
      · exact Or.inl h
      · exact Or.inr (Or.inl h)
      · by_cases e : u = t
        · subst e
          rcases hdone p h with h | h
          · exact Or.inr (Or.inr ⟨u, by simp [upd, h]⟩)
          · exact absurd h hp
        · exact Or.inr (Or.inr ⟨u, by simp [upd, e, h]⟩)
    · exact Or.inr (Or.inr ⟨t, by simp [upd, h]⟩)
  · intro u p; simp only [upd]
    have k := hpend p
    have n1 := nz u p
    have n2 := nz t p
    grind
  · intro u v c h h'; simp only [upd]
    have s1 := same u v c h h'
    have s2 := same t v c h h'
    have s3 := same u t c h h'
    have s4 := same t t c h h'
    have w1 := hw c h
    have w2 := hw c h'
    grind

/-- memory does not change -/
theorem J_same (j : J pts mem log) {t : Tid} {pt' : Pt} (hop : pt'.op = (pts t).op) (ho : ∀ h, pt'.owns h ↔ (pts t).owns h) (hgood : Good mem log t pt')
    (hp : pt'.pend = (pts t).pend) (hw : ∀ c h, pt'.waits = some (c, h) → (pts t).waits = some (c, h)) : J (upd pts t pt') mem log := by
  refine J_silent j hop ?_ (fun h k => (j.lv h k).2) (fun c k => (j.lvc c k).2) hgood (fun _ _ _ _ => rfl) (fun p h => Or.inl (by rw [← hp]; exact h))
    (fun p h => Or.inl h) (fun p h => Or.inl (by rw [hp]; exact h)) hw
  intro u h
  rw [j.own u h]
  simp only [upd]
  split
  · rename_i e; rw [ho, e]
  · rfl

/-- the block `q`, which belongs to the step only, changes from `a` to `b`; neither is owned by a thread -/
theorem J_mine (j : J pts mem log) {t : Tid} {pt' : Pt} {q : Nat} {b : Cell} (hop : pt'.op = (pts t).op) (ho : ∀ h, ¬ pt'.owns h) (ho' : ∀ h, ¬ (pts t).owns h)
    (ha : ∀ u, mem q ≠ .mutex (some u)) (hb : ∀ u, b ≠ .mutex (some u))
    (hgood : Good (upd mem q b) log t pt') (hq : (pts t).pend = some q ∨ ((pts t).pend = none ∧ mem q = .free ∧ q ≠ 0))
    (hp : pt'.pend = some q ∨ (pt'.pend = none ∧ b = .free)) (hw : pt'.waits = none) : J (upd pts t pt') (upd mem q b) log := by
  have free : live log q = false ∧ liveC log q = false := by
    rcases hq with h | ⟨_, h, _⟩
    · exact j.pfree t q h
    · have k1 := j.lv q
      have k2 := j.lvc q
      grind
  have used : ∀ u, u ≠ t → (pts u).pend ≠ some q := by
    intro u hu k
    rcases hq with h | ⟨_, h, _⟩
    · exact hu (j.disj u t q k h)
    · exact Good_used (j.good u) k h
  refine J_silent j hop ?_ ?_ ?_ hgood ?_ ?_ ?_ ?_ (fun c h k => by rw [hw] at k; cases k)
  · intro u h
    have o := j.own u h
    simp only [upd]
    have a1 := ha u
    have b1 := hb u
    have c1 := ho h
    have c2 := ho' h
    grind
  · intro h k
    have := (j.lv h k).2
    simp only [upd]
    grind
  · intro h k
    have := (j.lvc h k).2
    simp only [upd]
    grind
  · intro u p hu k
    have := used u hu
    simp only [upd]
    grind
  · intro p k; grind
  · intro p k; simp only [upd] at k; grind
  · intro p k; simp only [upd]; grind

/-- the live mutex `h` is taken or given up by the thread `t` -/
theorem J_mutex (j : J pts mem log) {t : Tid} {pt' : Pt} {q : Nat} {o : Option Tid} (hop : pt'.op = (pts t).op) (hl : live log q = true)
    (h1 : mem q = .mutex none ∧ o = some t ∨ mem q = .mutex (some t) ∧ o = none) (hh : held log t q = false)
    (ho : ∀ h, pt'.owns h ↔ (h = q ∧ o = some t)) (ho' : ∀ h, (pts t).owns h → h = q)
    (hgood : Good mem log t pt') (hp : pt'.pend = none) (hp' : (pts t).pend = none) (hw : ∀ c h, pt'.waits = some (c, h) → (pts t).waits = some (c, h)) :
    J (upd pts t pt') (upd mem q (.mutex o)) log := by
  have used : ∀ u, (pts u).pend ≠ some q := by
    intro u k; have := j.pfree u q k; grind
  have noc : liveC log q = false := by
    have := j.lvc q
    grind
  refine J_silent j hop ?_ ?_ ?_ (Good_frame hgood (fun p k => by rw [hp] at k; cases k) (fun _ _ _ _ h => h) (fun _ _ _ _ h => h) (fun _ h => h)) ?_ ?_ ?_ ?_ hw
  · intro u h
    have k := j.own u h
    have k2 := j.own u q
    have k3 := j.own t h
    have c1 := ho h
    have c2 := ho' h
    simp only [upd]
    by_cases e : h = q
    · subst e
      by_cases e2 : u = t
      · subst e2; simp only [if_true]; grind
      · simp only [if_true, if_neg e2]; grind
    · by_cases e2 : u = t
      · subst e2; simp only [if_true, if_neg e]; grind
      · simp only [if_neg e2, if_neg e]; exact k
  · intro h k
    have := (j.lv h k).2
    simp only [upd]
    grind
  · intro h k
    have := (j.lvc h k).2
    simp only [upd]
    grind
  · intro u p hu k
    have := used u
    simp only [upd]
    grind
  · intro p k; grind
  · intro p k; simp only [upd] at k; grind
  · intro p k; grind

/-- a thread that is about to return -/
structure Returns (pt : Pt) (mem : Nat → Cell) (log : Log) (t : Tid) (op : Op) (r : Ret) : Prop where
  hop : pt.op = some op
  lve : ∀ q, liveStep q (live log q) (.ret t op r) = true ↔ (live log q = true ∨ pt.pend = some q ∧ mem q = .mutex none)
  lvc : ∀ q, liveCStep q (liveC log q) (.ret t op r) = true ↔ (liveC log q = true ∨ pt.pend = some q ∧ mem q = .cond)
  hld : ∀ q, heldStep t q (held log t q) (.ret t op r) = true ↔ (held log t q = true ∨ pt.owns q)
  pend : ∀ q, pt.pend = some q → q ≠ 0 ∧ (mem q = .mutex none ∨ mem q = .cond)
  owns : ∀ q, pt.owns q → Sync.live log q = true

theorem returns {pt : Pt} {t : Tid} {op : Op} {r : Ret} (ht : pt.thr = .run op (.ret r)) (g : Good mem log t pt) (hl : ∀ q, pt.owns q → q ≠ 0) :
    Returns pt mem log t op r := by
  cases pt with
  | iDone p =>
    cases ht
    constructor <;> simp only [Option.getD, liveStep, liveCStep, heldStep, Pt.pend, Pt.owns, Pt.op, Good] at * <;> grind
  | ciDone p =>
    cases ht
    constructor <;> simp only [Option.getD, liveStep, liveCStep, heldStep, Pt.pend, Pt.owns, Pt.op, Good] at * <;> grind
  | lDone h r =>
    cases ht
    cases r <;> constructor <;> simp only [Option.getD, liveStep, liveCStep, heldStep, Pt.pend, Pt.owns, Pt.op, Good] at * <;> grind
  | uDone h r =>
    cases ht
    cases r <;> constructor <;> simp only [Option.getD, liveStep, liveCStep, heldStep, Pt.pend, Pt.owns, Pt.op, Good] at * <;> grind
  | dDone h r =>
    cases ht
    cases r <;> constructor <;> simp only [Option.getD, liveStep, liveCStep, heldStep, Pt.pend, Pt.owns, Pt.op, Good] at * <;> grind
  | pDone c r =>
    cases ht
    constructor <;> simp only [Option.getD, liveStep, liveCStep, heldStep, Pt.pend, Pt.owns, Pt.op, Good] at * <;> grind
  | wDone c h ms r =>
    cases ht
    constructor <;> simp only [Option.getD, liveStep, liveCStep, heldStep, Pt.pend, Pt.owns, Pt.op, Good] at * <;> grind
  | cdDone c =>
    cases ht
    constructor <;> simp only [Option.getD, liveStep, liveCStep, heldStep, Pt.pend, Pt.owns, Pt.op, Good] at * <;> grind
  | _ => exact absurd ht (by simp [Pt.thr, Pt.prog, Lock_Init, Condition_Init])

/-- a function returns -/
theorem J_ret (j : J pts mem log) {t : Tid} {op : Op} {r : Ret} (ht : (pts t).thr = .run op (.ret r)) (hl0 : ∀ q, (pts t).owns q → q ≠ 0) :
    J (upd pts t .idle) mem (log ++ [.ret t op r]) := by
  have R := returns ht (j.good t) hl0
  obtain ⟨call, own, lv, lvc, hl, good, disj, pfree, all, nz, same⟩ := j
  have other : ∀ u q, u ≠ t → heldStep u q (held log u q) (.ret t op r) = held log u q := by
    intro u q hu
    have hu' : t ≠ u := fun e => hu e.symm
    cases op <;> cases r <;> simp only [heldStep] <;> (try (rename_i r; cases r)) <;> simp [heldStep, hu']
  constructor
  · intro u; have := call u; simp only [inCall_snoc, inCallStep, upd]; by_cases e : u = t
    · subst e; simp [Pt.op]
    · rw [if_neg e, if_neg (fun k => e k.symm)]; exact this
  · intro u h
    simp only [held_snoc, upd]
    by_cases e : u = t
    · subst e; rw [own u h, R.hld h, if_pos rfl]; simp [Pt.owns]
    · rw [if_neg e, other u h e]; exact own u h
  · intro h k
    rw [live_snoc, R.lve] at k
    rcases k with k | ⟨k1, k2⟩
    · exact lv h k
    · exact ⟨(R.pend h k1).1, none, k2⟩
  · intro h k
    rw [liveC_snoc, R.lvc] at k
    rcases k with k | ⟨k1, k2⟩
    · exact lvc h k
    · exact ⟨(R.pend h k1).1, k2⟩
  · intro u h k
    rw [held_snoc] at k
    rw [live_snoc, R.lve]
    left
    by_cases e : u = t
    · subst e
      rcases (R.hld h).1 k with k | k
      · exact hl u h k
      · exact R.owns h k
    · rw [other u h e] at k; exact hl u h k
  · intro u
    simp only [upd]
    by_cases e : u = t
    · rw [if_pos e]; trivial
    · rw [if_neg e]
      refine Good_frame (good u) (fun _ _ => rfl) ?_ ?_ ?_
      · intro p _ _ _ k; rw [live_snoc, R.lve]; exact Or.inl k
      · intro p _ _ _ k; rw [liveC_snoc, R.lvc]; exact Or.inl k
      · intro p k; rw [held_snoc, other u p e]; exact k
  · intro u v p
    simp only [upd]
    have := disj u v p
    have z : Pt.idle.pend = none := rfl
    grind
  · intro u p
    simp only [upd, live_snoc, liveC_snoc]
    by_cases e : u = t
    · rw [if_pos e]; intro k; cases k
    · rw [if_neg e]
      intro k
      have f := pfree u p k
      have l1 := R.lve p
      have l2 := R.lvc p
      have d := disj u t p k
      grind
  · intro p hp
    rw [live_snoc, liveC_snoc, R.lve, R.lvc]
    rcases all p hp with h | h | ⟨u, h⟩
    · exact Or.inl (Or.inl h)
    · exact Or.inr (Or.inl (Or.inl h))
    · by_cases e : u = t
      · subst e
        rcases (R.pend p h).2 with k | k
        · exact Or.inl (Or.inr ⟨h, k⟩)
        · exact Or.inr (Or.inl (Or.inr ⟨h, k⟩))
      · exact Or.inr (Or.inr ⟨u, by simp [upd, e, h]⟩)
  · intro u p
    simp only [upd]
    have := nz u p
    have z : Pt.idle.pend = none := rfl
    grind
  · intro u v c h h'
    simp only [upd]
    have := same u v c h h'
    have z : Pt.idle.waits = none := rfl
    grind

/-- the threads that sleep on `c` are woken -/
def wakePt (c : Nat) (pt : Pt) : Pt :=
  match pt with
  | .wSleep c' h ms => if c' = c then .wWoken c' h ms 0 else .wSleep c' h ms
  | x => x

theorem wakePt_thr {c : Nat} : wakeAll c (fun t => (pts t).thr) = fun t => (wakePt c (pts t)).thr := by
  funext t
  unfold wakeAll
  dsimp only
  cases h : pts t <;> simp only [wakePt, Pt.thr]
  split <;> rfl

theorem J_broadcast (j : J pts mem log) {c : Nat} : J (fun t => wakePt c (pts t)) mem log := by
  obtain ⟨call, own, lv, lvc, hl, good, disj, pfree, all, nz, same⟩ := j
  have e1 : ∀ pt, (wakePt c pt).op = pt.op := by intro pt; cases pt <;> simp only [wakePt]; split <;> rfl
  have e2 : ∀ pt h, (wakePt c pt).owns h = pt.owns h := by intro pt h; cases pt <;> simp only [wakePt]; split <;> rfl
  have e3 : ∀ pt, (wakePt c pt).pend = pt.pend := by intro pt; cases pt <;> simp only [wakePt]; split <;> rfl
  have e4 : ∀ pt, (wakePt c pt).waits = pt.waits := by intro pt; cases pt <;> simp only [wakePt]; split <;> rfl
  have e5 : ∀ t pt, Good mem log t (wakePt c pt) = Good mem log t pt := by intro t pt; cases pt <;> simp only [wakePt]; split <;> rfl
  constructor
  · intro t; rw [e1]; exact call t
  · intro t h; rw [e2]; exact own t h
  · exact lv
  · exact lvc
  · exact hl
  · intro t; rw [e5]; exact good t
  · intro t u p; rw [e3, e3]; exact disj t u p
  · intro t p; rw [e3]; exact pfree t p
  · intro p hp; simp only [e3]; exact all p hp
  · intro t p; rw [e3]; exact nz t p
  · intro t u c h h'; rw [e4, e4]; exact same t u c h h'

end Verif.Sync
