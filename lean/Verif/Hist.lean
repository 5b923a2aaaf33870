import Verif.Pool
/-! # Histories over any client state, reference-counted objects, and interleaved threads -/
namespace Verif
variable {rel : Prop}

/-! ## Histories -/

/-- run a list of client operations, collecting what they return -/
def runOps {Op O E : Type} (exec : Op → E → M (O × E)) : List Op → E → M (List O × E)
  | [], e => pure ([], e)
  | op :: ops, e => do
    let r ← exec op e
    let rs ← runOps exec ops r.2
    pure (r.1 :: rs.1, rs.2)

/-- a sequence of abstract steps -/
inductive Runs {X Op O : Type} (step : X → Op → O → X → Prop) : X → List Op → List O → X → Prop
  | nil (x) : Runs step x [] [] x
  | cons {x op o x1 ops os x2} : step x op o x1 → Runs step x1 ops os x2 → Runs step x (op :: ops) (o :: os) x2

theorem runOps_spec {Op O E X : Type} {exec : Op → E → M (O × E)} {Inv : E → X → HProp} {step : X → Op → O → X → Prop} {good : Op → Prop}
    (one : ∀ op, good op → ∀ e x, Triple rel (Inv e x) (exec op e) (fun r => ∃∃ x', (step x op r.1 x') ⋏ Inv r.2 x'))
    (ops : List Op) (hops : ∀ op ∈ ops, good op) (e : E) (x : X) :
    Triple rel (Inv e x) (runOps exec ops e) (fun r => ∃∃ x', (Runs step x ops r.1 x') ⋏ Inv r.2 x') := by
  induction ops generalizing e x with
  | nil => exact Triple.pure (entails_ex_r x (entails_pand_r (entails_refl _) (Runs.nil x)))
  | cons op ops ih =>
    unfold runOps
    refine Triple.bind' (one op (hops op (by simp)) e x) fun r => ?_
    hoist; intro x1 h1
    refine Triple.bind' (ih (fun o ho => hops o (by simp [ho])) r.2 x1) fun rs => ?_
    hoist; intro x2 h2
    exact Triple.pure (entails_ex_r x2 (entails_pand_r (entails_refl _) (Runs.cons h1 h2)))

/-! ## Reference-counted objects

A client keeps, for every object it has created, its address and the number of references it holds. -/

/-- an object with `n` references; with none left it occupies no memory -/
def Sh {A : Type} (R : Ptr → Nat → A → HProp) (h : Ptr) (x : Nat × A) : HProp :=
  if x.1 = 0 then emp else R h x.1 x.2

/-- what the client knows: (address, references held) -/
abbrev RefEnv := List (Nat × Nat)

/-- memory of all objects: `as` lists (references, value) -/
def Shared {A : Type} (R : Ptr → Nat → A → HProp) (env : RefEnv) (as : List (Nat × A)) : HProp :=
  (env.map Prod.snd = as.map Prod.fst) ⋏ Pool (Sh R) ((env.map Prod.fst).zip as)

theorem Shared_eq {A : Type} {R : Ptr → Nat → A → HProp} {env : RefEnv} {as : List (Nat × A)} :
    Shared R env as = ((env.map Prod.snd = as.map Prod.fst) ⋏ Own (Sh R) (env.map Prod.fst) as) := by
  unfold Shared Own
  funext h
  apply propext
  constructor
  · rintro ⟨h1, h2⟩
    exact ⟨h1, by have := congrArg List.length h1; simpa using this, h2⟩
  · rintro ⟨h1, _, h2⟩
    exact ⟨h1, h2⟩

/-- all references given back: no memory in use -/
theorem Shared_done {A : Type} {R : Ptr → Nat → A → HProp} {env : RefEnv} {as : List (Nat × A)} (h : ∀ a ∈ as, a.1 = 0) :
    Shared R env as ⊢ₕ emp := by
  unfold Shared
  refine entails_pand_l fun hl => ?_
  clear hl
  induction as generalizing env with
  | nil => simp only [List.zip_nil_right, Pool]; exact entails_refl _
  | cons a as ih =>
    cases env with
    | nil => simp only [List.map_nil, List.zip_nil_left, Pool]; exact entails_refl _
    | cons e env =>
      simp only [List.map_cons, List.zip_cons_cons, Pool]
      rw [Sh, if_pos (h a (by simp)), emp_sep]
      exact ih (fun a ha => h a (by simp [ha]))

/-- the client acts on object `i` if it holds a reference to it -/
def onRef {O : Type} (env : RefEnv) (i : Nat) (k : Ptr → Nat → M (Option O × RefEnv)) : M (Option O × RefEnv) :=
  match env[i]? with
  | some (h, n + 1) => k h n
  | _ => pure (none, env)

/-- meaning: a call on object `i`, which has `n+1` references, giving `o` and leaving `n'` references; not made if no reference is held -/
def OnRef {A O : Type} (as : List (Nat × A)) (i : Nat) (E : Nat → A → O → Nat → Prop) (o : Option O) (as' : List (Nat × A)) : Prop :=
  ((∀ n a, as[i]? ≠ some (n + 1, a)) ∧ o = none ∧ as' = as) ∨
  ∃ n a r n', as[i]? = some (n + 1, a) ∧ o = some r ∧ E n a r n' ∧ as' = as.set i (n', a)

theorem onRef_spec {A O : Type} {R : Ptr → Nat → A → HProp} {env : RefEnv} {as : List (Nat × A)} {i : Nat}
    {k : Ptr → Nat → M (Option O × RefEnv)} {E : Nat → A → O → Nat → Prop}
    (hk : ∀ h n a, env[i]? = some (h, n + 1) → as[i]? = some (n + 1, a) →
      Triple rel (R h (n + 1) a) (k h n) (fun r => ∃∃ (o : O) (n' : Nat), (r = (some o, env.set i (h, n')) ∧ E n a o n') ⋏ Sh R h (n', a))) :
    Triple rel (Shared R env as) (onRef env i k) (fun r => ∃∃ as', (OnRef as i E r.1 as') ⋏ Shared R r.2 as') := by
  rw [Shared_eq]; hoist; intro he
  have hl : (env.map Prod.fst).length = as.length := by have := congrArg List.length he; simpa using this
  have skip : (∀ n a, as[i]? ≠ some (n + 1, a)) → Triple rel (Own (Sh R) (env.map Prod.fst) as) (pure (none, env) : M (Option O × RefEnv))
      (fun r => ∃∃ as', (OnRef as i E r.1 as') ⋏ Shared R r.2 as') := by
    intro h
    refine Triple.pure (entails_ex_r as (entails_pand_r ?_ (Or.inl ⟨h, rfl, rfl⟩)))
    rw [Shared_eq]; exact entails_pand_r (entails_refl _) he
  have corr : ∀ j : Nat, (env[j]?).map Prod.snd = (as[j]?).map Prod.fst := by
    intro j; rw [← List.getElem?_map, ← List.getElem?_map, he]
  unfold onRef
  rcases he1 : env[i]? with _ | ⟨h, _ | n⟩
  · refine skip fun n a ha => ?_
    have := corr i; rw [he1, ha] at this; simp at this
  · refine skip fun n a ha => ?_
    have := corr i; rw [he1, ha] at this; simp at this
  · have hp : (env.map Prod.fst)[i]? = some h := by simp [he1]
    obtain ⟨⟨m, a⟩, F, ha, e1, e2⟩ := Own_get (R := Sh R) hp hl
    have hm : m = n + 1 := by have := corr i; rw [he1, ha] at this; simpa using this.symm
    subst hm
    rw [e1]
    have hSh : Sh R h (n + 1, a) = R h (n + 1) a := if_neg (by simp)
    rw [hSh]
    dsimp only
    have := (hk h n a he1 ha).frame F
    refine this.conseq (entails_refl _) fun r => ?_
    rw [hex_sep]; refine entails_ex_l fun o => ?_
    rw [hex_sep]; refine entails_ex_l fun n' => ?_
    rw [pand_sep]; refine entails_pand_l fun ⟨hr, hE⟩ => ?_
    refine entails_ex_r (as.set i (n', a)) (entails_pand_r ?_ (Or.inr ⟨n, a, o, n', ha, by rw [hr], hE, rfl⟩))
    rw [Shared_eq, hr]
    refine entails_pand_r ?_ ?_
    · dsimp only
      rw [List.map_set, e2]; exact entails_refl _
    · dsimp only
      rw [List.map_set, List.map_set, he]

/-- the client stores a new reference -/
theorem Shared_snoc {A : Type} {R : Ptr → Nat → A → HProp} {env : RefEnv} {as : List (Nat × A)} {h n : Nat} {a : A} :
    Sh R h (n, a) ∗ Shared R env as ⊢ₕ Shared R (env ++ [(h, n)]) (as ++ [(n, a)]) := by
  rw [Shared_eq, Shared_eq, sep_pand]
  refine entails_pand_l fun he => entails_pand_r ?_ (by simp [he])
  rw [List.map_append]
  exact Own_snoc

/-! ## Threads -/

/-- A thread: a sequence of atomic actions on memory, with outputs. -/
inductive Prog (O : Type) where
  | done
  | act (c : M Nat) (k : Nat → Prog O)
  | emit (o : O) (k : Prog O)

/-- one thread run alone -/
def Prog.run {O : Type} : Prog O → M (List O)
  | .done => pure []
  | .act c k => do let r ← c; (k r).run
  | .emit o k => do let os ← k.run; pure (o :: os)

/-- Threads run in the order given by a schedule (a list of thread numbers; entries for finished threads are ignored).
The log records which thread output what. -/
def runSched {O : Type} : List Nat → List (Prog O) → M (List (Nat × O) × List (Prog O))
  | [], ts => pure ([], ts)
  | i :: sched, ts =>
    match ts[i]? with
    | some (.act c k) => do
      let r ← c
      runSched sched (ts.set i (k r))
    | some (.emit o k) => do
      let l ← runSched sched (ts.set i k)
      pure ((i, o) :: l.1, l.2)
    | _ => runSched sched ts

end Verif
