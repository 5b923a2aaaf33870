import Verif.Lib
/-! # Many handles at once, histories of calls, and concrete start states (shared by the history theorems) -/

namespace Verif
variable {A : Type} {rel : Prop}

/-- Separate ownership of every handle in a list of (handle, abstract value). -/
def Pool (R : Ptr → A → HProp) : List (Nat × A) → HProp
  | [] => emp
  | x :: l => R x.1 x.2 ∗ Pool R l

theorem Pool_append (R : Ptr → A → HProp) (l m : List (Nat × A)) : Pool R (l ++ m) = (Pool R l ∗ Pool R m) := by
  induction l with
  | nil => simp [Pool, emp_sep]
  | cons x l ih => simp [Pool, ih, sep_assoc]

theorem Pool_snoc (R : Ptr → A → HProp) (l : List (Nat × A)) (h : Nat) (a : A) :
    Pool R (l ++ [(h, a)]) = (R h a ∗ Pool R l) := by
  rw [Pool_append, Pool, Pool, sep_emp, sep_comm]

/-- One handle can be taken out, and put back with another value. -/
theorem Pool_get {R : Ptr → A → HProp} {l : List (Nat × A)} {i : Nat} {x : Nat × A} (h : l[i]? = some x) :
    ∃ F, Pool R l = (R x.1 x.2 ∗ F) ∧ ∀ y : Nat × A, Pool R (l.set i y) = (R y.1 y.2 ∗ F) := by
  induction l generalizing i with
  | nil => simp at h
  | cons z l ih =>
    cases i with
    | zero => simp at h; subst h; exact ⟨Pool R l, rfl, fun y => rfl⟩
    | succ i =>
      simp at h
      obtain ⟨F, h1, h2⟩ := ih h
      refine ⟨R z.1 z.2 ∗ F, ?_, fun y => ?_⟩
      · rw [Pool, h1, sep_left_comm]
      · rw [List.set_cons_succ, Pool, h2, sep_left_comm]

/-- Two different handles can be taken out at once. -/
theorem Pool_get2 {R : Ptr → A → HProp} {l : List (Nat × A)} {i j : Nat} {x z : Nat × A}
    (hi : l[i]? = some x) (hj : l[j]? = some z) (hne : i ≠ j) :
    ∃ F, Pool R l = (R x.1 x.2 ∗ R z.1 z.2 ∗ F) ∧
      ∀ y : Nat × A, Pool R (l.set i y) = (R y.1 y.2 ∗ R z.1 z.2 ∗ F) := by
  induction l generalizing i j with
  | nil => simp at hi
  | cons w l ih =>
    cases i with
    | zero =>
      cases j with
      | zero => exact absurd rfl hne
      | succ j =>
        simp at hi hj; subst hi
        obtain ⟨F, h1, h2⟩ := Pool_get (R := R) hj
        exact ⟨F, by rw [Pool, h1], fun y => by rw [List.set_cons_zero, Pool, h1]⟩
    | succ i =>
      cases j with
      | zero =>
        simp at hi hj; subst hj
        obtain ⟨F, h1, h2⟩ := Pool_get (R := R) hi
        exact ⟨F, by rw [Pool, h1, sep_left_comm], fun y => by rw [List.set_cons_succ, Pool, h2, sep_left_comm]⟩
      | succ j =>
        simp at hi hj
        obtain ⟨F, h1, h2⟩ := ih hi hj (by omega)
        refine ⟨R w.1 w.2 ∗ F, ?_, fun y => ?_⟩
        · rw [Pool, h1]; simp only [sep_left_comm (R w.1 w.2)]
        · rw [List.set_cons_succ, Pool, h2]; simp only [sep_left_comm (R w.1 w.2)]

/-- Running a triple from a concrete state with nothing else in memory. -/
theorem Triple.run {α} {P : HProp} {c : M α} {Q : α → HProp} (t : Triple rel P c Q) (s : St)
    (hf : s.heap.fin) (hr : rel → Reliable s.alloc) (hP : P s.heap) :
    ∃ a s', c s = some (.ok (a, s')) ∧ Q a s'.heap := by
  obtain ⟨a, s', h1, _, _, h4⟩ := t s emp hf hr (by rwa [sep_emp])
  rw [sep_emp] at h4
  exact ⟨a, s', h1, h4⟩

theorem Heap.fin_empty : Heap.fin Heap.empty := ⟨0, fun _ _ => rfl⟩

/-- The start state: nothing allocated, any allocator. -/
def St.start (al : Nat → Heap → Nat → Nat) : St := ⟨Heap.empty, al, 0⟩

/-- The allocator that hands out 1, 2, 3, … -/
def bump : Nat → Heap → Nat → Nat := fun t _ _ => t + 1

/-- There is a reliable allocator, so `rel` is not a contradictory assumption. -/
theorem exists_reliable : ∃ al, Reliable al := by
  classical
  refine ⟨fun _ h _ => if hf : h.fin then hf.choose + 1 else 0, fun t h n hf _ => ?_⟩
  simp only [hf, dif_pos]
  exact ⟨by simp, hf.choose_spec _ (by omega)⟩

/-! ## Contract shapes shared by the modules with handles -/

/-- A handle that may be `NULL` (`none`). -/
def ORep (R : Ptr → A → HProp) (h : Ptr) : Option A → HProp
  | none => (h = 0) ⋏ emp
  | some a => R h a

theorem ORep_none {R : Ptr → A → HProp} {h : Ptr} : ORep R h none = ((h = 0) ⋏ emp) := rfl
theorem ORep_some {R : Ptr → A → HProp} {h : Ptr} {a : A} : ORep R h (some a) = R h a := rfl
theorem ORep_null {R : Ptr → A → HProp} : ORep R 0 none = emp := by rw [ORep_none, eq_self, true_pand]

/-- Result of a constructor: `NULL`, owning nothing, only if `bad`; otherwise a handle with a value
satisfying `ok`. -/
def Made (R : Ptr → A → HProp) (bad : Prop) (ok : A → Prop) (r : Ptr) : HProp :=
  if r = 0 then (bad ⋏ emp) else ∃∃ x : A, (ok x) ⋏ R r x

theorem Made_zero {R : Ptr → A → HProp} {bad : Prop} {ok : A → Prop} : Made R bad ok 0 = (bad ⋏ emp) := if_pos rfl
theorem Made_ne {R : Ptr → A → HProp} {bad : Prop} {ok : A → Prop} {r : Ptr} (h : r ≠ 0) :
    Made R bad ok r = ∃∃ x : A, (ok x) ⋏ R r x := if_neg h

theorem Made_fail {R : Ptr → A → HProp} {bad : Prop} {ok : A → Prop} (h : bad) : emp ⊢ₕ Made R bad ok 0 := by
  rw [Made_zero]; exact entails_pand_r (entails_refl _) h
theorem Made_fail_sep {R : Ptr → A → HProp} {bad : Prop} {ok : A → Prop} {P Q : HProp} (h : bad) (hp : P ⊢ₕ Q) :
    P ⊢ₕ Made R bad ok 0 ∗ Q := by
  rw [Made_zero, pand_sep, emp_sep]; exact entails_pand_r hp h
theorem Made_ok {R : Ptr → A → HProp} {bad : Prop} {ok : A → Prop} {r : Ptr} {P : HProp} (x : A) (hr : r ≠ 0)
    (h : ok x) (hp : P ⊢ₕ R r x) : P ⊢ₕ Made R bad ok r := by
  rw [Made_ne hr]; exact entails_ex_r x (entails_pand_r hp h)
theorem Made_ok_sep {R : Ptr → A → HProp} {bad : Prop} {ok : A → Prop} {r : Ptr} {P Q : HProp} (x : A) (hr : r ≠ 0)
    (h : ok x) (hp : P ⊢ₕ R r x ∗ Q) : P ⊢ₕ Made R bad ok r ∗ Q := by
  rw [Made_ne hr, hex_sep]; refine entails_ex_r x ?_; rw [pand_sep]; exact entails_pand_r hp h

/-- Result of a call that changes one object: success (0) with the effect `ok`, or a nonzero result, the object
unchanged, and a reason: an argument error `bad` or a refused allocation `oom`. -/
def Effect (bad oom : Prop) (ok : A → A → Prop) (a : Option A) (r : Nat) (a' : Option A) : Prop :=
  (r = 0 ∧ ¬ bad ∧ ∃ c c', a = some c ∧ a' = some c' ∧ ok c c') ∨ (r ≠ 0 ∧ a' = a ∧ (bad ∨ oom))

/-! ## Histories -/

/-- Ownership of all handles of a client: `env` are the handle values, `as` the abstract values. -/
def Own (R : Ptr → A → HProp) (env : List Nat) (as : List A) : HProp :=
  (env.length = as.length) ⋏ Pool R (env.zip as)

theorem Own_nil (R : Ptr → A → HProp) : Own R [] [] = emp := by
  simp [Own, Pool, true_pand]

theorem Own_snoc {R : Ptr → A → HProp} {env : List Nat} {as : List A} {h : Nat} {a : A} :
    R h a ∗ Own R env as ⊢ₕ Own R (env ++ [h]) (as ++ [a]) := by
  unfold Own
  rw [sep_pand]
  refine entails_pand_l fun hl => entails_pand_r ?_ (by simp [hl])
  rw [List.zip_append hl]
  simp only [List.zip_cons_cons, List.zip_nil_left]
  rw [Pool_snoc]; exact entails_refl _

theorem Own_get {R : Ptr → A → HProp} {env : List Nat} {as : List A} {i h : Nat} (hi : env[i]? = some h)
    (hl : env.length = as.length) :
    ∃ a F, as[i]? = some a ∧ Own R env as = (R h a ∗ F) ∧
      ∀ h' a', Own R (env.set i h') (as.set i a') = (R h' a' ∗ F) := by
  have hlt : i < env.length := by
    rcases Nat.lt_or_ge i env.length with h | h
    · exact h
    · rw [List.getElem?_eq_none h] at hi; simp at hi
  have ha : as[i]? = some (as[i]'(hl ▸ hlt)) := List.getElem?_eq_getElem _
  have hz : (env.zip as)[i]? = some (h, as[i]'(hl ▸ hlt)) := by
    rw [List.getElem?_zip_eq_some]; exact ⟨hi, ha⟩
  obtain ⟨F, h1, h2⟩ := Pool_get (R := R) hz
  refine ⟨_, F, ha, ?_, fun h' a' => ?_⟩
  · unfold Own; rw [h1]; simp [hl, true_pand]
  · unfold Own
    have := h2 (h', a')
    have e : (env.set i h').zip (as.set i a') = (env.zip as).set i (h', a') := by
      apply List.ext_getElem?
      intro k
      simp only [List.getElem?_set, List.zip, List.getElem?_zipWith]
      by_cases hk : i = k
      · subst hk
        simp [hlt, hl ▸ hlt]; omega
      · simp [hk]
    rw [e, this]; simp [hl, true_pand]

theorem Own_get2 {R : Ptr → A → HProp} {env : List Nat} {as : List A} {i j h g : Nat} (hi : env[i]? = some h)
    (hj : env[j]? = some g) (hne : i ≠ j) (hl : env.length = as.length) :
    ∃ a b F, as[i]? = some a ∧ as[j]? = some b ∧ Own R env as = (R h a ∗ R g b ∗ F) ∧
      ∀ a', Own R env (as.set i a') = (R h a' ∗ R g b ∗ F) := by
  have hlt : i < env.length := by
    rcases Nat.lt_or_ge i env.length with h | h
    · exact h
    · rw [List.getElem?_eq_none h] at hi; simp at hi
  have hltj : j < env.length := by
    rcases Nat.lt_or_ge j env.length with h | h
    · exact h
    · rw [List.getElem?_eq_none h] at hj; simp at hj
  have ha : as[i]? = some (as[i]'(hl ▸ hlt)) := List.getElem?_eq_getElem _
  have hb : as[j]? = some (as[j]'(hl ▸ hltj)) := List.getElem?_eq_getElem _
  have hz : (env.zip as)[i]? = some (h, as[i]'(hl ▸ hlt)) := by
    rw [List.getElem?_zip_eq_some]; exact ⟨hi, ha⟩
  have hz' : (env.zip as)[j]? = some (g, as[j]'(hl ▸ hltj)) := by
    rw [List.getElem?_zip_eq_some]; exact ⟨hj, hb⟩
  obtain ⟨F, h1, h2⟩ := Pool_get2 (R := R) hz hz' hne
  refine ⟨_, _, F, ha, hb, ?_, fun a' => ?_⟩
  · unfold Own; rw [h1]; simp [hl, true_pand]
  · unfold Own
    have := h2 (h, a')
    have e : env.zip (as.set i a') = (env.zip as).set i (h, a') := by
      apply List.ext_getElem?
      intro k
      simp only [List.getElem?_set, List.zip, List.getElem?_zipWith]
      by_cases hk : i = k
      · subst hk
        simp [hlt, hl ▸ hlt]
        exact ⟨by omega, by rw [List.getElem?_eq_getElem hlt] at hi; simpa using hi⟩
      · simp [hk]
    rw [e, this]; simp [hl, true_pand]

theorem Own_len {R : Ptr → A → HProp} {env : List Nat} {as : List A} :
    ∀ h, Own R env as h → env.length = as.length := fun _ h => h.1

/-- Execute a list of client operations, collecting what they return. -/
def execAll {Op Out : Type} (exec : Op → List Nat → M (Out × List Nat)) :
    List Op → List Nat → M (List Out × List Nat)
  | [], env => pure ([], env)
  | op :: ops, env => do
    let r ← exec op env
    let rs ← execAll exec ops r.2
    pure (r.1 :: rs.1, rs.2)

/-- A sequence of abstract steps. -/
inductive Steps {Op Out : Type} (step : Op → List A → Out → List A → Prop) :
    List Op → List A → List Out → List A → Prop
  | nil (as) : Steps step [] as [] as
  | cons {op ops as o as1 os as2} : step op as o as1 → Steps step ops as1 os as2 →
      Steps step (op :: ops) as (o :: os) as2

/-- histories of a client whose calls are restricted to those satisfying `good` -/
theorem history_ok {Op Out : Type} {exec : Op → List Nat → M (Out × List Nat)} {R : Ptr → A → HProp}
    {step : Op → List A → Out → List A → Prop} {good : Op → Prop}
    (one : ∀ op, good op → ∀ env as, Triple rel (Own R env as) (exec op env)
      (fun r => ∃∃ as', (step op as r.1 as') ⋏ Own R r.2 as'))
    (ops : List Op) (hops : ∀ op ∈ ops, good op) (env : List Nat) (as : List A) :
    Triple rel (Own R env as) (execAll exec ops env)
      (fun r => ∃∃ as', (Steps step ops as r.1 as') ⋏ Own R r.2 as') := by
  induction ops generalizing env as with
  | nil =>
    exact Triple.pure (entails_ex_r as (entails_pand_r (entails_refl _) (Steps.nil as)))
  | cons op ops ih =>
    unfold execAll
    refine Triple.bind' (one op (hops op (by simp)) env as) fun r => ?_
    hoist; intro as1 h1
    refine Triple.bind' (ih (fun o ho => hops o (by simp [ho])) r.2 as1) fun rs => ?_
    hoist; intro as2 h2
    exact Triple.pure (entails_ex_r as2 (entails_pand_r (entails_refl _) (Steps.cons h1 h2)))

theorem history {Op Out : Type} {exec : Op → List Nat → M (Out × List Nat)} {R : Ptr → A → HProp}
    {step : Op → List A → Out → List A → Prop}
    (one : ∀ op env as, Triple rel (Own R env as) (exec op env)
      (fun r => ∃∃ as', (step op as r.1 as') ⋏ Own R r.2 as'))
    (ops : List Op) (env : List Nat) (as : List A) :
    Triple rel (Own R env as) (execAll exec ops env)
      (fun r => ∃∃ as', (Steps step ops as r.1 as') ⋏ Own R r.2 as') := by
  induction ops generalizing env as with
  | nil =>
    exact Triple.pure (entails_ex_r as (entails_pand_r (entails_refl _) (Steps.nil as)))
  | cons op ops ih =>
    unfold execAll
    refine Triple.bind' (one op env as) fun r => ?_
    hoist; intro as1 h1
    refine Triple.bind' (ih r.2 as1) fun rs => ?_
    hoist; intro as2 h2
    exact Triple.pure (entails_ex_r as2 (entails_pand_r (entails_refl _) (Steps.cons h1 h2)))

/-! ## Client calls on a table of handles

New handles go to the end of the table; `none` is returned for a call that names a position outside the table
(the call is then not made). -/

def on1 {O : Type} (env : List Nat) (i : Nat) (k : Nat → M (Option O × List Nat)) : M (Option O × List Nat) :=
  match env[i]? with
  | none => pure (none, env)
  | some h => k h

def on2 {O : Type} (env : List Nat) (i j : Nat) (k : Nat → Nat → M (Option O × List Nat)) : M (Option O × List Nat) :=
  match env[i]?, env[j]? with
  | some h, some g => k h g
  | _, _ => pure (none, env)

theorem set_self {α} {l : List α} {i : Nat} {a : α} (h : l[i]? = some a) : l.set i a = l := by
  apply List.ext_getElem?; intro k
  rw [List.getElem?_set]
  by_cases hk : i = k
  · subst hk
    obtain ⟨h1, h2⟩ := List.getElem?_eq_some_iff.1 h
    simp [h1, h2]
  · simp [hk]

/-! Meaning of a call on the table of abstract values: `o` is what the call returned (`none`: not made). -/

/-- a constructor: a NULL handle because of `bad`, or a handle with a value satisfying `ok` -/
def NewE {A : Type} (as : List (Option A)) (bad : Prop) (ok : A → Prop) (o : Option Int) (as' : List (Option A)) : Prop :=
  (o = some 0 ∧ bad ∧ as' = as ++ [none]) ∨ (o = some 1 ∧ ∃ x, ok x ∧ as' = as ++ [some x])

/-- a call on the handle at position `i` -/
def On1 {O : Type} (as : List A) (i : Nat) (E : A → O → A → Prop) (o : Option O) (as' : List A) : Prop :=
  (as[i]? = none ∧ o = none ∧ as' = as) ∨ ∃ a r a', as[i]? = some a ∧ o = some r ∧ E a r a' ∧ as' = as.set i a'

/-- a call on the handles at positions `i` and `j` that changes at most the first -/
def On2 {O : Type} (as : List A) (i j : Nat) (E : A → A → O → A → Prop) (o : Option O) (as' : List A) : Prop :=
  ((as[i]? = none ∨ as[j]? = none) ∧ o = none ∧ as' = as) ∨
    ∃ a b r a', as[i]? = some a ∧ as[j]? = some b ∧ o = some r ∧ E a b r a' ∧ as' = as.set i a'

section Lift
variable {O α : Type} {R : Ptr → A → HProp} {env : List Nat} {as : List A} {S : Option O → List A → Prop}

theorem On1.skip {as : List A} {i : Nat} {E : A → O → A → Prop} (h : as[i]? = none) : On1 as i E none as :=
  Or.inl ⟨h, rfl, rfl⟩
theorem On1.call {as : List A} {i : Nat} {E : A → O → A → Prop} {a r a'} (h : as[i]? = some a) (hE : E a r a') :
    On1 as i E (some r) (as.set i a') := Or.inr ⟨a, r, a', h, rfl, hE, rfl⟩
theorem On1.read {as : List A} {i : Nat} {E : A → O → A → Prop} {a r} (h : as[i]? = some a) (hE : E a r a) :
    On1 as i E (some r) as := Or.inr ⟨a, r, a, h, rfl, hE, (set_self h).symm⟩
theorem On2.skip {as : List A} {i j : Nat} {E : A → A → O → A → Prop} (h : as[i]? = none ∨ as[j]? = none) :
    On2 as i j E none as := Or.inl ⟨h, rfl, rfl⟩
theorem On2.call {as : List A} {i j : Nat} {E : A → A → O → A → Prop} {a b r a'} (h : as[i]? = some a)
    (h' : as[j]? = some b) (hE : E a b r a') : On2 as i j E (some r) (as.set i a') := Or.inr ⟨a, b, r, a', h, h', rfl, hE, rfl⟩
theorem On2.read {as : List A} {i j : Nat} {E : A → A → O → A → Prop} {a b r} (h : as[i]? = some a)
    (h' : as[j]? = some b) (hE : E a b r a) : On2 as i j E (some r) as := Or.inr ⟨a, b, r, a, h, h', rfl, hE, (set_self h).symm⟩

theorem get_none (hl : env.length = as.length) {i : Nat} (h : env[i]? = none) : as[i]? = none := by
  rw [List.getElem?_eq_none_iff] at *; omega

/-- a call that creates a handle -/
theorem lift_new {A : Type} {R : Ptr → A → HProp} {as : List (Option A)} {S : Option O → List (Option A) → Prop}
    {c : M Nat} {bad : Prop} {ok : A → Prop} {f : Bool → O} (hc : Triple rel emp c (Made R bad ok))
    (hb : bad → S (some (f false)) (as ++ [none])) (ho : ∀ x, ok x → S (some (f true)) (as ++ [some x])) :
    Triple rel (Own (ORep R) env as) (do let h ← c; pure (some (f (decide (h ≠ 0))), env ++ [h]))
      (fun r => ∃∃ as', (S r.1 as') ⋏ Own (ORep R) r.2 as') := by
  step hc into r
  by_cases h : r = 0
  · subst h; rw [Made_zero]; hoist; intro hb'
    refine Triple.pure (entails_ex_r (as ++ [none]) (entails_pand_r ?_ (hb hb')))
    refine entails_trans ?_ Own_snoc
    rw [ORep_null, emp_sep]; exact entails_refl _
  · rw [Made_ne h]; hoist; intro x hx
    refine Triple.pure (entails_ex_r (as ++ [some x]) (entails_pand_r ?_ (by simpa [h] using ho x hx)))
    exact Own_snoc (R := ORep R) (a := some x)

/-- a call that creates a handle from an existing one -/
theorem lift_clone {A : Type} {R : Ptr → A → HProp} {as : List (Option A)} {S : Option O → List (Option A) → Prop}
    (hl : env.length = as.length) {i : Nat}
    {c : Nat → M Nat} {bad : Option A → Prop} {ok : Option A → A → Prop} {f : Bool → O}
    (hc : ∀ h a, Triple rel (ORep R h a) (c h) (fun r => Made R (bad a) (ok a) r ∗ ORep R h a))
    (h0 : as[i]? = none → S none as)
    (hb : ∀ a, as[i]? = some a → bad a → S (some (f false)) (as ++ [none]))
    (ho : ∀ a x, as[i]? = some a → ok a x → S (some (f true)) (as ++ [some x])) :
    Triple rel (Own (ORep R) env as) (on1 env i fun h => do let r ← c h; pure (some (f (decide (r ≠ 0))), env ++ [r]))
      (fun r => ∃∃ as', (S r.1 as') ⋏ Own (ORep R) r.2 as') := by
  unfold on1
  cases hi : env[i]? with
  | none => exact Triple.pure (entails_ex_r as (entails_pand_r (entails_refl _) (h0 (get_none hl hi))))
  | some h =>
    obtain ⟨a, F, ha, h1, h2⟩ := Own_get (R := ORep R) hi hl
    dsimp only
    conv in Own (ORep R) env as => rw [h1]
    step (hc h a) into r
    have e : ∀ r a', ORep R r a' ∗ ORep R h a ∗ F ⊢ₕ Own (ORep R) (env ++ [r]) (as ++ [a']) := by
      intro r a'; rw [← h1]; exact Own_snoc
    by_cases hr : r = 0
    · subst hr; rw [Made_zero]; hoist; intro hb'
      refine Triple.pure (entails_ex_r (as ++ [none]) (entails_pand_r ?_ (hb a ha hb')))
      refine entails_trans ?_ (e 0 none)
      rw [ORep_null, emp_sep]; exact entails_refl _
    · rw [Made_ne hr]; hoist; intro x hx
      exact Triple.pure (entails_ex_r (as ++ [some x]) (entails_pand_r (e r (some x)) (by simpa [hr] using ho a x ha hx)))

/-- a call on one handle -/
theorem lift_op1 (hl : env.length = as.length) {i : Nat} {c : Nat → M α} {E : A → α → A → Prop} {f : α → O}
    (hc : ∀ h a, Triple rel (R h a) (c h) (fun r => ∃∃ a', (E a r a') ⋏ R h a'))
    (h0 : as[i]? = none → S none as)
    (h1 : ∀ a r a', as[i]? = some a → E a r a' → S (some (f r)) (as.set i a')) :
    Triple rel (Own R env as) (on1 env i fun h => do let r ← c h; pure (some (f r), env))
      (fun r => ∃∃ as', (S r.1 as') ⋏ Own R r.2 as') := by
  unfold on1
  cases hi : env[i]? with
  | none => exact Triple.pure (entails_ex_r as (entails_pand_r (entails_refl _) (h0 (get_none hl hi))))
  | some h =>
    obtain ⟨a, F, ha, h2, h3⟩ := Own_get (R := R) hi hl
    dsimp only; rw [h2]
    step (hc h a) into r
    intro a' hE
    refine Triple.pure (entails_ex_r (as.set i a') (entails_pand_r ?_ (h1 a r a' ha hE)))
    have := h3 h a'
    rw [set_self hi] at this
    rw [this]; exact entails_refl _

/-- a call that only reads one handle -/
theorem lift_get1 (hl : env.length = as.length) {i : Nat} {c : Nat → M α} {E : A → α → Prop} {f : α → O}
    (hc : ∀ h a, Triple rel (R h a) (c h) (fun r => (E a r) ⋏ R h a))
    (h0 : as[i]? = none → S none as)
    (h1 : ∀ a r, as[i]? = some a → E a r → S (some (f r)) as) :
    Triple rel (Own R env as) (on1 env i fun h => do let r ← c h; pure (some (f r), env))
      (fun r => ∃∃ as', (S r.1 as') ⋏ Own R r.2 as') := by
  refine lift_op1 hl (E := fun a r a' => E a r ∧ a' = a) (fun h a => ?_) h0 ?_
  · refine (hc h a).conseq (entails_refl _) fun r => entails_pand_l fun hE => entails_ex_r a (entails_pand_r (entails_refl _) ⟨hE, rfl⟩)
  · rintro a r a' ha ⟨hE, rfl⟩
    rw [set_self ha]; exact h1 _ r ha hE

/-- destroying one handle: the position becomes NULL -/
theorem lift_del {A : Type} {R : Ptr → A → HProp} {as : List (Option A)} {S : Option O → List (Option A) → Prop}
    (hl : env.length = as.length) {i : Nat} {c : Nat → M Unit} {o : O}
    (hc : ∀ h a, Triple rel (ORep R h a) (c h) (fun _ => emp))
    (h0 : as[i]? = none → S none as)
    (h1 : ∀ a, as[i]? = some a → S (some o) (as.set i none)) :
    Triple rel (Own (ORep R) env as) (on1 env i fun h => do c h; pure (some o, env.set i 0))
      (fun r => ∃∃ as', (S r.1 as') ⋏ Own (ORep R) r.2 as') := by
  unfold on1
  cases hi : env[i]? with
  | none => exact Triple.pure (entails_ex_r as (entails_pand_r (entails_refl _) (h0 (get_none hl hi))))
  | some h =>
    obtain ⟨a, F, ha, h2, h3⟩ := Own_get (R := ORep R) hi hl
    dsimp only; rw [h2]
    step (hc h a)
    refine Triple.pure (entails_ex_r (as.set i none) (entails_pand_r ?_ (h1 a ha)))
    rw [h3, ORep_null, emp_sep]; exact entails_refl _

/-- a call on two different handles, changing the first -/
theorem lift_op2 (hl : env.length = as.length) {i j : Nat} (hij : i ≠ j) {c : Nat → Nat → M α}
    {E : A → A → α → A → Prop} {f : α → O}
    (hc : ∀ h g a b, Triple rel (R h a ∗ R g b) (c h g) (fun r => ∃∃ a', (E a b r a') ⋏ R h a' ∗ R g b))
    (h0 : as[i]? = none ∨ as[j]? = none → S none as)
    (h1 : ∀ a b r a', as[i]? = some a → as[j]? = some b → E a b r a' → S (some (f r)) (as.set i a')) :
    Triple rel (Own R env as) (on2 env i j fun h g => do let r ← c h g; pure (some (f r), env))
      (fun r => ∃∃ as', (S r.1 as') ⋏ Own R r.2 as') := by
  unfold on2
  cases hi : env[i]? with
  | none => exact Triple.pure (entails_ex_r as (entails_pand_r (entails_refl _) (h0 (Or.inl (get_none hl hi)))))
  | some h =>
  cases hj : env[j]? with
  | none => exact Triple.pure (entails_ex_r as (entails_pand_r (entails_refl _) (h0 (Or.inr (get_none hl hj)))))
  | some g =>
    obtain ⟨a, b, F, ha, hb, h2, h3⟩ := Own_get2 (R := R) hi hj hij hl
    dsimp only; rw [h2]
    step (hc h g a b) into r
    intro a' hE
    refine Triple.pure (entails_ex_r (as.set i a') (entails_pand_r ?_ (h1 a b r a' ha hb hE)))
    rw [h3]; sep_cancel

/-- a call that only reads two different handles -/
theorem lift_get2 (hl : env.length = as.length) {i j : Nat} (hij : i ≠ j) {c : Nat → Nat → M α}
    {E : A → A → α → Prop} {f : α → O}
    (hc : ∀ h g a b, Triple rel (R h a ∗ R g b) (c h g) (fun r => (E a b r) ⋏ R h a ∗ R g b))
    (h0 : as[i]? = none ∨ as[j]? = none → S none as)
    (h1 : ∀ a b r, as[i]? = some a → as[j]? = some b → E a b r → S (some (f r)) as) :
    Triple rel (Own R env as) (on2 env i j fun h g => do let r ← c h g; pure (some (f r), env))
      (fun r => ∃∃ as', (S r.1 as') ⋏ Own R r.2 as') := by
  refine lift_op2 hl hij (E := fun a b r a' => E a b r ∧ a' = a) (fun h g a b => ?_) h0 ?_
  · refine (hc h g a b).conseq (entails_refl _) fun r => entails_pand_l fun hE => entails_ex_r a (entails_pand_r (entails_refl _) ⟨hE, rfl⟩)
  · rintro a b r a' ha hb ⟨hE, rfl⟩
    rw [set_self ha]; exact h1 _ _ r ha hb hE

end Lift

/-- Release every handle. -/
def releaseAll (del : Nat → M Unit) : List Nat → M Unit
  | [] => pure ()
  | h :: hs => do del h; releaseAll del hs

theorem releaseAll_spec {R : Ptr → A → HProp} {del : Nat → M Unit}
    (one : ∀ h a, Triple rel (R h a) (del h) (fun _ => emp)) (env : List Nat) (as : List A) :
    Triple rel (Own R env as) (releaseAll del env) (fun _ => emp) := by
  induction env generalizing as with
  | nil =>
    unfold Own releaseAll
    refine Triple.pure ?_
    simp only [List.zip_nil_left, Pool]
    exact entails_pand_l fun _ => entails_refl _
  | cons h hs ih =>
    unfold releaseAll
    refine Triple.know (φ := (h :: hs).length = as.length) (fun _ hh => hh.1) fun hl => ?_
    cases as with
    | nil => simp at hl
    | cons a as =>
      have e : Own R (h :: hs) (a :: as) = (R h a ∗ Own R hs as) := by
        unfold Own; simp only [List.zip_cons_cons, Pool, sep_pand]
        simp
      rw [e]
      step (one h a)
      exact ih as

/-- any history followed by releasing every handle leaves nothing allocated -/
theorem no_leak {Op Out : Type} {exec : Op → List Nat → M (Out × List Nat)} {R : Ptr → A → HProp}
    {step : Op → List A → Out → List A → Prop} {good : Op → Prop} {del : Nat → M Unit}
    (one : ∀ op, good op → ∀ env as, Triple False (Own R env as) (exec op env)
      (fun r => ∃∃ as', (step op as r.1 as') ⋏ Own R r.2 as'))
    (hdel : ∀ h a, Triple False (R h a) (del h) (fun _ => emp))
    (ops : List Op) (hops : ∀ op ∈ ops, good op) (al : Nat → Heap → Nat → Nat) :
    ∃ s', (do let r ← execAll exec ops []; releaseAll del r.2) (St.start al) = some (.ok ((), s'))
      ∧ s'.heap = Heap.empty := by
  have t : Triple False emp (do let r ← execAll exec ops []; releaseAll del r.2) (fun _ => emp) := by
    rw [← Own_nil R]
    refine Triple.bind' (history_ok one ops hops [] []) fun r => ?_
    hoist; intro as' _
    refine (releaseAll_spec hdel r.2 as').conseq (entails_refl _) fun _ => ?_
    rw [Own_nil]; exact entails_refl _
  obtain ⟨a, s', h1, h2⟩ := t.run (St.start al) Heap.fin_empty (fun h => h.elim) rfl
  exact ⟨s', h1, h2⟩

end Verif
