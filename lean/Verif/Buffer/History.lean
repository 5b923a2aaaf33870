import Verif.Pool
import Verif.Buffer.Props
/-!
# C01–C03 over arbitrary histories of BUFFER calls on arbitrarily many handles
-/
set_option linter.unusedSimpArgs false
set_option linter.unusedVariables false
namespace Verif.Buffer
open Verif
variable {rel : Prop}

/-- Calls a client can make; handles are named by their position in the client's table. -/
inductive Op where
  | new
  | create (bs : List UInt8)
  | clone (i : Nat)
  | delete (i : Nat)
  | build (i : Nat) (bs : List UInt8)
  | buildNull (i : Nat) (size : Nat)
  | preBuild (i : Nat) (size : Nat)
  | unbuild (i : Nat)
  | enlarge (i : Nat) (n : Nat)
  | append (i j : Nat)
  | prepend (i j : Nat)
  | length (i : Nat)

/-- The client: new handles go to the end of the table, deleted ones become NULL, calls on positions outside
the table do nothing.  The client does not append one zero-length buffer to another and does not ask to enlarge beyond `SIZE_MAX`
(both checked through `BUFFER_length`); see `BUFFER_append_two_empty_is_UB` and
`BUFFER_enlarge_wraps` for what the code does otherwise. -/
def exec : Op → List Nat → M (Nat × List Nat)
  | .new, env => do let h ← BUFFER_new; pure (if h = 0 then 1 else 0, env ++ [h])
  | .create bs, env => do let h ← BUFFER_create (.lit bs) bs.length; pure (if h = 0 then 1 else 0, env ++ [h])
  | .clone i, env => match env[i]? with
    | none => pure (99, env)
    | some h => do let r ← BUFFER_clone h; pure (if r = 0 then 1 else 0, env ++ [r])
  | .delete i, env => match env[i]? with
    | none => pure (99, env)
    | some h => do BUFFER_delete h; pure (0, env.set i 0)
  | .build i bs, env => match env[i]? with
    | none => pure (99, env)
    | some h => do let r ← BUFFER_build h (.lit bs) bs.length; pure (r, env)
  | .buildNull i size, env => match env[i]? with
    | none => pure (99, env)
    | some h => do let r ← BUFFER_build h .null size; pure (r, env)
  | .preBuild i size, env => match env[i]? with
    | none => pure (99, env)
    | some h => do let r ← BUFFER_pre_build h size; pure (r, env)
  | .unbuild i, env => match env[i]? with
    | none => pure (99, env)
    | some h => do let r ← BUFFER_unbuild h; pure (r, env)
  | .enlarge i n, env => match env[i]? with
    | none => pure (99, env)
    | some h => do
      let l ← BUFFER_length h
      if l + n < szMod then
        let r ← BUFFER_enlarge h n
        pure (r, env)
      else pure (99, env)
  | .append i j, env => match env[i]?, env[j]? with
    | some h, some g => do
      if i = j then
        let r ← BUFFER_append h h
        pure (r, env)
      else
        let l ← BUFFER_length h
        let m ← BUFFER_length g
        if l + m = 0 then pure (99, env)
        else
          let r ← BUFFER_append h g
          pure (r, env)
    | _, _ => pure (99, env)
  | .prepend i j, env => match env[i]?, env[j]? with
    | some h, some g => do
      if i = j then
        let r ← BUFFER_prepend h h
        pure (r, env)
      else
        let r ← BUFFER_prepend h g
        pure (r, env)
    | _, _ => pure (99, env)
  | .length i, env => match env[i]? with
    | none => pure (99, env)
    | some h => do let r ← BUFFER_length h; pure (r, env)

/-- What the calls mean on abstract contents (`none` = NULL handle). -/
inductive AStep (rel : Prop) : Op → List (Option Content) → Nat → List (Option Content) → Prop
  | newOk {as} : AStep rel .new as 0 (as ++ [some none])
  | newFail {as} : ¬ rel → AStep rel .new as 1 (as ++ [none])
  | createOk {as bs} : AStep rel (.create bs) as 0 (as ++ [some (some (bytesV bs))])
  | createFail {as bs} : ¬ rel → AStep rel (.create bs) as 1 (as ++ [none])
  | cloneOk {as i c} : as[i]? = some (some c) → AStep rel (.clone i) as 0 (as ++ [some (some (c.getD []))])
  | cloneFail {as i} : as[i]? = some none ∨ ¬ rel → AStep rel (.clone i) as 1 (as ++ [none])
  | delete {as i} : AStep rel (.delete i) as 0 (as.set i none)
  | build {as i bs a a' r} : as[i]? = some a →
      Effect rel (fun a => a = none) (fun _ => False)
        (fun _ c' => c' = if bs = [] then none else some (bytesV bs)) a r a' →
      AStep rel (.build i bs) as r (as.set i a')
  | buildNull {as i n a a' r} : as[i]? = some a →
      Effect rel (fun a => a = none ∨ n ≠ 0) (fun _ => False) (fun _ c' => c' = none) a r a' →
      AStep rel (.buildNull i n) as r (as.set i a')
  | preBuild {as i n a a' r} : as[i]? = some a →
      Effect rel (fun a => a = none ∨ n = 0 ∨ ∃ vs, a = some (some vs)) (fun _ => maxObj < n)
        (fun _ c' => c' = some (List.replicate n .undef)) a r a' →
      AStep rel (.preBuild i n) as r (as.set i a')
  | unbuild {as i a a' r} : as[i]? = some a →
      Effect True (fun a => a = none ∨ a = some none) (fun _ => False) (fun _ c' => c' = none) a r a' →
      AStep rel (.unbuild i) as r (as.set i a')
  | enlarge {as i n a a' r} : as[i]? = some a →
      Effect rel (fun a => a = none ∨ n = 0) (fun a => ∃ c, a = some c ∧ maxObj < clen c + n)
        (fun c c' => c' = some (c.getD [] ++ List.replicate n .undef)) a r a' →
      AStep rel (.enlarge i n) as r (as.set i a')
  | append {as i j a b a' r} : i ≠ j → as[i]? = some a → as[j]? = some b →
      Effect rel (fun a => badPair a b)
        (fun a => ∃ v w, a = some (some v) ∧ b = some (some w) ∧ maxObj < v.length + w.length)
        (fun c c' => ∃ v w, c = some v ∧ b = some (some w) ∧ c' = some (v ++ w)) a r a' →
      AStep rel (.append i j) as r (as.set i a')
  | appendSelf {as i r} : r ≠ 0 → AStep rel (.append i i) as r as
  | prepend {as i j a b a' r} : i ≠ j → as[i]? = some a → as[j]? = some b →
      Effect rel (fun a => badPair a b)
        (fun a => ∃ v w, a = some (some v) ∧ b = some (some w) ∧ maxObj < v.length + w.length)
        (fun c c' => ∃ v w, c = some v ∧ b = some (some w) ∧ c' = some (w ++ v)) a r a' →
      AStep rel (.prepend i j) as r (as.set i a')
  | prependSelf {as i r} : r ≠ 0 → AStep rel (.prepend i i) as r as
  | length {as i a} : as[i]? = some a → AStep rel (.length i) as ((a.map clen).getD 0) as
  /-- the client did not make the call (position outside its table, or one of the two guarded cases) -/
  | skip {as op} : AStep rel op as 99 as

/-- a contract on one handle, lifted to the client's table -/
theorem lift1 {env : List Nat} {as : List (Option Content)} {i h : Nat} {a : Option Content} {F : HProp} {op : Op}
    {c : M Nat} {E : Nat → Option Content → Prop} (hi : env[i]? = some h)
    (hF : ∀ h' a', Own OBuf (env.set i h') (as.set i a') = (OBuf h' a' ∗ F))
    (hc : Triple rel (OBuf h a) c (fun r => ∃∃ a', (E r a') ⋏ OBuf h a'))
    (hE : ∀ r a', E r a' → AStep rel op as r (as.set i a')) :
    Triple rel (OBuf h a ∗ F) (do let r ← c; pure (r, env))
      (fun r => ∃∃ as', (AStep rel op as r.1 as') ⋏ Own OBuf r.2 as') := by
  step hc
  intro a' hE'
  refine Triple.pure (entails_ex_r (as.set i a') (entails_pand_r ?_ (hE _ _ hE')))
  have := hF h a'
  rw [set_self hi] at this
  rw [this]; exact entails_refl _

theorem Data_lit {bs : List UInt8} (h : bs.length ≤ maxObj) : Data (.lit bs) bs = emp := by
  unfold Data; simp [h, true_pand]

theorem Effect_imp {bad bad' : Option Content → Prop} {oom : Option Content → Prop} {ok ok' : Content → Content → Prop}
    {a a' : Option Content} {r : Nat} (h : Effect rel bad oom ok a r a') (hb : bad a ↔ bad' a)
    (hok : ∀ c c', ¬ bad' (some c) → ok c c' → ok' c c') : Effect rel bad' oom ok' a r a' := by
  rcases h with ⟨h1, h2, c, c', rfl, h4, h5⟩ | ⟨h1, h2, h3⟩
  · have hb' : ¬ bad' (some c) := fun h => h2 (hb.2 h)
    exact Or.inl ⟨h1, hb', c, c', rfl, h4, hok c c' hb' h5⟩
  · exact Or.inr ⟨h1, h2, h3.imp hb.1 id⟩

/-- operations whose source arguments exist in memory (C objects are at most `maxObj` bytes) -/
def Op.ok : Op → Prop
  | .create bs => bs.length ≤ maxObj
  | .build _ bs => bs.length ≤ maxObj
  | _ => True

theorem exec_spec (op : Op) (hop : op.ok) (env : List Nat) (as : List (Option Content)) :
    Triple rel (Own OBuf env as) (exec op env)
      (fun r => ∃∃ as', (AStep rel op as r.1 as') ⋏ Own OBuf r.2 as') := by
  refine Triple.know (φ := env.length = as.length) Own_len fun hl => ?_
  have skip : Triple rel (Own OBuf env as) (pure (99, env))
      (fun r => ∃∃ as', (AStep rel op as r.1 as') ⋏ Own OBuf r.2 as') :=
    Triple.pure (entails_ex_r as (entails_pand_r (entails_refl _) AStep.skip))
  cases op with
  | new =>
    dsimp only [exec]
    step BUFFER_new_spec into r
    by_cases h : r = 0
    · subst h; rw [if_pos rfl, pand_sep]; hoist; intro hr
      refine Triple.pure (entails_ex_r (as ++ [none]) (entails_pand_r ?_ (by simpa using AStep.newFail hr)))
      refine entails_trans ?_ Own_snoc
      rw [OBuf_null, emp_sep]; exact entails_refl _
    · rw [if_neg h]
      refine Triple.pure (entails_ex_r (as ++ [some none]) (entails_pand_r (Own_snoc (R := OBuf) (a := some none)) (by simpa [h] using AStep.newOk)))
  | create bs =>
    dsimp only [exec]
    rw [← emp_sep (Own OBuf env as), ← Data_lit hop]
    step BUFFER_create_spec into r
    rw [Data_lit hop, emp_sep]
    by_cases h : r = 0
    · subst h; rw [if_pos rfl, pand_sep]; hoist; intro hr
      refine Triple.pure (entails_ex_r (as ++ [none]) (entails_pand_r ?_
        (by simpa using AStep.createFail (hr.resolve_left (by simp)))))
      refine entails_trans ?_ Own_snoc
      rw [OBuf_null, emp_sep]; exact entails_refl _
    · rw [if_neg h]
      exact Triple.pure (entails_ex_r (as ++ [some (some (bytesV bs))])
        (entails_pand_r (Own_snoc (R := OBuf) (a := some (some _))) (by simpa [h] using AStep.createOk)))
  | clone i =>
    dsimp only [exec]
    cases hi : env[i]? with
    | none => exact skip
    | some h =>
      obtain ⟨a, F, ha, h1, h2⟩ := Own_get (R := OBuf) hi hl
      dsimp only
      conv in Own OBuf env as => rw [h1]
      step BUFFER_clone_spec into r
      have e : ∀ r a', OBuf r a' ∗ OBuf h a ∗ F ⊢ₕ Own OBuf (env ++ [r]) (as ++ [a']) := by
        intro r a'; rw [← h1]; exact Own_snoc
      by_cases hr : r = 0
      · subst hr; rw [if_pos rfl, pand_sep]; hoist; intro hr
        refine Triple.pure (entails_ex_r (as ++ [none]) (entails_pand_r ?_
          (by simpa using AStep.cloneFail (hr.imp (fun e => e ▸ ha) id))))
        refine entails_trans ?_ (e 0 none)
        rw [OBuf_null, emp_sep]; exact entails_refl _
      · rw [if_neg hr]; hoist; rintro c rfl
        exact Triple.pure (entails_ex_r (as ++ [some (some (c.getD []))])
          (entails_pand_r (e r (some (some _))) (by simpa [hr] using AStep.cloneOk ha)))
  | delete i =>
    dsimp only [exec]
    cases hi : env[i]? with
    | none => exact skip
    | some h =>
      obtain ⟨a, F, ha, h1, h2⟩ := Own_get (R := OBuf) hi hl
      dsimp only; rw [h1]
      step BUFFER_delete_spec
      refine Triple.pure (entails_ex_r (as.set i none) (entails_pand_r ?_ AStep.delete))
      rw [h2, OBuf_null, emp_sep]; exact entails_refl _
  | build i bs =>
    dsimp only [exec]
    cases hi : env[i]? with
    | none => exact skip
    | some h =>
      obtain ⟨a, F, ha, h1, h2⟩ := Own_get (R := OBuf) hi hl
      dsimp only; rw [h1]
      refine lift1 hi h2 (E := fun r a' => Effect rel (fun a => a = none) (fun _ => False)
        (fun _ c' => c' = if bs = [] then none else some (bytesV bs)) a r a') ?_ (fun r a' hE => AStep.build ha hE)
      have := BUFFER_build_spec (rel := rel) (h := h) (a := a) (source := .lit bs) (bs := bs) (size := bs.length) (Or.inl rfl)
      rw [Data_lit hop, sep_emp] at this
      refine this.conseq (entails_refl _) fun r => entails_ex_l fun a' => entails_pand_l fun hE => ?_
      rw [sep_emp]
      refine entails_ex_r a' (entails_pand_r (entails_refl _) (Effect_imp hE (by simp) ?_))
      rintro c c' _ rfl; simp
  | buildNull i n =>
    dsimp only [exec]
    cases hi : env[i]? with
    | none => exact skip
    | some h =>
      obtain ⟨a, F, ha, h1, h2⟩ := Own_get (R := OBuf) hi hl
      dsimp only; rw [h1]
      refine lift1 hi h2 (E := fun r a' => Effect rel (fun a => a = none ∨ n ≠ 0) (fun _ => False)
        (fun _ c' => c' = none) a r a') ?_ (fun r a' hE => AStep.buildNull ha hE)
      have := BUFFER_build_spec (rel := rel) (h := h) (a := a) (source := .null) (bs := []) (size := n) (Or.inr rfl)
      have e : Data .null [] = emp := by unfold Data; simp [true_pand]
      rw [e, sep_emp] at this
      refine this.conseq (entails_refl _) fun r => entails_ex_l fun a' => entails_pand_l fun hE => ?_
      rw [sep_emp]
      refine entails_ex_r a' (entails_pand_r (entails_refl _) (Effect_imp hE (by simp) ?_))
      rintro c c' hb rfl; simp at hb; simp [hb]
  | preBuild i n =>
    dsimp only [exec]
    cases hi : env[i]? with
    | none => exact skip
    | some h =>
      obtain ⟨a, F, ha, h1, h2⟩ := Own_get (R := OBuf) hi hl
      dsimp only; rw [h1]
      exact lift1 hi h2 BUFFER_pre_build_spec (fun r a' hE => AStep.preBuild ha hE)
  | unbuild i =>
    dsimp only [exec]
    cases hi : env[i]? with
    | none => exact skip
    | some h =>
      obtain ⟨a, F, ha, h1, h2⟩ := Own_get (R := OBuf) hi hl
      dsimp only; rw [h1]
      exact lift1 hi h2 BUFFER_unbuild_spec (fun r a' hE => AStep.unbuild ha hE)
  | enlarge i n =>
    dsimp only [exec]
    cases hi : env[i]? with
    | none => exact skip
    | some h =>
      obtain ⟨a, F, ha, h1, h2⟩ := Own_get (R := OBuf) hi hl
      dsimp only; rw [h1] at skip ⊢
      step BUFFER_length_spec
      refine Triple.ite (fun hw => ?_) (fun _ => skip)
      exact lift1 hi h2 (BUFFER_enlarge_spec_partial (fun c hc => by subst hc; simpa using hw))
        (fun r a' hE => AStep.enlarge ha hE)
  | append i j =>
    dsimp only [exec]
    cases hi : env[i]? with
    | none => exact skip
    | some h =>
    cases hj : env[j]? with
    | none => exact skip
    | some g =>
      dsimp only
      refine Triple.ite (fun hij => ?_) (fun hij => ?_)
      · subst hij
        obtain ⟨a, F, ha, h1, h2⟩ := Own_get (R := OBuf) hi hl
        conv in Own OBuf env as => rw [h1]
        step (BUFFER_append_self).1
        exact Triple.pure (entails_ex_r as (entails_pand_r (by rw [h1]; exact entails_refl _) (AStep.appendSelf (by simp))))
      · obtain ⟨a, b, F, ha, hb, h1, h2⟩ := Own_get2 (R := OBuf) hi hj hij hl
        rw [h1] at skip ⊢
        step BUFFER_length_spec
        step BUFFER_length_spec
        refine Triple.ite (fun hz => ?_) (fun hz => ?_)
        · exact skip.pre (by sep_cancel)
        · step (BUFFER_append_spec_partial ?_)
          · intro a' hE
            refine Triple.pure (entails_ex_r (as.set i a') (entails_pand_r ?_ (AStep.append hij ha hb hE)))
            rw [h2]; sep_cancel
          · rintro ⟨rfl, rfl⟩; simp [clen] at hz
  | prepend i j =>
    dsimp only [exec]
    cases hi : env[i]? with
    | none => exact skip
    | some h =>
    cases hj : env[j]? with
    | none => exact skip
    | some g =>
      dsimp only
      refine Triple.ite (fun hij => ?_) (fun hij => ?_)
      · subst hij
        obtain ⟨a, F, ha, h1, h2⟩ := Own_get (R := OBuf) hi hl
        conv in Own OBuf env as => rw [h1]
        step (BUFFER_append_self).2
        exact Triple.pure (entails_ex_r as (entails_pand_r (by rw [h1]; exact entails_refl _) (AStep.prependSelf (by simp))))
      · obtain ⟨a, b, F, ha, hb, h1, h2⟩ := Own_get2 (R := OBuf) hi hj hij hl
        rw [h1] at skip ⊢
        step BUFFER_prepend_spec
        intro a' hE
        refine Triple.pure (entails_ex_r (as.set i a') (entails_pand_r ?_ (AStep.prepend hij ha hb hE)))
        rw [h2]; sep_cancel
  | length i =>
    dsimp only [exec]
    cases hi : env[i]? with
    | none => exact skip
    | some h =>
      obtain ⟨a, F, ha, h1, h2⟩ := Own_get (R := OBuf) hi hl
      dsimp only; conv in Own OBuf env as => rw [h1]
      step BUFFER_length_spec
      exact Triple.pure (entails_ex_r as (entails_pand_r (by rw [h1]; exact entails_refl _) (AStep.length ha)))

/-- C01+C02+C03 over histories: whatever the allocator does, any sequence of client calls runs without
undefined behaviour, every result and effect is the abstract one, and the memory in use is exactly that of the
client's live buffers.  `_partial`: the client of `exec` avoids the two cases in which the code misbehaves. -/
theorem BUFFER_history_partial (ops : List Op) (hops : ∀ op ∈ ops, op.ok) (env : List Nat) (as : List (Option Content)) :
    Triple rel (Own OBuf env as) (execAll exec ops env)
      (fun r => ∃∃ as', (Steps (AStep rel) ops as r.1 as') ⋏ Own OBuf r.2 as') := by
  induction ops generalizing env as with
  | nil => exact Triple.pure (entails_ex_r as (entails_pand_r (entails_refl _) (Steps.nil as)))
  | cons op ops ih =>
    unfold execAll
    refine Triple.bind' (exec_spec op (hops op (by simp)) env as) fun r => ?_
    hoist; intro as1 h1
    refine Triple.bind' (ih (fun o ho => hops o (by simp [ho])) r.2 as1) fun rs => ?_
    hoist; intro as2 h2
    exact Triple.pure (entails_ex_r as2 (entails_pand_r (entails_refl _) (Steps.cons h1 h2)))

/-- C03: start with empty memory, make any calls, delete all handles: no undefined behaviour and
nothing is left allocated, for every allocator. -/
theorem BUFFER_no_leak_partial (ops : List Op) (hops : ∀ op ∈ ops, op.ok) (al : Nat → Heap → Nat → Nat) :
    ∃ s', (do let r ← execAll exec ops []; releaseAll BUFFER_delete r.2) (St.start al) = some (.ok ((), s'))
      ∧ s'.heap = Heap.empty := by
  have t : Triple False emp (do let r ← execAll exec ops []; releaseAll BUFFER_delete r.2) (fun _ => emp) := by
    rw [← Own_nil OBuf]
    refine Triple.bind' (BUFFER_history_partial ops hops [] []) fun r => ?_
    hoist; intro as' _
    refine (releaseAll_spec (R := OBuf) (fun h a => BUFFER_delete_spec) r.2 as').conseq (entails_refl _) fun _ => ?_
    rw [Own_nil]; exact entails_refl _
  obtain ⟨a, s', h1, h2⟩ := t.run (St.start al) Heap.fin_empty (fun h => h.elim) rfl
  exact ⟨s', h1, h2⟩

/-! ## What the code does in the two excluded cases (C02/C03 fail there) -/

/-- C03 is false in full: appending one zero-length buffer to another calls `realloc(p, 0)`
(which on common platforms frees `p` and returns NULL, so the handle dangles). -/
theorem BUFFER_append_two_empty_is_UB :
    outcome (do
      let a ← BUFFER_create (.lit []) 0
      let b ← BUFFER_create (.lit []) 0
      BUFFER_append a b) (St.start bump) = some (.error (.ub "realloc to size 0")) := by
  rfl

/-- C01 is false in full: `BUFFER_enlarge` computes the new size modulo `2^64`, so "enlarging" a 4-byte buffer by
`2^64 - 2` reports success and leaves a 2-byte buffer. -/
theorem BUFFER_enlarge_wraps :
    outcome (do
      let a ← BUFFER_create (.lit [1, 2, 3, 4]) 4
      let r ← BUFFER_enlarge a (2 ^ 64 - 2)
      let l ← BUFFER_length a
      pure (r, l)) (St.start bump) = some (.ok (0, 2)) := by
  decide +kernel

/-! ## Non-vacuity -/

/-- A concrete run of the client: two buffers, append, prepend, clone. -/
example : outcome (do
      let r ← execAll exec [.create [1, 2], .create [3], .append 0 1, .length 0, .prepend 1 0, .length 1, .clone 1,
        .unbuild 0, .delete 2] []
      pure r.1) (St.start bump) = some (.ok [0, 0, 0, 3, 0, 4, 0, 0, 0]) := by decide +kernel

example : (∀ op ∈ [Op.create [1, 2], .append 0 1], op.ok) := by simp [Op.ok, maxObj]

end Verif.Buffer
