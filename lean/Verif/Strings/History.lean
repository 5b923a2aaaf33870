import Verif.Strings.Json
/-!
# C04–C05 over arbitrary histories of STRING calls on arbitrarily many handles
-/
set_option linter.unusedSimpArgs false
set_option linter.unusedVariables false
namespace Verif.Strings
open Verif Verif.Json
variable {rel : Prop}

/-- Calls a client can make; handles are named by their position in the client's table, texts are string constants. -/
inductive Op where
  | new | construct (t : Text) | constructNull | constructN (t : Text) (n : Nat) | newQuoted (t : Text) | newJSON (t : Text)
  | clone (i : Nat) | delete (i : Nat)
  | concat (i : Nat) (t : Text) | concatNull (i : Nat) | copy (i : Nat) (t : Text) | copyN (i : Nat) (t : Text) (n : Nat)
  | quote (i : Nat) | empty (i : Nat) | length (i : Nat)
  /-- `STRING_concat_with_STRING(i, j)` -/
  | concatS (i j : Nat)
  /-- `STRING_concat(i, STRING_c_str(j))` -/
  | concatC (i j : Nat)
  /-- `STRING_copy(i, STRING_c_str(j))` -/
  | copyC (i j : Nat)
  | compare (i j : Nat)

/-- The client never appends a string to itself (`STRING_concat_self_is_UB` shows what the code does then), and
its constants are C strings. -/
def Op.good : Op → Prop
  | .construct t | .constructN t _ | .newQuoted t | .newJSON t | .concat _ t | .copy _ t | .copyN _ t _ => NoNul t ∧ t.length < maxObj
  | .concatS i j => i ≠ j
  | .concatC i j => i ≠ j
  | _ => True

def b2i (b : Bool) : Int := if b then 1 else 0

def exec : Op → List Nat → M (Option Int × List Nat)
  | .new, env => do let h ← STRING_new; pure (some (b2i (decide (h ≠ 0))), env ++ [h])
  | .construct t, env => do let h ← STRING_construct (.str t); pure (some (b2i (decide (h ≠ 0))), env ++ [h])
  | .constructNull, env => do let h ← STRING_construct .null; pure (some (b2i (decide (h ≠ 0))), env ++ [h])
  | .constructN t n, env => do let h ← STRING_construct_n (.str t) n; pure (some (b2i (decide (h ≠ 0))), env ++ [h])
  | .newQuoted t, env => do let h ← STRING_new_quoted (.str t); pure (some (b2i (decide (h ≠ 0))), env ++ [h])
  | .newJSON t, env => do let h ← STRING_new_JSON (.str t); pure (some (b2i (decide (h ≠ 0))), env ++ [h])
  | .clone i, env => on1 env i fun h => do let r ← STRING_clone h; pure (some (b2i (decide (r ≠ 0))), env ++ [r])
  | .delete i, env => on1 env i fun h => do STRING_delete h; pure (some 0, env.set i 0)
  | .concat i t, env => on1 env i fun h => do let r ← STRING_concat h (.str t); pure (some (r : Int), env)
  | .concatNull i, env => on1 env i fun h => do let r ← STRING_concat h .null; pure (some (r : Int), env)
  | .copy i t, env => on1 env i fun h => do let r ← STRING_copy h (.str t); pure (some (r : Int), env)
  | .copyN i t n, env => on1 env i fun h => do let r ← STRING_copy_n h (.str t) n; pure (some (r : Int), env)
  | .quote i, env => on1 env i fun h => do let r ← STRING_quote h; pure (some (r : Int), env)
  | .empty i, env => on1 env i fun h => do let r ← STRING_empty h; pure (some (r : Int), env)
  | .length i, env => on1 env i fun h => do let r ← STRING_length h; pure (some (r : Int), env)
  | .concatS i j, env => on2 env i j fun h g => do let r ← STRING_concat_with_STRING h g; pure (some (r : Int), env)
  | .concatC i j, env => on2 env i j fun h g => do
      let r ← (do let p ← STRING_c_str g; STRING_concat h (.ofPtr p)); pure (some (r : Int), env)
  | .copyC i j, env =>
    if i = j then on1 env i fun h => do
      let r ← (do let p ← STRING_c_str h; STRING_copy h (.ofPtr p)); pure (some (r : Int), env)
    else on2 env i j fun h g => do
      let r ← (do let p ← STRING_c_str g; STRING_copy h (.ofPtr p)); pure (some (r : Int), env)
  | .compare i j, env =>
    if i = j then on1 env i fun h => do let r ← STRING_compare h h; pure (some r, env)
    else on2 env i j fun h g => do let r ← STRING_compare h g; pure (some r, env)

/-- success with effect `ok`, or failure without effect for a reason (as `Verif.Effect`, on integer results) -/
def Eff (bad oom : Prop) (ok : Text → Text → Prop) (a : Option Text) (r : Int) (a' : Option Text) : Prop :=
  ∃ n : Nat, r = n ∧ Effect bad oom ok a n a'

/-- What the calls mean on the abstract texts (`none` = NULL handle): the documented behaviour. -/
def AStep (rel : Prop) : Op → List (Option Text) → Option Int → List (Option Text) → Prop
  | .new, as => NewE as (¬ rel) (fun t => t = [])
  | .construct t, as => NewE as (¬ rel) (fun u => u = t)
  | .constructNull, as => NewE as True (fun _ => False)
  | .constructN t n, as => NewE as (t.length < n ∨ ¬ rel) (fun u => n ≤ t.length ∧ u = t.take n)
  | .newQuoted t, as => NewE as (¬ rel ∨ maxObj < t.length + 3) (fun u => u = [34] ++ t ++ [34])
  | .newJSON t, as => NewE as ((∃ c ∈ t, c ≥ 128) ∨ ¬ rel ∨ maxObj < 6 * t.length + 3)
      (fun u => (∀ c ∈ t, c < 128) ∧ JString u (t.map UInt8.toNat) [])
  | .clone i, as => fun o as' => (as[i]? = none ∧ o = none ∧ as' = as) ∨
      ∃ a, as[i]? = some a ∧ NewE as (a = none ∨ ¬ rel) (fun u => a = some u) o as'
  | .delete i, as => On1 as i (fun _ r a' => r = 0 ∧ a' = none)
  | .concat i t, as => On1 as i (fun a => Eff (a = none) (¬ rel ∨ ∃ c, a = some c ∧ maxObj < c.length + t.length + 1)
      (fun c c' => c' = c ++ t) a)
  | .concatNull i, as => On1 as i (fun a r a' => r ≠ 0 ∧ a' = a)
  | .copy i t, as => On1 as i (fun a => Eff (a = none) (¬ rel) (fun _ c' => c' = t) a)
  | .copyN i t n, as => On1 as i (fun a => Eff (a = none) (¬ rel) (fun _ c' => c' = t.take n) a)
  | .quote i, as => On1 as i (fun a => Eff (a = none) (¬ rel ∨ ∃ c, a = some c ∧ maxObj < c.length + 3)
      (fun c c' => c' = [34] ++ c ++ [34]) a)
  | .empty i, as => On1 as i (fun a => Eff (a = none) (¬ rel) (fun _ c' => c' = []) a)
  | .length i, as => On1 as i (fun a r a' => r = ((a.map List.length).getD 0 : Nat) ∧ a' = a)
  | .concatS i j, as => On2 as i j (fun a b => Eff (a = none ∨ b = none)
      (¬ rel ∨ ∃ t u, a = some t ∧ b = some u ∧ maxObj < t.length + u.length + 1) (fun c c' => ∃ u, b = some u ∧ c' = c ++ u) a)
  | .concatC i j, as => On2 as i j (fun a b => Eff (a = none ∨ b = none)
      (¬ rel ∨ ∃ t u, a = some t ∧ b = some u ∧ maxObj < t.length + u.length + 1) (fun c c' => ∃ u, b = some u ∧ c' = c ++ u) a)
  | .copyC i j, as =>
    if i = j then On1 as i (fun a r a' => (r = 0 ↔ a ≠ none) ∧ a' = a)
    else On2 as i j (fun a b => Eff (a = none ∨ b = none) (¬ rel) (fun _ c' => b = some c') a)
  | .compare i j, as =>
    if i = j then On1 as i (fun a r a' => r = 0 ∧ a' = a)
    else On2 as i j (fun a b r a' => r = compareSpec a b ∧ a' = a)

theorem Arg_lit {t : Text} (h : NoNul t ∧ t.length < maxObj) : Arg (.str t) (some t) = emp := by
  rw [Arg_some]; unfold CStr
  have : cstrV (bytesV (t ++ [0])) = some t ∧ (t ++ [0]).length ≤ maxObj := ⟨cstrV_bytes' h.1, by simp; omega⟩
  simp only [this, and_self, true_pand]

theorem Arg_nul : Arg .null none = emp := by rw [Arg_none, eq_self, true_pand]

/-- drop a constant argument from a constructor contract -/
theorem new_lit {c : M Nat} {A : HProp} {bad : Prop} {ok : Text → Prop} {bad' : Prop} {ok' : Text → Prop}
    (h : Triple rel A c (fun r => Made Str bad ok r ∗ A)) (hA : A = emp)
    (hb : bad → bad') (ho : ∀ x, ok x → ok' x) : Triple rel emp c (Made Str bad' ok') := by
  rw [hA] at h
  refine h.conseq (entails_refl _) fun r => ?_
  rw [sep_emp]
  by_cases hr : r = 0
  · subst hr; rw [Made_zero, Made_zero]; exact entails_pand_l fun h => entails_pand_r (entails_refl _) (hb h)
  · rw [Made_ne hr, Made_ne hr]
    exact entails_ex_l fun x => entails_pand_l fun h => entails_ex_r x (entails_pand_r (entails_refl _) (ho x h))

/-- drop a constant argument from a mutator contract -/
theorem mut_lit {h : Ptr} {a : Option Text} {c : M Nat} {A : HProp} {E E' : Nat → Option Text → Prop}
    (hc : Triple rel (OStr h a ∗ A) c (fun r => ∃∃ a', (E r a') ⋏ OStr h a' ∗ A)) (hA : A = emp)
    (hE : ∀ r a', E r a' → E' r a') : Triple rel (OStr h a) c (fun r => ∃∃ a', (E' r a') ⋏ OStr h a') := by
  rw [hA, sep_emp] at hc
  refine hc.conseq (entails_refl _) fun r => entails_ex_l fun a' => ?_
  rw [sep_emp]
  exact entails_pand_l fun h => entails_ex_r a' (entails_pand_r (entails_refl _) (hE _ _ h))

theorem Effect_imp {A : Type} {bad oom bad' oom' : Prop} {ok ok' : A → A → Prop} {a a' : Option A} {r : Nat}
    (h : Effect bad oom ok a r a') (hb : bad ↔ bad') (ho : oom → oom') (hk : ∀ c c', ok c c' → ok' c c') :
    Effect bad' oom' ok' a r a' := by
  rcases h with ⟨h1, h2, c, c', rfl, h4, h5⟩ | ⟨h1, h2, h3⟩
  · exact Or.inl ⟨h1, fun h => h2 (hb.2 h), c, c', rfl, h4, hk _ _ h5⟩
  · exact Or.inr ⟨h1, h2, h3.imp hb.1 ho⟩

/-- a call with the text of another string as argument -/
theorem with_cstr {h g : Ptr} {a b : Option Text} {f : CharPtr → M Nat} {E : Nat → Option Text → Prop}
    (hc : ∀ s, Triple rel (OStr h a ∗ Arg s b) (f s) (fun r => ∃∃ a', (E r a') ⋏ OStr h a' ∗ Arg s b)) :
    Triple rel (OStr h a ∗ OStr g b) (do let p ← STRING_c_str g; f (.ofPtr p))
      (fun r => ∃∃ a', (E r a') ⋏ OStr h a' ∗ OStr g b) := by
  step (STRING_c_str_spec (h := g)) into p
  cases b with
  | none =>
    unfold StrAt; hoist; rintro rfl rfl
    have := hc .null
    rw [Arg_nul, sep_emp] at this
    rw [ofPtr_zero]
    refine this.conseq (entails_refl _) fun r => entails_ex_l fun a' => entails_pand_l fun hE => entails_ex_r a' (entails_pand_r ?_ hE)
    show _ ⊢ₕ ORep Str h a' ∗ ORep Str 0 none
    rw [ORep_null]; exact entails_refl _
  | some t =>
    unfold StrAt; hoist
    refine Triple.know (know_heap0 (p := p) (by pick)) fun hp => ?_
    rw [ofPtr_ne hp]
    have := hc (.heap p 0)
    rw [Arg_some] at this
    last this
    rw [hex_sep]
    refine entails_ex_l fun a' => ?_
    rw [pand_sep]
    refine entails_pand_l fun hE => entails_ex_r a' (entails_pand_r ?_ hE)
    refine entails_trans ?_ (sep_mono (entails_refl _) (entails_ex_r p (entails_refl _)))
    rw [sep_assoc]; sep_cancel

theorem NewE_bad {as : List (Option Text)} {bad : Prop} {ok : Text → Prop} (h : bad) : NewE as bad ok (some (b2i false)) (as ++ [none]) :=
  Or.inl ⟨rfl, h, rfl⟩
theorem NewE_ok {as : List (Option Text)} {bad : Prop} {ok : Text → Prop} {x} (h : ok x) : NewE as bad ok (some (b2i true)) (as ++ [some x]) :=
  Or.inr ⟨rfl, x, h, rfl⟩

theorem exec_spec (op : Op) (hop : op.good) (env : List Nat) (as : List (Option Text)) :
    Triple rel (Own OStr env as) (exec op env)
      (fun r => ∃∃ as', (AStep rel op as r.1 as') ⋏ Own OStr r.2 as') := by
  refine Triple.know (φ := env.length = as.length) Own_len fun hl => ?_
  cases op with
  | new => exact lift_new (S := AStep rel .new as) STRING_new_spec (fun hb => Or.inl ⟨rfl, hb, rfl⟩) (fun x hx => Or.inr ⟨rfl, x, hx, rfl⟩)
  | construct t =>
    exact lift_new (S := AStep rel (.construct t) as) (bad := ¬ rel) (ok := fun u => u = t)
      (new_lit (STRING_construct_spec (o := some t)) (Arg_lit hop) (by simp) (by simp +contextual)) (fun hb => Or.inl ⟨rfl, hb, rfl⟩) (fun x hx => Or.inr ⟨rfl, x, hx, rfl⟩)
  | constructNull =>
    exact lift_new (S := AStep rel .constructNull as) (bad := True) (ok := fun _ => False)
      (new_lit (STRING_construct_spec (o := none)) Arg_nul (by simp) (by simp)) (fun hb => Or.inl ⟨rfl, hb, rfl⟩) (fun x hx => Or.inr ⟨rfl, x, hx, rfl⟩)
  | constructN t n =>
    exact lift_new (S := AStep rel (.constructN t n) as) (bad := t.length < n ∨ ¬ rel) (ok := fun u => n ≤ t.length ∧ u = t.take n)
      (new_lit (STRING_construct_n_spec (o := some t)) (Arg_lit hop) (by simp) (by simp)) (fun hb => Or.inl ⟨rfl, hb, rfl⟩) (fun x hx => Or.inr ⟨rfl, x, hx, rfl⟩)
  | newQuoted t =>
    exact lift_new (S := AStep rel (.newQuoted t) as) (bad := ¬ rel ∨ maxObj < t.length + 3) (ok := fun u => u = [34] ++ t ++ [34])
      (new_lit (STRING_new_quoted_spec (o := some t)) (Arg_lit hop) (by simp) (by simp)) (fun hb => Or.inl ⟨rfl, hb, rfl⟩) (fun x hx => Or.inr ⟨rfl, x, hx, rfl⟩)
  | newJSON t =>
    exact lift_new (S := AStep rel (.newJSON t) as) (bad := (∃ c ∈ t, c ≥ 128) ∨ ¬ rel ∨ maxObj < 6 * t.length + 3)
      (ok := fun u => (∀ c ∈ t, c < 128) ∧ JString u (t.map UInt8.toNat) [])
      (new_lit (STRING_new_JSON_spec (o := some t)) (Arg_lit hop) (by simp) (by simp)) (fun hb => Or.inl ⟨rfl, hb, rfl⟩) (fun x hx => Or.inr ⟨rfl, x, hx, rfl⟩)
  | clone i =>
    exact lift_clone (S := AStep rel (.clone i) as) hl (fun h a => STRING_clone_spec) (fun h => Or.inl ⟨h, rfl, rfl⟩)
      (fun a ha hb => Or.inr ⟨a, ha, NewE_bad hb⟩) (fun a x ha hx => Or.inr ⟨a, ha, NewE_ok hx⟩)
  | delete i =>
    exact lift_del (S := AStep rel (.delete i) as) hl (fun h a => STRING_delete_spec) On1.skip (fun a ha => On1.call ha ⟨rfl, rfl⟩)
  | concat i t =>
    exact lift_op1 (S := AStep rel (.concat i t) as) hl
      (fun h a => mut_lit (STRING_concat_spec (o := some t)) (Arg_lit hop) fun r a' hE => hE) On1.skip
      (fun a r a' ha hE => On1.call ha ⟨r, rfl, Effect_imp hE (by simp) (by simp) (by simp)⟩)
  | concatNull i =>
    refine lift_op1 (S := AStep rel (.concatNull i) as) hl
      (fun h a => mut_lit (STRING_concat_spec (o := none)) Arg_nul fun r a' hE => hE) On1.skip
      (fun a r a' ha hE => On1.call ha ?_)
    rcases hE with ⟨_, h2, _⟩ | ⟨h1, h2, _⟩
    · simp at h2
    · exact ⟨by omega, h2⟩
  | copy i t =>
    exact lift_op1 (S := AStep rel (.copy i t) as) hl
      (fun h a => mut_lit (STRING_copy_spec (o := some t)) (Arg_lit hop) fun r a' hE => hE) On1.skip
      (fun a r a' ha hE => On1.call ha ⟨r, rfl, Effect_imp hE (by simp) id (by simp +contextual)⟩)
  | copyN i t n =>
    exact lift_op1 (S := AStep rel (.copyN i t n) as) hl
      (fun h a => mut_lit (STRING_copy_n_spec (o := some t)) (Arg_lit hop) fun r a' hE => hE) On1.skip
      (fun a r a' ha hE => On1.call ha ⟨r, rfl, Effect_imp hE (by simp) id (by simp)⟩)
  | quote i =>
    exact lift_op1 (S := AStep rel (.quote i) as) hl (fun h a => STRING_quote_spec) On1.skip
      (fun a r a' ha hE => On1.call ha ⟨r, rfl, hE⟩)
  | empty i =>
    exact lift_op1 (S := AStep rel (.empty i) as) hl (fun h a => STRING_empty_spec) On1.skip
      (fun a r a' ha hE => On1.call ha ⟨r, rfl, hE⟩)
  | length i =>
    exact lift_get1 (S := AStep rel (.length i) as) hl (fun h a => STRING_length_spec) On1.skip
      (fun a r ha hE => On1.read ha ⟨by rw [hE], rfl⟩)
  | concatS i j =>
    exact lift_op2 (S := AStep rel (.concatS i j) as) hl hop (fun h g a b => STRING_concat_with_STRING_spec_partial) On2.skip
      (fun a b r a' ha hb hE => On2.call ha hb ⟨r, rfl, hE⟩)
  | concatC i j =>
    exact lift_op2 (S := AStep rel (.concatC i j) as) hl hop (fun h g a b => with_cstr fun s => STRING_concat_spec) On2.skip
      (fun a b r a' ha hb hE => On2.call ha hb ⟨r, rfl, hE⟩)
  | copyC i j =>
    by_cases hij : i = j
    · subst hij
      simp only [exec, if_true]
      refine lift_get1 (S := AStep rel (.copyC i i) as) (E := fun a r => (r = 0 ↔ a ≠ none)) hl (fun h a => ?_)
        (by simp only [AStep, if_true]; exact On1.skip)
        (fun a r ha hE => by simp only [AStep, if_true]; exact On1.read ha ⟨by simpa using hE, rfl⟩)
      step STRING_c_str_spec into p
      cases a with
      | none =>
        unfold StrAt; hoist; rintro rfl rfl
        unfold STRING_copy
        rw [if_pos (Or.inl rfl)]
        exact Triple.pure (entails_pand_r (by show emp ⊢ₕ ORep Str 0 none; rw [ORep_null]; exact entails_refl _) (by simp))
      | some t =>
        refine STRING_copy_self.conseq (entails_refl _) fun r => entails_pand_l fun e => entails_pand_r ?_ (by simp [e])
        exact StrAt_OStr
    · simp only [exec, if_neg hij]
      exact lift_op2 (S := AStep rel (.copyC i j) as) hl hij (fun h g a b => with_cstr fun s => STRING_copy_spec)
        (by simp only [AStep, if_neg hij]; exact On2.skip)
        (fun a b r a' ha hb hE => by simp only [AStep, if_neg hij]; exact On2.call ha hb ⟨r, rfl, hE⟩)
  | compare i j =>
    by_cases hij : i = j
    · subst hij
      simp only [exec, if_true]
      exact lift_get1 (S := AStep rel (.compare i i) as) (f := fun r => r) hl (fun h a => STRING_compare_self)
        (by simp only [AStep, if_true]; exact On1.skip)
        (fun a r ha hE => by simp only [AStep, if_true]; exact On1.read ha ⟨hE, rfl⟩)
    · simp only [exec, if_neg hij]
      exact lift_get2 (S := AStep rel (.compare i j) as) (f := fun r => r) hl hij (fun h g a b => STRING_compare_spec)
        (by simp only [AStep, if_neg hij]; exact On2.skip)
        (fun a b r ha hb hE => by simp only [AStep, if_neg hij]; exact On2.read ha hb ⟨hE, rfl⟩)

/-- C04+C05 over histories: whatever the allocator does, any sequence of client calls runs without undefined behaviour,
every result and effect is the documented one, failing calls change nothing, and the memory in use is exactly that of the
live strings.  `_partial`: the client does not append a string to itself. -/
theorem STRING_history_partial (ops : List Op) (hops : ∀ op ∈ ops, op.good) (env : List Nat) (as : List (Option Text)) :
    Triple rel (Own OStr env as) (execAll exec ops env)
      (fun r => ∃∃ as', (Steps (AStep rel) ops as r.1 as') ⋏ Own OStr r.2 as') :=
  history_ok exec_spec ops hops env as

/-- C05: start with empty memory, make any calls, delete all handles: no undefined behaviour and
nothing is left allocated, for every allocator. -/
theorem STRING_no_leak_partial (ops : List Op) (hops : ∀ op ∈ ops, op.good) (al : Nat → Heap → Nat → Nat) :
    ∃ s', (do let r ← execAll exec ops []; releaseAll STRING_delete r.2) (St.start al) = some (.ok ((), s'))
      ∧ s'.heap = Heap.empty :=
  no_leak exec_spec (fun h a => STRING_delete_spec) ops hops al

/-- C05 is false in full: appending a string to itself is undefined behaviour (overlapping copy / use of the old
block after `realloc`), and strings.c does not exclude it. -/
theorem STRING_concat_self_is_UB :
    outcome (do
      let a ← STRING_construct (.str [97])
      STRING_concat_with_STRING a a) (St.start bump) = some (.error (.ub "overlapping memcpy")) := by
  decide +kernel

/-- Non-vacuity: a concrete history. -/
example : outcome (do
      let r ← execAll exec [.construct [97, 98], .newQuoted [99], .concatS 0 1, .length 0, .copyN 1 [100, 101] 1, .compare 0 1, .quote 1,
        .concatC 1 0, .length 1, .delete 0, .compare 0 1, .length 7] []
      pure r.1) (St.start bump) = some (.ok [some 1, some 1, some 0, some 5, some 0, some (-1), some 0, some 0, some 8, some 0, some 1, none]) := by
  decide +kernel

example : ∀ op ∈ [Op.construct [97, 98], .newQuoted [99], .concatS 0 1], op.good := by simp [Op.good, NoNul, maxObj]

end Verif.Strings
