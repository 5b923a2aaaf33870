import Verif.Map.Props2
import Verif.Strings.History
/-!
# C08, C09, C10, C11 over arbitrary histories of map calls on arbitrarily many maps
-/
set_option linter.unusedSimpArgs false
set_option linter.unusedVariables false
namespace Verif.Map
open Verif Verif.Crt
variable {rel : Prop}

/-- Calls a client can make; maps are named by their position in the client's table, texts are string constants or NULL. -/
inductive Op where
  | create (filter : Nat)
  | clone (i : Nat)
  | destroy (i : Nat)
  | add (i : Nat) (k v : Option Text)
  | update (i : Nat) (k v : Option Text)
  | delete (i : Nat) (k : Option Text)
  | containsKey (i : Nat) (k : Option Text)
  | containsValue (i : Nat) (v : Option Text)
  /-- `Map_GetValueFromKey`, then read the string it points to -/
  | get (i : Nat) (k : Option Text)
  /-- `Map_GetInternals`, then read all strings of both arrays -/
  | internals (i : Nat)

/-- What a call returned. -/
inductive Out where
  | handle (ok : Bool)
  | done
  | code (r : MapResult)
  | flag (r : MapResult × Option Bool)
  | value (t : Option Text)
  | arrays (r : Option (List Text × List Text))
  deriving DecidableEq

def okText : Option Text → Prop
  | none => True
  | some t => NoNul t ∧ t.length < maxObj

/-- The constants are C strings. -/
def Op.good : Op → Prop
  | .add _ k v | .update _ k v => okText k ∧ okText v
  | .delete _ k | .containsKey _ k | .containsValue _ k | .get _ k => okText k
  | _ => True

def lit : Option Text → CharPtr
  | none => .null
  | some t => .str t

theorem Arg_lit' {o : Option Text} (h : okText o) : Arg (lit o) o = emp := by
  cases o with
  | none => exact Strings.Arg_nul
  | some t => exact Strings.Arg_lit h

/-- the client reads `n` strings through an array of pointers -/
def readArr (p : Ptr) : Nat → Nat → M (List Text)
  | 0, _ => pure []
  | fuel + 1, i => do
    let s ← loadPtr p i
    let t ← cstr (.ofPtr s)
    let ts ← readArr p fuel (i + 1)
    pure (t :: ts)

def getText (h : Ptr) (k : CharPtr) : M (Option Text) := do
  let p ← Map_GetValueFromKey h k
  if p = 0 then pure none
  else
    let t ← cstr (.ofPtr p)
    pure (some t)

def getArrays (h : Ptr) : M (Option (List Text × List Text)) := do
  let r ← Map_GetInternals h true
  match r with
  | (_, some (kp, vp, n)) =>
    let ks ← readArr kp n 0
    let vs ← readArr vp n 0
    pure (some (ks, vs))
  | (_, none) => pure none

def exec (flt : Filt) : Op → List Nat → M (Option Out × List Nat)
  | .create f, env => do let h ← Map_Create f; pure (some (.handle (decide (h ≠ 0))), env ++ [h])
  | .clone i, env => on1 env i fun h => do let r ← Map_Clone h; pure (some (.handle (decide (r ≠ 0))), env ++ [r])
  | .destroy i, env => on1 env i fun h => do Map_Destroy h; pure (some .done, env.set i 0)
  | .add i k v, env => on1 env i fun h => do let r ← Map_Add flt h (lit k) (lit v); pure (some (.code r), env)
  | .update i k v, env => on1 env i fun h => do let r ← Map_AddOrUpdate flt h (lit k) (lit v); pure (some (.code r), env)
  | .delete i k, env => on1 env i fun h => do let r ← Map_Delete h (lit k); pure (some (.code r), env)
  | .containsKey i k, env => on1 env i fun h => do let r ← Map_ContainsKey h (lit k) true; pure (some (.flag r), env)
  | .containsValue i v, env => on1 env i fun h => do let r ← Map_ContainsValue h (lit v) true; pure (some (.flag r), env)
  | .get i k, env => on1 env i fun h => do let r ← getText h (lit k); pure (some (.value r), env)
  | .internals i, env => on1 env i fun h => do let r ← getArrays h; pure (some (.arrays r), env)

/-- a constructor's result in the table -/
def NewM (as : List (Option MapV)) (bad : Prop) (ok : MapV → Prop) (o : Option Out) (as' : List (Option MapV)) : Prop :=
  (o = some (.handle false) ∧ bad ∧ as' = as ++ [none]) ∨ (o = some (.handle true) ∧ ∃ m, ok m ∧ as' = as ++ [some m])

/-- a call that changes map `i` as described by `E` -/
def Code (E : Option MapV → MapResult → Option MapV → Prop) (a : Option MapV) (o : Out) (a' : Option MapV) : Prop :=
  ∃ r, o = .code r ∧ E a r a'

/-- What the calls mean on the abstract maps (`none` = NULL handle). -/
def AStep (flt : Filt) (rel : Prop) : Op → List (Option MapV) → Option Out → List (Option MapV) → Prop
  | .create f, as => NewM as (¬ rel) (fun m => m.pairs = [] ∧ m.filter = f)
  | .clone i, as => fun o as' => (as[i]? = none ∧ o = none ∧ as' = as) ∨
      ∃ a, as[i]? = some a ∧ NewM as (a = none ∨ ¬ rel ∨ ∃ m, a = some m ∧ maxObj < 8 * m.pairs.length) (fun m' => ∃ m, a = some m ∧ m' = m.clone) o as'
  | .destroy i, as => On1 as i (fun _ o a' => o = .done ∧ a' = none)
  | .add i k v, as => On1 as i (Code fun a => AddE flt rel a k v)
  | .update i k v, as => On1 as i (Code fun a => UpdateE flt rel a k v)
  | .delete i k, as => On1 as i (Code fun a => DeleteE a k)
  | .containsKey i k, as => On1 as i (fun a o a' => a' = a ∧ o = .flag (match a, k with
      | some m, some k => (.ok, some (decide (k ∈ m.keys)))
      | _, _ => (.invalidArg, none)))
  | .containsValue i v, as => On1 as i (fun a o a' => a' = a ∧ o = .flag (match a, v with
      | some m, some v => (.ok, some (decide (v ∈ m.vals)))
      | _, _ => (.invalidArg, none)))
  | .get i k, as => On1 as i (fun a o a' => a' = a ∧ ∃ t, o = .value t ∧ match a, k with
      | some m, some k => (match t with | some v => (k, v) ∈ m.pairs | none => k ∉ m.keys)
      | _, _ => t = none)
  | .internals i, as => On1 as i (fun a o a' => a' = a ∧ o = .arrays (a.map fun m => (m.keys, m.vals)))

theorem mut_emp {h : Ptr} {a : Option MapV} {α : Type} {c : M α} {A : HProp} {E : α → Option MapV → Prop}
    (hc : Triple rel (OMap h a ∗ A) c (fun r => ∃∃ a', (E r a') ⋏ OMap h a' ∗ A)) (hA : A = emp) :
    Triple rel (OMap h a) c (fun r => ∃∃ a', (E r a') ⋏ OMap h a') := by
  rw [hA] at hc
  simp only [sep_emp] at hc
  exact hc

theorem get_emp {h : Ptr} {a : Option MapV} {α : Type} {c : M α} {A : HProp} {E : α → Prop}
    (hc : Triple rel (OMap h a ∗ A) c (fun r => (E r) ⋏ OMap h a ∗ A)) (hA : A = emp) :
    Triple rel (OMap h a) c (fun r => (E r) ⋏ OMap h a) := by
  rw [hA] at hc
  simp only [sep_emp] at hc
  exact hc

theorem readArr_loop {p : Ptr} {ps : List Nat} {ex : List Val} {ts : List Text} (hl : ps.length = ts.length) :
    ∀ fuel i, i + fuel = ts.length →
    Triple rel (p ↦ (ps.map Val.ptr ++ ex) ∗ Own CS ps ts) (readArr p fuel i) (fun r => (r = ts.drop i) ⋏ p ↦ (ps.map Val.ptr ++ ex) ∗ Own CS ps ts) := by
  intro fuel
  induction fuel with
  | zero =>
    intro i hi
    exact Triple.pure (entails_pand_r (entails_refl _) (by rw [List.drop_of_length_le (by omega)]))
  | succ fuel ih =>
    intro i hi
    unfold readArr
    obtain ⟨q, hq⟩ := get_of_lt (l := ps) (i := i) (by omega)
    obtain ⟨t, ht⟩ := get_of_lt (l := ts) (i := i) (by omega)
    have e := Own_erase (R := CS) hq ht
    step (loadPtr_spec (p := p) (arr_get hq))
    rw [e]
    refine Triple.know (know_heap0 (p := q) (t := t) (by pick)) fun hq0 => ?_
    rw [ofPtr_ne hq0]
    step (cstr_spec (s := .heap q 0))
    rw [e] at ih
    step (ih (i + 1) (by omega))
    refine Triple.pure (entails_pand_r (by sep_cancel) ?_)
    obtain ⟨h1, h2⟩ := List.getElem?_eq_some_iff.1 ht
    rw [List.drop_eq_getElem_cons h1, h2]

theorem readArr_spec {p : Ptr} {ts : List Text} {n : Nat} (hn : n = ts.length) :
    Triple rel (Arr p ts) (readArr p n 0) (fun r => (r = ts) ⋏ Arr p ts) := by
  by_cases hts : ts = []
  · subst hts; subst hn
    exact Triple.pure (entails_pand_r (entails_refl _) rfl)
  · rw [Arr_ne hts, Vec]; hoist; intro ps ex
    refine Triple.know (know_Own (env := ps) (as := ts) (R := CS) (by pick)) fun hl => ?_
    refine (readArr_loop hl n 0 (by omega)).conseq (entails_refl _) fun r => entails_pand_l fun h => entails_pand_r ?_ (by simpa using h)
    exact entails_ex_r ps (entails_ex_r ex (entails_refl _))

theorem getText_spec {h : Ptr} {a : Option MapV} {key : CharPtr} {ok : Option Text} :
    Triple rel (OMap h a ∗ Arg key ok) (getText h key)
      (fun t => (match a, ok with
        | some m, some k => (match t with | some v => (k, v) ∈ m.pairs | none => k ∉ m.keys)
        | _, _ => t = none) ⋏ OMap h a ∗ Arg key ok) := by
  unfold getText
  step Map_GetValueFromKey_spec into p
  unfold ValueAt
  refine Triple.ite (fun h0 => ?_) (fun h0 => ?_)
  · rw [if_pos h0]; hoist; intro hn
    refine Triple.pure (entails_pand_r (entails_refl _) ?_)
    cases a with
    | none => rfl
    | some m => cases ok with
      | none => rfl
      | some k => exact hn m k rfl rfl
  · rw [if_neg h0]; hoist; intro v F m k ha hk hv hF
    subst ha hk
    rw [ofPtr_ne h0]
    step (cstr_spec (s := .heap p 0))
    refine Triple.pure (entails_pand_r ?_ hv)
    rw [← sep_assoc]
    exact sep_mono hF (entails_refl _)

theorem getArrays_spec {h : Ptr} {a : Option MapV} :
    Triple rel (OMap h a) (getArrays h) (fun r => (r = a.map fun m => (m.keys, m.vals)) ⋏ OMap h a) := by
  unfold getArrays
  step Map_GetInternals_spec into r
  rcases r with ⟨c, o⟩
  cases o with
  | none =>
    cases c <;> (unfold InternalsAt; hoist; intro hh) <;> try exact hh.elim
    refine Triple.pure (entails_pand_r (entails_refl _) ?_)
    simp at hh; simp [hh]
  | some x =>
    obtain ⟨kp, vp, n⟩ := x
    cases c <;> (unfold InternalsAt; hoist) <;> try (intro hh; exact hh.elim)
    intro m ha _ hn hnd
    subst ha hn
    dsimp only
    step (readArr_spec (p := kp) (keys_length m).symm)
    step (readArr_spec (p := vp) (vals_length m).symm)
    refine Triple.pure (entails_pand_r ?_ rfl)
    refine entails_trans ?_ (MapR_close (kp := kp) (vp := vp) (h := h) (m := m) rfl rfl rfl rfl hnd (entails_refl _))
    sep_cancel

theorem exec_spec (flt : Filt) (op : Op) (hop : op.good) (env : List Nat) (as : List (Option MapV)) :
    Triple rel (Own OMap env as) (exec flt op env)
      (fun r => ∃∃ as', (AStep flt rel op as r.1 as') ⋏ Own OMap r.2 as') := by
  refine Triple.know (φ := env.length = as.length) Own_len fun hl => ?_
  cases op with
  | create f =>
    exact lift_new (f := Out.handle) (S := AStep flt rel (.create f) as) Map_Create_spec (fun hb => Or.inl ⟨rfl, hb, rfl⟩) (fun x hx => Or.inr ⟨rfl, x, hx, rfl⟩)
  | clone i =>
    exact lift_clone (f := Out.handle) (S := AStep flt rel (.clone i) as) hl (fun h a => Map_Clone_spec) (fun h => Or.inl ⟨h, rfl, rfl⟩)
      (fun a ha hb => Or.inr ⟨a, ha, Or.inl ⟨rfl, hb, rfl⟩⟩) (fun a x ha hx => Or.inr ⟨a, ha, Or.inr ⟨rfl, x, hx, rfl⟩⟩)
  | destroy i =>
    exact lift_del (S := AStep flt rel (.destroy i) as) hl (fun h a => Map_Destroy_spec) On1.skip (fun a ha => On1.call ha ⟨rfl, rfl⟩)
  | add i k v =>
    exact lift_op1 (f := Out.code) (S := AStep flt rel (.add i k v) as) hl
      (fun h a => mut_emp (Map_Add_spec Args2.two) (by rw [Arg_lit' hop.1, Arg_lit' hop.2, emp_sep])) On1.skip
      (fun a r a' ha hE => On1.call ha ⟨r, rfl, hE⟩)
  | update i k v =>
    exact lift_op1 (f := Out.code) (S := AStep flt rel (.update i k v) as) hl
      (fun h a => mut_emp (Map_AddOrUpdate_spec Args2.two) (by rw [Arg_lit' hop.1, Arg_lit' hop.2, emp_sep])) On1.skip
      (fun a r a' ha hE => On1.call ha ⟨r, rfl, hE⟩)
  | delete i k =>
    exact lift_op1 (f := Out.code) (S := AStep flt rel (.delete i k) as) hl
      (fun h a => mut_emp Map_Delete_spec (Arg_lit' hop)) On1.skip
      (fun a r a' ha hE => On1.call ha ⟨r, rfl, hE⟩)
  | containsKey i k =>
    refine lift_get1 (f := Out.flag) (S := AStep flt rel (.containsKey i k) as) hl
      (fun h a => get_emp (Map_ContainsKey_spec (ok := k) (out := true)) (Arg_lit' hop)) On1.skip
      (fun a r ha hE => On1.read ha ⟨rfl, ?_⟩)
    cases a <;> cases k <;> simp at hE ⊢ <;> exact hE
  | containsValue i k =>
    refine lift_get1 (f := Out.flag) (S := AStep flt rel (.containsValue i k) as) hl
      (fun h a => get_emp (Map_ContainsValue_spec (ov := k) (out := true)) (Arg_lit' hop)) On1.skip
      (fun a r ha hE => On1.read ha ⟨rfl, ?_⟩)
    cases a <;> cases k <;> simp at hE ⊢ <;> exact hE
  | get i k =>
    exact lift_get1 (f := Out.value) (S := AStep flt rel (.get i k) as) hl
      (fun h a => get_emp (getText_spec (ok := k)) (Arg_lit' hop)) On1.skip
      (fun a r ha hE => On1.read ha ⟨rfl, r, rfl, hE⟩)
  | internals i =>
    exact lift_get1 (f := Out.arrays) (S := AStep flt rel (.internals i) as) hl
      (fun h a => getArrays_spec) On1.skip
      (fun a r ha hE => On1.read ha ⟨rfl, by rw [hE]⟩)

/-- C08+C09+C11 over histories: whatever the allocator does, any sequence of calls on any number of maps runs without undefined
behaviour, every result and effect is that of an insertion-ordered dictionary, failing calls change no pair, calls on one map
change no other (a clone included), and the memory in use is exactly that of the live maps. -/
theorem Map_history (flt : Filt) (ops : List Op) (hops : ∀ op ∈ ops, op.good) (env : List Nat) (as : List (Option MapV)) :
    Triple rel (Own OMap env as) (execAll (exec flt) ops env)
      (fun r => ∃∃ as', (Steps (AStep flt rel) ops as r.1 as') ⋏ Own OMap r.2 as') :=
  history_ok (exec_spec flt) ops hops env as

/-- C09: start with empty memory, make any calls, destroy all maps: no undefined behaviour and nothing is left allocated. -/
theorem Map_no_leak (flt : Filt) (ops : List Op) (hops : ∀ op ∈ ops, op.good) (al : Nat → Heap → Nat → Nat) :
    ∃ s', (do let r ← execAll (exec flt) ops []; releaseAll Map_Destroy r.2) (St.start al) = some (.ok ((), s'))
      ∧ s'.heap = Heap.empty :=
  no_leak (exec_spec flt) (fun h a => Map_Destroy_spec) ops hops al

/-- C08: a key occurs at most once, in every map owned at any time. -/
theorem Map_keys_unique {h : Ptr} {m : MapV} {F : HProp} : ∀ hp, (MapR h m ∗ F) hp → m.keys.Nodup :=
  fun hp hP => (know_MapR (h := h) (m := m) (by pick) hp hP).2

/-! ## C10: filters -/

/-- A map with a filter holds only pairs the filter accepts. -/
def Guarded (flt : Filt) (a : Option MapV) : Prop := ∀ m, a = some m → m.filter ≠ 0 → ∀ k v, (k, v) ∈ m.pairs → flt m.filter k v = 0

theorem insertE_guarded {flt : Filt} {m m' : MapV} {k v : Text} {r : MapResult} (h : insertE rel m k v r m') (hg : Guarded flt (some m))
    (hr : ¬ m.rejects flt k v) : Guarded flt (some m') := by
  intro m2 h2; cases h2
  rcases h with ⟨-, rfl⟩ | ⟨-, -, h1, h2⟩
  · intro hf k' v' hm
    simp only [MapV.append] at hf hm ⊢
    rcases List.mem_append.1 hm with hm | hm
    · exact hg m rfl hf k' v' hm
    · simp at hm; obtain ⟨rfl, rfl⟩ := hm
      exact Decidable.byContradiction fun hc => hr ⟨hf, hc⟩
  · intro hf k' v' hm
    rw [h1] at hm
    rcases h2 with h2 | h2
    · rw [h2] at hf ⊢; exact hg m rfl hf k' v' hm
    · exact absurd h2.2 hf

theorem AStep_guarded {flt : Filt} {op : Op} {as as' : List (Option MapV)} {o : Option Out} (h : AStep flt rel op as o as')
    (hg : ∀ a ∈ as, Guarded flt a) : ∀ a ∈ as', Guarded flt a := by
  have gn : Guarded flt none := by intro m h; simp at h
  have app : ∀ x, Guarded flt x → ∀ a ∈ as ++ [x], Guarded flt a := by
    intro x hx a ha
    rcases List.mem_append.1 ha with ha | ha
    · exact hg a ha
    · simp at ha; subst ha; exact hx
  have on : ∀ {i} {E : Option MapV → Out → Option MapV → Prop}, On1 as i E o as' → (∀ a o a', Guarded flt a → E a o a' → Guarded flt a') → ∀ a ∈ as', Guarded flt a := by
    rintro i E (⟨_, _, rfl⟩ | ⟨a, r, a', ha, _, hE, rfl⟩) hh b hb
    · exact hg b hb
    · rcases List.mem_or_eq_of_mem_set hb with hb | rfl
      · exact hg b hb
      · exact hh _ _ _ (hg a (List.mem_of_getElem? ha)) hE
  cases op with
  | create f =>
    rcases h with ⟨_, _, rfl⟩ | ⟨_, m, ⟨h1, _⟩, rfl⟩
    · exact app none gn
    · refine app _ ?_
      intro m' h' _ k v hm; cases h'; rw [h1] at hm; simp at hm
  | clone i =>
    rcases h with ⟨_, _, rfl⟩ | ⟨a, ha, ⟨_, _, rfl⟩ | ⟨_, m, ⟨m0, rfl, rfl⟩, rfl⟩⟩
    · exact hg
    · exact app none gn
    · refine app _ ?_
      have := hg _ (List.mem_of_getElem? ha)
      intro m' h' hf k v hm; cases h'
      by_cases he : m0.pairs = []
      · simp [MapV.clone, he] at hm
      · simp only [MapV.clone, he, if_false] at hf hm ⊢
        exact this m0 rfl hf k v hm
  | destroy i => exact on h (by rintro a o a' _ ⟨_, rfl⟩; exact gn)
  | add i k v =>
    refine on h ?_
    rintro a o a' ha ⟨r, _, hE⟩
    unfold AddE at hE
    split at hE
    · split at hE
      · rw [hE.2]; exact ha
      · rcases hE with ⟨_, _, rfl⟩ | ⟨hr, m', rfl, hi⟩
        · exact ha
        · exact insertE_guarded hi ha hr
    · rw [hE.2]; exact ha
  | update i k v =>
    refine on h ?_
    rintro a o a' ha ⟨r, _, hE⟩
    unfold UpdateE at hE
    split at hE
    · rename_i m k v
      rcases hE with ⟨_, _, rfl⟩ | ⟨hr, ⟨hk, m', rfl, hi⟩ | ⟨hk, ⟨_, rfl⟩ | ⟨_, _, rfl⟩⟩⟩
      · exact ha
      · exact insertE_guarded hi ha hr
      · intro m2 h2 hf k' v' hm; cases h2
        simp only [MapV.update, List.mem_map] at hm hf ⊢
        obtain ⟨p, hp, he⟩ := hm
        by_cases hpk : p.1 = k
        · simp only [hpk, if_true] at he; cases he
          exact Decidable.byContradiction fun hc => hr ⟨hf, hc⟩
        · simp only [hpk, if_false] at he; subst he
          exact ha m rfl hf k' v' hp
      · exact ha
    · rw [hE.2]; exact ha
  | delete i k =>
    refine on h ?_
    rintro a o a' ha ⟨r, _, hE⟩
    unfold DeleteE at hE
    split at hE
    · rename_i m k
      split at hE
      · rw [hE.2]
        intro m2 h2 hf k' v' hm; cases h2
        unfold MapV.remove at hf hm ⊢
        dsimp only at hf hm ⊢
        split at hf
        · exact absurd rfl hf
        · rename_i hne
          rw [if_neg hne]
          exact ha m rfl hf k' v' (List.mem_filter.1 hm).1
      · rw [hE.2]; exact ha
    · rw [hE.2]; exact ha
  | containsKey i k => exact on h (by rintro a o a' ha ⟨rfl, _⟩; exact ha)
  | containsValue i v => exact on h (by rintro a o a' ha ⟨rfl, _⟩; exact ha)
  | get i k => exact on h (by rintro a o a' ha ⟨rfl, _⟩; exact ha)
  | internals i => exact on h (by rintro a o a' ha ⟨rfl, _⟩; exact ha)

/-- C10 (`_partial`): in every history, a map that has a filter holds only pairs its filter accepts.
Missing: that a map created with a filter keeps it; the next theorems show the code drops it. -/
theorem Map_filter_partial (flt : Filt) (ops : List Op) (hops : ∀ op ∈ ops, op.good) :
    Triple rel emp (execAll (exec flt) ops [])
      (fun r => ∃∃ as', (Steps (AStep flt rel) ops [] r.1 as' ∧ ∀ a ∈ as', Guarded flt a) ⋏ Own OMap r.2 as') := by
  rw [← Own_nil OMap]
  refine (Map_history flt ops hops [] []).conseq (entails_refl _) fun r => entails_ex_l fun as' => entails_pand_l fun hs => ?_
  refine entails_ex_r as' (entails_pand_r (entails_refl _) ⟨hs, ?_⟩)
  have : ∀ ops as outs as', Steps (AStep flt rel) ops as outs as' → (∀ a ∈ as, Guarded flt a) → ∀ a ∈ as', Guarded flt a := by
    intro ops as outs as' h
    induction h with
    | nil => exact id
    | cons h1 _ ih => exact fun hg => ih (AStep_guarded h1 hg)
  exact this _ _ _ _ hs (by simp)

/-- a filter that rejects everything but the key "a" -/
def onlyA : Filt := fun _ k _ => if k = [97] then 0 else 1

/-- C10 is false in full: after deleting the last pair the filter is gone (map.c:222), and a rejected pair is accepted. -/
theorem Map_filter_lost_by_delete :
    outcome (do
      let r ← execAll (exec onlyA) [.create 1, .add 0 (some [98]) (some [120]), .add 0 (some [97]) (some [120]), .delete 0 (some [97]),
        .add 0 (some [98]) (some [120])] []
      pure r.1) (St.start bump) =
    some (.ok [some (.handle true), some (.code .filterReject), some (.code .ok), some (.code .ok), some (.code .ok)]) := by decide +kernel

/-- C10 is false in full: the clone of an empty map has no filter (map.c:129). -/
theorem Map_filter_lost_by_clone :
    outcome (do
      let r ← execAll (exec onlyA) [.create 1, .clone 0, .add 0 (some [98]) (some [120]), .add 1 (some [98]) (some [120])] []
      pure r.1) (St.start bump) =
    some (.ok [some (.handle true), some (.handle true), some (.code .filterReject), some (.code .ok)]) := by decide +kernel

/-- C10 is false in full: a first insertion that runs out of memory drops the filter (map.c:309, 222).  The allocator refuses request number 3 only. -/
theorem Map_filter_lost_by_failure :
    outcome (do
      let r ← execAll (exec onlyA) [.create 1, .add 0 (some [97]) (some [120]), .add 0 (some [98]) (some [120])] []
      pure r.1) (St.start (fun t _ _ => if t = 3 then 0 else t + 1)) =
    some (.ok [some (.handle true), some (.code .error), some (.code .ok)]) := by decide +kernel

/-- C08 with aliased arguments is false: updating a key with a pointer obtained from the same map is undefined behaviour
(the old value is reallocated before it is copied from). -/
theorem Map_AddOrUpdate_own_value_is_UB :
    outcome (do
      let m ← Map_Create 0
      let _ ← Map_Add onlyA m (.str [97]) (.str [120])
      let p ← Map_GetValueFromKey m (.str [97])
      Map_AddOrUpdate onlyA m (.str [97]) (.ofPtr p)) (St.start bump) = some (.error (.ub "read from a block that is not live")) := by
  decide +kernel

/-- Non-vacuity: a concrete history. -/
example : outcome (do
      let r ← execAll (exec onlyA) [.create 0, .add 0 (some [97]) (some [49]), .add 0 (some [98]) (some [50]), .add 0 (some [97]) (some [51]),
        .clone 0, .update 0 (some [97]) (some [52, 53]), .update 0 (some [99]) (some [54]), .delete 0 (some [98]), .delete 0 (some [98]), .internals 0, .internals 1,
        .get 0 (some [97]), .get 0 (some [98]), .containsKey 0 (some [99]), .containsValue 0 (some [50]), .add 0 none (some []), .destroy 1, .clone 1] []
      pure r.1) (St.start bump) = some (.ok [some (.handle true), some (.code .ok), some (.code .ok), some (.code .keyExists), some (.handle true), some (.code .ok), some (.code .ok),
        some (.code .ok), some (.code .keyNotFound), some (.arrays (some ([[97], [99]], [[52, 53], [54]]))), some (.arrays (some ([[97], [98]], [[49], [50]]))),
        some (.value (some [52, 53])), some (.value none), some (.flag (.ok, some true)), some (.flag (.ok, some false)), some (.code .invalidArg), some .done, some (.handle false)]) := by
  decide +kernel

end Verif.Map
