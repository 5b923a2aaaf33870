import Verif.Vec.Props
/-! # C18, C19 over histories, and what is false -/
set_option linter.unusedSimpArgs false
set_option linter.unusedVariables false
namespace Verif.Vec
open Verif
variable {rel : Prop}

/-! ## A client (not part of the library)

It knows the element size it created the vector with (the model looks it up in the handle), passes elements of that size from its own
storage, erases only runs inside the vector and reads through the pointers it gets. -/

def pushC (new : Elems) (h : Ptr) : M (Option Nat) := do
  if h = 0 then
    let r ← VECTOR_push_back h (.lit new.flatten) new.length
    pure (some r)
  else
    let es ← loadInt h fSize
    if ∀ e ∈ new, e.length = es then
      let r ← VECTOR_push_back h (.lit new.flatten) new.length
      pure (some r)
    else pure none

def eraseC (j n : Nat) (h : Ptr) : M Bool := do
  let count ← VECTOR_size h
  if 0 < n ∧ j + n ≤ count then
    let p ← VECTOR_element h j
    VECTOR_erase h p n
    pure true
  else pure false

/-- the bytes at `p`, of one element -/
def look (h : Ptr) (p : VPtr) : M (Option (List Val)) := do
  if p = .null then pure none
  else
    let es ← loadInt h fSize
    let vs ← readAt p es
    pure (some vs)

def getC (j : Nat) (h : Ptr) : M (Option (List Val)) := do
  let count ← VECTOR_size h
  if j < count then
    let p ← VECTOR_element h j
    look h p
  else pure none

def frontC (h : Ptr) : M (Option (List Val)) := do
  let p ← VECTOR_front h
  look h p

def backC (h : Ptr) : M (Option (List Val)) := do
  let count ← VECTOR_size h
  if 0 < count then
    let p ← VECTOR_back h
    look h p
  else pure none

def matchC (g : List Val → Bool) (h : Ptr) (p : VPtr) : M Bool := do
  let es ← loadInt h fSize
  let vs ← readAt p es
  pure (g vs)

def findC (g : List Val → Bool) (h : Ptr) : M (Option (List Val)) := do
  let p ← VECTOR_find_if h (some (matchC g h)) false
  look h p

theorem es_spec {h st : Ptr} {v : V} : Triple rel (VecAt h st v) (loadInt h fSize) (fun r => (r = v.1) ⋏ VecAt h st v) := by
  unfold VecAt; hoist; intro h1 h2 h3
  last (loadInt_spec (p := h) ?_)
  rename_i r; rw [pand_sep]
  exact entails_pand_l fun hr => entails_pand_r (entails_pand_r (entails_refl _) ⟨h1, h2, h3⟩) hr

theorem count_spec {h st : Ptr} {v : V} : Triple rel (VecAt h st v) (VECTOR_size h) (fun r => (r = v.2.length) ⋏ VecAt h st v) := by
  refine Triple.know (know_VecAt (h := h) (by pick)) fun hk => ?_
  unfold VECTOR_size
  rw [if_pos hk.1]
  unfold VecAt; hoist; intro h1 h2 h3
  last (loadInt_spec (p := h) ?_)
  rename_i r; rw [pand_sep]
  exact entails_pand_l fun hr => entails_pand_r (entails_pand_r (entails_refl _) ⟨h1, h2, h3⟩) hr

theorem OVec_of {h st : Ptr} {v : V} : VecAt h st v ⊢ₕ OVec h (some v) := entails_ex_r st (entails_refl _)

theorem split_at {v : V} {j : Nat} (hj : j < v.2.length) : ∃ l1 e l2, v = (v.1, l1 ++ e :: l2) ∧ l1.length = j ∧ v.2[j]? = some e := by
  refine ⟨v.2.take j, v.2[j], v.2.drop (j + 1), ?_, ?_, ?_⟩
  · rw [List.getElem_cons_drop, List.take_append_drop]
  · simp; omega
  · simp [hj]

theorem look_null {h st : Ptr} {v : V} : Triple rel (VecAt h st v) (look h .null) (fun r => (r = none) ⋏ OVec h (some v)) := by
  unfold look; rw [if_pos rfl]
  exact Triple.pure (entails_pand_r OVec_of rfl)

theorem look_spec {h st : Ptr} {v : V} {j : Nat} (hj : j < v.2.length) :
    Triple rel (VecAt h st v) (look h (.at st (v.1 * j))) (fun r => (r = (v.2[j]?).map bytesV) ⋏ OVec h (some v)) := by
  obtain ⟨l1, e, l2, hv, hl, he⟩ := split_at hj
  unfold look
  rw [if_neg (by simp), he, hv, ← hl]
  dsimp only
  step es_spec
  step (readAt_spec (h := h) (st := st) (k := v.1) (l1 := l1) (l2 := l2) (e := e))
  exact Triple.pure (entails_pand_r OVec_of rfl)

theorem size_zero : Triple rel emp (VECTOR_size 0) (fun r => (r = 0) ⋏ emp) := by
  rw [VECTOR_size, if_neg (by simp)]; exact Triple.pure (entails_pand_r (entails_refl _) rfl)

/-- What the client's push does. -/
def PushCE (rel : Prop) (a : Option V) (new : Elems) (r : Option Nat) (a' : Option V) : Prop :=
  (∃ n, r = some n ∧ (∀ v, a = some v → ∀ e ∈ new, e.length = v.1) ∧ PushE rel a new n a') ∨
  (r = none ∧ a' = a ∧ ∃ v, a = some v ∧ ¬ ∀ e ∈ new, e.length = v.1)

theorem pushC_spec {h : Ptr} {a : Option V} {new : Elems} (hb : new.flatten.length ≤ maxObj) :
    Triple rel (OVec h a) (pushC new h) (fun r => ∃∃ a', (PushCE rel a new r a') ⋏ OVec h a') := by
  have hd : ∀ P : HProp, (P ∗ Data (.lit new.flatten) new.flatten) = P := by
    intro P; rw [Data, sep_pand, sep_emp]
    funext x; exact propext ⟨fun h => h.2, fun h => ⟨⟨List.prefix_refl _, hb⟩, h⟩⟩
  unfold pushC
  cases a with
  | none =>
    have t := VECTOR_push_back_spec (rel := rel) (h := 0) (a := none) (src := .lit new.flatten) (new := new) (by simp)
    simp only [hd] at t
    simp only [OVec, ORep_none] at t ⊢
    hoist; rintro rfl
    rw [if_pos rfl]
    refine Triple.bind' (t.pre (entails_pand_r (entails_refl _) trivial)) fun r => ?_
    hoist; intro a' ha'
    exact Triple.pure (entails_ex_r a' (entails_pand_r (entails_refl _) (Or.inl ⟨r, rfl, by simp, ha'⟩)))
  | some v =>
    have e : OVec h (some v) = VecR h v := rfl
    rw [e, VecR]; hoist; intro st
    refine Triple.know (know_VecAt (h := h) (by pick)) fun hk => ?_
    rw [if_neg hk.1]
    step es_spec
    refine Triple.ite (fun hn => ?_) (fun hn => ?_)
    · have t := VECTOR_push_back_spec (rel := rel) (h := h) (a := some v) (src := .lit new.flatten) (new := new) (by rintro _ ⟨⟩; exact hn)
      simp only [hd] at t
      refine Triple.bind' (t.pre OVec_of) fun r => ?_
      hoist; intro a' ha'
      exact Triple.pure (entails_ex_r a' (entails_pand_r (entails_refl _) (Or.inl ⟨r, rfl, by rintro _ ⟨⟩; exact hn, ha'⟩)))
    · exact Triple.pure (entails_ex_r (some v) (entails_pand_r OVec_of (Or.inr ⟨rfl, rfl, v, rfl, hn⟩)))

/-- What the client's erase does: the run `[j, j+n)` goes, if it is inside the vector. -/
def EraseE (a : Option V) (j n : Nat) (r : Bool) (a' : Option V) : Prop :=
  (r = true ∧ ∃ v, a = some v ∧ 0 < n ∧ j + n ≤ v.2.length ∧ a' = some (v.1, v.2.take j ++ v.2.drop (j + n))) ∨
  (r = false ∧ a' = a ∧ ∀ v, a = some v → 0 < n → v.2.length < j + n)

theorem eraseC_spec {h : Ptr} {a : Option V} {j n : Nat} (hr : rel) :
    Triple rel (OVec h a) (eraseC j n h) (fun r => ∃∃ a', (EraseE a j n r a') ⋏ OVec h a') := by
  unfold eraseC
  cases a with
  | none =>
    simp only [OVec, ORep_none]; hoist; rintro rfl
    step size_zero
    rw [if_neg (by omega)]
    exact Triple.pure (entails_ex_r none (entails_pand_r (entails_pand_r (entails_refl _) rfl) (Or.inr ⟨rfl, rfl, by simp⟩)))
  | some v =>
    have e : OVec h (some v) = VecR h v := rfl
    rw [e, VecR]; hoist; intro st
    step count_spec
    refine Triple.ite (fun hn => ?_) (fun hn => ?_)
    · step VECTOR_element_spec_partial
      rw [if_pos (by omega)]
      have hv : v = (v.1, v.2.take j ++ (v.2.drop j).take n ++ v.2.drop (j + n)) := by
        rw [List.append_assoc, ← List.drop_drop, List.take_append_drop, List.take_append_drop]
      have l1 : (v.2.take j).length = j := by simp; omega
      have l2 : ((v.2.drop j).take n).length = n := by simp; omega
      have t := VECTOR_erase_spec_partial (rel := rel) (h := h) (st := st) (k := v.1) (l1 := v.2.take j) (mid := (v.2.drop j).take n) (l2 := v.2.drop (j + n))
        (by intro h0; rw [h0] at l2; simp at l2; omega) (Or.inl hr)
      rw [l1, l2, ← hv] at t
      refine Triple.bind' t fun _ => ?_
      exact Triple.pure (entails_ex_r (some (v.1, v.2.take j ++ v.2.drop (j + n))) (entails_pand_r (entails_refl _) (Or.inl ⟨rfl, v, rfl, hn.1, hn.2, rfl⟩)))
    · exact Triple.pure (entails_ex_r (some v) (entails_pand_r OVec_of (Or.inr ⟨rfl, rfl, by rintro _ ⟨⟩; omega⟩)))

theorem getC_spec {h : Ptr} {a : Option V} {j : Nat} :
    Triple rel (OVec h a) (getC j h) (fun r => (r = (a.bind fun v => v.2[j]?).map bytesV) ⋏ OVec h a) := by
  unfold getC
  cases a with
  | none =>
    simp only [OVec, ORep_none]; hoist; rintro rfl
    step size_zero
    rw [if_neg (by omega)]
    exact Triple.pure (entails_pand_r (entails_pand_r (entails_refl _) rfl) rfl)
  | some v =>
    have e : OVec h (some v) = VecR h v := rfl
    rw [e, VecR]; hoist; intro st
    step count_spec
    refine Triple.ite (fun hn => ?_) (fun hn => ?_)
    · step VECTOR_element_spec_partial
      rw [if_pos hn]
      exact look_spec hn
    · refine Triple.pure (entails_pand_r OVec_of ?_)
      rw [Option.bind_some, List.getElem?_eq_none (Nat.le_of_not_lt hn)]; rfl

theorem frontC_spec {h : Ptr} {a : Option V} :
    Triple rel (OVec h a) (frontC h) (fun r => (r = (a.bind fun v => v.2[0]?).map bytesV) ⋏ OVec h a) := by
  unfold frontC
  cases a with
  | none =>
    simp only [OVec, ORep_none]; hoist; rintro rfl
    rw [VECTOR_front, if_neg (by simp)]
    refine Triple.bind_pure ?_
    rw [look, if_pos rfl]
    exact Triple.pure (entails_pand_r (entails_pand_r (entails_refl _) rfl) rfl)
  | some v =>
    have e : OVec h (some v) = VecR h v := rfl
    rw [e, VecR]; hoist; intro st
    step VECTOR_front_spec
    by_cases hn : v.2 = []
    · rw [elemPtr, if_pos hn]
      refine look_null.conseq (entails_refl _) fun r => entails_pand_l fun hr => entails_pand_r (entails_refl _) ?_
      simp [hr, hn]
    · rw [elemPtr, if_neg hn]
      have : 0 < v.2.length := List.length_pos_iff.2 hn
      exact look_spec this

theorem backC_spec {h : Ptr} {a : Option V} :
    Triple rel (OVec h a) (backC h) (fun r => (r = (a.bind fun v => v.2.getLast?).map bytesV) ⋏ OVec h a) := by
  unfold backC
  cases a with
  | none =>
    simp only [OVec, ORep_none]; hoist; rintro rfl
    step size_zero
    rw [if_neg (by omega)]
    exact Triple.pure (entails_pand_r (entails_pand_r (entails_refl _) rfl) rfl)
  | some v =>
    have e : OVec h (some v) = VecR h v := rfl
    rw [e, VecR]; hoist; intro st
    step count_spec
    refine Triple.ite (fun hn => ?_) (fun hn => ?_)
    · have hne : v.2 ≠ [] := List.length_pos_iff.1 hn
      step (VECTOR_back_spec_partial hne)
      have := look_spec (rel := rel) (h := h) (st := st) (v := v) (j := v.2.length - 1) (by omega)
      rw [← List.getLast?_eq_getElem?] at this
      exact this
    · refine Triple.pure (entails_pand_r OVec_of ?_)
      have : v.2 = [] := by simpa using hn
      simp [this]

theorem findC_spec {h : Ptr} {a : Option V} {g : List Val → Bool} :
    Triple rel (OVec h a) (findC g h) (fun r => (r = (a.bind fun v => v.2.find? fun e => g (bytesV e)).map bytesV) ⋏ OVec h a) := by
  unfold findC
  cases a with
  | none =>
    simp only [OVec, ORep_none]; hoist; rintro rfl
    rw [(VECTOR_null (i := 0) (e := .null) (n := 0) (h := 0) (p := some (matchC g 0)) (b := false)).2.2.2.2.2.1]
    refine Triple.bind_pure ?_
    rw [look, if_pos rfl]
    exact Triple.pure (entails_pand_r (entails_pand_r (entails_refl _) rfl) rfl)
  | some v =>
    have e : OVec h (some v) = VecR h v := rfl
    rw [e, VecR]; hoist; intro st
    have t := VECTOR_find_if_spec (rel := rel) (h := h) (st := st) (v := v) (f := matchC g h) (X := emp) (g := fun e => g (bytesV e)) (by
      intro a e b hv
      simp only [sep_emp]
      unfold matchC
      step es_spec
      have hv' : v = (v.1, a ++ e :: b) := by rw [← hv]
      have t := readAt_spec (rel := rel) (h := h) (st := st) (k := v.1) (l1 := a) (l2 := b) (e := e)
      rw [← hv'] at t
      step t
      exact Triple.pure (entails_pand_r (entails_refl _) rfl))
    simp only [sep_emp] at t
    step t
    cases hf : v.2.findIdx? (fun e => g (bytesV e)) with
    | none =>
      refine look_null.conseq (entails_refl _) fun r => entails_pand_l fun hr => entails_pand_r (entails_refl _) ?_
      rw [hr]
      have : v.2.find? (fun e => g (bytesV e)) = none := by
        rw [List.find?_eq_none]; rw [List.findIdx?_eq_none_iff] at hf
        intro x hx; simp [hf x hx]
      simp [this]
    | some i =>
      obtain ⟨hi, hp, hq⟩ := List.findIdx?_eq_some_iff_getElem.1 hf
      refine (look_spec hi).conseq (entails_refl _) fun r => entails_pand_l fun hr => entails_pand_r (entails_refl _) ?_
      rw [hr]
      have : v.2.find? (fun e => g (bytesV e)) = v.2[i]? := by
        rw [(List.find?_eq_some_iff_getElem (p := fun e => g (bytesV e)) (b := v.2[i])).2 ⟨hp, i, hi, rfl, fun j hj => by simpa using hq j hj⟩]; simp [hi]
      simp [this]

/-! ## Histories -/

inductive Op where
  | create (k : Nat)
  | destroy (i : Nat)
  | push (i : Nat) (new : Elems)
  | erase (i : Nat) (j n : Nat)
  | clear (i : Nat)
  | size (i : Nat)
  | get (i : Nat) (j : Nat)
  | front (i : Nat)
  | back (i : Nat)
  | find (i : Nat) (g : List Val → Bool)

inductive Out where
  | handle (ok : Bool)
  | done
  | code (r : Option Bool)
  | flag (b : Bool)
  | num (n : Nat)
  | bytes (o : Option (List Val))
  deriving DecidableEq

def exec : Op → List Nat → M (Option Out × List Nat)
  | .create k, env => do let h ← VECTOR_create k; pure (some (.handle (decide (h ≠ 0))), env ++ [h])
  | .destroy i, env => on1 env i fun h => do VECTOR_destroy h; pure (some .done, env.set i 0)
  | .push i new, env => on1 env i fun h => do let r ← pushC new h; pure (some (.code (r.map fun n => decide (n = 0))), env)
  | .erase i j n, env => on1 env i fun h => do let r ← eraseC j n h; pure (some (.flag r), env)
  | .clear i, env => on1 env i fun h => do let _ ← VECTOR_clear h; pure (some .done, env)
  | .size i, env => on1 env i fun h => do let r ← VECTOR_size h; pure (some (.num r), env)
  | .get i j, env => on1 env i fun h => do let r ← getC j h; pure (some (.bytes r), env)
  | .front i, env => on1 env i fun h => do let r ← frontC h; pure (some (.bytes r), env)
  | .back i, env => on1 env i fun h => do let r ← backC h; pure (some (.bytes r), env)
  | .find i g, env => on1 env i fun h => do let r ← findC g h; pure (some (.bytes r), env)

/-- Element sizes are not 0 (`VECTOR_size0_is_UB`); what is pushed is a real object; the client erases only if the allocator never
refuses (`VECTOR_erase_loses_all`). -/
def Op.good (rel : Prop) : Op → Prop
  | .create k => 0 < k ∧ k < szMod
  | .push _ new => new.flatten.length ≤ maxObj
  | .erase .. => rel
  | _ => True

/-- What the calls mean on abstract vectors. -/
def AStep (rel : Prop) : Op → List (Option V) → Option Out → List (Option V) → Prop
  | .create k, as => fun o as' => (o = some (.handle false) ∧ ¬ rel ∧ as' = as ++ [none]) ∨ (o = some (.handle true) ∧ as' = as ++ [some (k, [])])
  | .destroy i, as => On1 as i (fun _ o a' => o = .done ∧ a' = none)
  | .push i new, as => On1 as i (fun a o a' => ∃ r, o = .code (r.map fun n => decide (n = 0)) ∧ PushCE rel a new r a')
  | .erase i j n, as => On1 as i (fun a o a' => ∃ r, o = .flag r ∧ EraseE a j n r a')
  | .clear i, as => On1 as i (fun a o a' => o = .done ∧ a' = a.map fun v => (v.1, []))
  | .size i, as => On1 as i (fun a o a' => a' = a ∧ o = .num ((a.map fun v => v.2.length).getD 0))
  | .get i j, as => On1 as i (fun a o a' => a' = a ∧ o = .bytes ((a.bind fun v => v.2[j]?).map bytesV))
  | .front i, as => On1 as i (fun a o a' => a' = a ∧ o = .bytes ((a.bind fun v => v.2[0]?).map bytesV))
  | .back i, as => On1 as i (fun a o a' => a' = a ∧ o = .bytes ((a.bind fun v => v.2.getLast?).map bytesV))
  | .find i g, as => On1 as i (fun a o a' => a' = a ∧ o = .bytes ((a.bind fun v => v.2.find? fun e => g (bytesV e)).map bytesV))

theorem exec_spec (op : Op) (hg : op.good rel) (env : List Nat) (as : List (Option V)) :
    Triple rel (Own OVec env as) (exec op env) (fun r => ∃∃ as', (AStep rel op as r.1 as') ⋏ Own OVec r.2 as') := by
  refine Triple.know (φ := env.length = as.length) Own_len fun hl => ?_
  cases op with
  | create k =>
    exact lift_new (f := Out.handle) (S := AStep rel (.create k) as) (VECTOR_create_spec hg.1 hg.2) (fun hb => Or.inl ⟨rfl, hb, rfl⟩)
      (fun x hx => Or.inr ⟨rfl, by rw [hx]⟩)
  | destroy i =>
    exact lift_del (S := AStep rel (.destroy i) as) hl (fun h a => VECTOR_destroy_spec) On1.skip (fun a ha => On1.call ha ⟨rfl, rfl⟩)
  | push i new =>
    exact lift_op1 (f := fun r => Out.code (Option.map (fun n => decide (n = 0)) r)) (S := AStep rel (.push i new) as) hl (fun h a => pushC_spec hg) On1.skip
      (fun a r a' ha hE => On1.call ha ⟨r, rfl, hE⟩)
  | erase i j n =>
    exact lift_op1 (f := Out.flag) (S := AStep rel (.erase i j n) as) hl (fun h a => eraseC_spec hg) On1.skip
      (fun a r a' ha hE => On1.call ha ⟨r, rfl, hE⟩)
  | clear i =>
    refine lift_op1 (f := fun _ : Unit => Out.done) (S := AStep rel (.clear i) as) (E := fun a _ a' => a' = a.map fun v => (v.1, [])) hl (fun h a => ?_) On1.skip
      (fun a r a' ha hE => On1.call ha ⟨rfl, hE⟩)
    exact VECTOR_clear_spec.conseq (entails_refl _) fun _ => entails_ex_r _ (entails_pand_r (entails_refl _) rfl)
  | size i =>
    exact lift_get1 (f := Out.num) (S := AStep rel (.size i) as) hl (fun h a => VECTOR_size_spec) On1.skip
      (fun a r ha hE => On1.read ha ⟨rfl, by rw [hE]⟩)
  | get i j =>
    exact lift_get1 (f := Out.bytes) (S := AStep rel (.get i j) as) hl (fun h a => getC_spec) On1.skip
      (fun a r ha hE => On1.read ha ⟨rfl, by rw [hE]⟩)
  | front i =>
    exact lift_get1 (f := Out.bytes) (S := AStep rel (.front i) as) hl (fun h a => frontC_spec) On1.skip
      (fun a r ha hE => On1.read ha ⟨rfl, by rw [hE]⟩)
  | back i =>
    exact lift_get1 (f := Out.bytes) (S := AStep rel (.back i) as) hl (fun h a => backC_spec) On1.skip
      (fun a r ha hE => On1.read ha ⟨rfl, by rw [hE]⟩)
  | find i g =>
    exact lift_get1 (f := Out.bytes) (S := AStep rel (.find i g) as) hl (fun h a => findC_spec) On1.skip
      (fun a r ha hE => On1.read ha ⟨rfl, by rw [hE]⟩)

/-- C18 over histories of any number of vectors. -/
theorem VECTOR_history_partial (ops : List Op) (hops : ∀ op ∈ ops, op.good rel) (env : List Nat) (as : List (Option V)) :
    Triple rel (Own OVec env as) (execAll exec ops env)
      (fun r => ∃∃ as', (Steps (AStep rel) ops as r.1 as') ⋏ Own OVec r.2 as') :=
  history_ok exec_spec ops hops env as

/-- whatever the allocator does, calls other than erase, then destroy: nothing is left allocated -/
theorem VECTOR_no_leak_partial (ops : List Op) (hops : ∀ op ∈ ops, op.good False) (al : Nat → Heap → Nat → Nat) :
    ∃ s', (do let r ← execAll exec ops []; releaseAll VECTOR_destroy r.2) (St.start al) = some (.ok ((), s'))
      ∧ s'.heap = Heap.empty :=
  no_leak (good := Op.good False) exec_spec (fun h a => VECTOR_destroy_spec) ops hops al

/-! ## What is false -/

/-- C19 is false of the code: `VECTOR_element` at index `count` is not NULL (it is the address behind the last element). -/
theorem VECTOR_element_at_count :
    outcome (do let h ← VECTOR_create 1
                let _ ← VECTOR_push_back h (.lit [7]) 1
                VECTOR_element h 1) (St.start bump) = some (.ok (.at 2 1)) := by
  decide +kernel

/-- C19 is false of the code: `VECTOR_back` of an empty vector is not NULL. -/
theorem VECTOR_back_empty :
    outcome (do let h ← VECTOR_create 1
                VECTOR_back h) (St.start bump) = some (.ok (.wild (2 ^ 64 - 1))) := by
  decide +kernel

/-- C18 without a reliable allocator is false: if the storage cannot be shrunk, `VECTOR_erase` forgets it: the size is 1 but the
first element is gone (NULL), and the storage is leaked. -/
theorem VECTOR_erase_loses_all :
    outcome (do let h ← VECTOR_create 1
                let _ ← VECTOR_push_back h (.lit [7, 8]) 2
                let p ← VECTOR_element h 1
                VECTOR_erase h p 1
                let n ← VECTOR_size h
                let q ← VECTOR_front h
                VECTOR_destroy h
                let leaked ← loadN 2 0 2
                pure (n, q, leaked)) (St.start fun t _ _ => if t = 2 then 0 else t + 1) =
      some (.ok (1, .null, [.byte 7, .byte 8])) := by
  decide +kernel

/-- Element size 0 is accepted by `VECTOR_create`, but the second push is `realloc(p, 0)`. -/
theorem VECTOR_size0_is_UB :
    outcome (do let h ← VECTOR_create 0
                let _ ← VECTOR_push_back h (.lit [7]) 1
                VECTOR_push_back h (.lit [7]) 1) (St.start bump) = some (.error (.ub "realloc to size 0")) := by
  decide +kernel

/-- Non-vacuity: a concrete history. -/
example : outcome (do
      let r ← execAll exec [.create 2, .push 0 [[1, 2], [3, 4], [5, 6]], .push 0 [[7, 8]], .erase 0 1 2, .size 0, .get 0 1, .front 0, .back 0, .push 0 [[1]],
        .clear 0, .front 0, .destroy 0] []
      pure r.1) (St.start bump) = some (.ok [some (.handle true), some (.code (some true)), some (.code (some true)), some (.flag true), some (.num 2),
        some (.bytes (some [.byte 7, .byte 8])), some (.bytes (some [.byte 1, .byte 2])), some (.bytes (some [.byte 7, .byte 8])), some (.code none), some .done,
        some (.bytes none), some .done]) := by
  decide +kernel

end Verif.Vec
