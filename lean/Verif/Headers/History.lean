import Verif.Headers.Props
/-!
# C28, C29 over arbitrary histories of header calls on arbitrarily many header sets
-/
set_option linter.unusedSimpArgs false
set_option linter.unusedVariables false
namespace Verif.Headers
open Verif Verif.Crt
open Verif.Map (okText lit Arg_lit' CS)
variable {rel : Prop}

/-- Calls a client can make; header sets are named by their position in the client's table, texts are string constants or NULL. -/
inductive Op where
  | alloc
  | clone (i : Nat)
  | free (i : Nat)
  | add (i : Nat) (n v : Option Text)
  | replace (i : Nat) (n v : Option Text)
  /-- `HTTPHeaders_FindHeaderValue`, then read the string it points to -/
  | find (i : Nat) (n : Option Text)
  | count (i : Nat)
  /-- `HTTPHeaders_GetHeader`, then read the whole block it made, and free it -/
  | get (i : Nat) (index : Nat)

/-- What a call returned. -/
inductive Out where
  | handle (ok : Bool)
  | done
  | code (r : Res)
  | value (t : Option Text)
  | count (r : Res × Option Nat)
  | line (r : Res × Option Text)
  deriving DecidableEq

/-- The constants are C strings. -/
def Op.good : Op → Prop
  | .add _ n v | .replace _ n v => okText n ∧ okText v
  | .find _ n => okText n
  | _ => True

def getValue (h : Ptr) (n : CharPtr) : M (Option Text) := do
  let p ← HTTPHeaders_FindHeaderValue h n
  if p = 0 then pure none
  else
    let t ← cstr (.ofPtr p)
    pure (some t)

def getLine (h : Ptr) (i : Nat) : M (Res × Option Text) := do
  let r ← HTTPHeaders_GetHeader h i true
  match r with
  | (c, some p) =>
    if p = 0 then pure (c, none)
    else
      let t ← cstr (.ofPtr p)
      Verif.free p
      pure (c, some t)
  | (c, none) => pure (c, none)

def exec : Op → List Nat → M (Option Out × List Nat)
  | .alloc, env => do let h ← HTTPHeaders_Alloc; pure (some (.handle (decide (h ≠ 0))), env ++ [h])
  | .clone i, env => on1 env i fun h => do let r ← HTTPHeaders_Clone h; pure (some (.handle (decide (r ≠ 0))), env ++ [r])
  | .free i, env => on1 env i fun h => do HTTPHeaders_Free h; pure (some .done, env.set i 0)
  | .add i n v, env => on1 env i fun h => do let r ← HTTPHeaders_AddHeaderNameValuePair h (lit n) (lit v); pure (some (.code r), env)
  | .replace i n v, env => on1 env i fun h => do let r ← HTTPHeaders_ReplaceHeaderNameValuePair h (lit n) (lit v); pure (some (.code r), env)
  | .find i n, env => on1 env i fun h => do let r ← getValue h (lit n); pure (some (.value r), env)
  | .count i, env => on1 env i fun h => do let r ← HTTPHeaders_GetHeaderCount h true; pure (some (.count r), env)
  | .get i k, env => on1 env i fun h => do let r ← getLine h k; pure (some (.line r), env)

/-- a constructor's result in the table -/
def NewH (as : List (Option Hdrs)) (bad : Prop) (ok : Hdrs → Prop) (o : Option Out) (as' : List (Option Hdrs)) : Prop :=
  (o = some (.handle false) ∧ bad ∧ as' = as ++ [none]) ∨ (o = some (.handle true) ∧ ∃ hs, ok hs ∧ as' = as ++ [some hs])

/-- What the calls mean on the abstract headers (`none` = NULL handle). -/
def AStep (rel : Prop) : Op → List (Option Hdrs) → Option Out → List (Option Hdrs) → Prop
  | .alloc, as => NewH as (¬ rel) (fun hs => hs = [])
  | .clone i, as => fun o as' => (as[i]? = none ∧ o = none ∧ as' = as) ∨
      ∃ a, as[i]? = some a ∧ NewH as (a = none ∨ ¬ rel ∨ ∃ hs, a = some hs ∧ maxObj < 8 * hs.length) (fun hs => a = some hs) o as'
  | .free i, as => On1 as i (fun _ o a' => o = .done ∧ a' = none)
  | .add i n v, as => On1 as i (fun a o a' => ∃ r, o = .code r ∧ StoreE rel false a n v r a')
  | .replace i n v, as => On1 as i (fun a o a' => ∃ r, o = .code r ∧ StoreE rel true a n v r a')
  | .find i n, as => On1 as i (fun a o a' => a' = a ∧ o = .value (a.bind fun hs => n.bind (Headers.find hs)))
  | .count i, as => On1 as i (fun a o a' => a' = a ∧ o = .count (match a with
      | some hs => (.ok, some hs.length)
      | none => (.invalidArg, none)))
  | .get i k, as => On1 as i (fun a o a' => a' = a ∧ match a with
      | none => o = .line (.invalidArg, none)
      | some hs => match Headers.line hs k with
        | none => o = .line (.invalidArg, none)
        | some t => o = .line (.ok, some t) ∨ (o = .line (.error, none) ∧ (¬ rel ∨ maxObj < t.length + 1)))

theorem getValue_spec {h : Ptr} {a : Option Hdrs} {name : CharPtr} {on : Option Text} :
    Triple rel (OHdr h a ∗ Arg name on) (getValue h name)
      (fun t => (t = a.bind fun hs => on.bind (Headers.find hs)) ⋏ OHdr h a ∗ Arg name on) := by
  unfold getValue
  step HTTPHeaders_FindHeaderValue_spec into p
  unfold FoundAt
  refine Triple.ite (fun h0 => ?_) (fun h0 => ?_)
  · rw [if_pos h0]; hoist; intro hn
    refine Triple.pure (entails_pand_r (entails_refl _) ?_)
    cases a with
    | none => rfl
    | some m => cases on with
      | none => rfl
      | some k => exact (hn m k rfl rfl).symm
  · rw [if_neg h0]; hoist; intro v F hs n ha hk hv hF
    subst ha hk
    rw [ofPtr_ne h0]
    step (cstr_spec (s := .heap p 0))
    refine Triple.pure (entails_pand_r ?_ hv.symm)
    rw [← sep_assoc]
    exact sep_mono hF (entails_refl _)

theorem getLine_spec {h : Ptr} {a : Option Hdrs} {i : Nat} :
    Triple rel (OHdr h a) (getLine h i)
      (fun r => (match a with
      | none => r = (.invalidArg, none)
      | some hs => match Headers.line hs i with
        | none => r = (.invalidArg, none)
        | some t => r = (.ok, some t) ∨ (r = (.error, none) ∧ (¬ rel ∨ maxObj < t.length + 1))) ⋏ OHdr h a) := by
  unfold getLine
  step HTTPHeaders_GetHeader_spec into r
  cases a with
  | none =>
    simp only [GotHeader]; hoist; rintro rfl
    exact Triple.pure (entails_pand_r (entails_refl _) rfl)
  | some hs =>
    simp only [GotHeader]
    cases hl : line hs i with
    | none =>
      dsimp only
      hoist; rintro rfl
      refine Triple.pure (entails_pand_r (entails_refl _) ?_)
      rfl
    | some t =>
      dsimp only
      by_cases hr : r = (.error, some 0)
      · rw [if_pos hr]; hoist; intro hb; subst hr
        refine Triple.pure (entails_pand_r (entails_refl _) ?_)
        exact Or.inr ⟨rfl, hb⟩
      · rw [if_neg hr]; hoist; rintro p hp rfl hnn
        dsimp only
        rw [if_neg hp, ofPtr_ne hp, bytesV_append]
        refine Triple.pre (P' := CStr (.heap p 0) t ∗ OHdr h (some hs)) ?_ (sep_mono (CStr_intro hnn []) (entails_refl _))
        step (cstr_spec (s := .heap p 0))
        step (Map.free_CS (p := p))
        refine Triple.pure (entails_pand_r (entails_refl _) ?_)
        exact Or.inl rfl

theorem store_lit {h : Ptr} {a : Option Hdrs} {n v : Option Text} {replace : Bool} (hn : okText n) (hv : okText v) :
    Triple rel (OHdr h a) (headers_ReplaceHeaderNameValuePair h (lit n) (lit v) replace)
      (fun r => ∃∃ a', (StoreE rel replace a n v r a') ⋏ OHdr h a') := by
  have t := store_header_spec (rel := rel) (h := h) (a := a) (name := lit n) (value := lit v) (on := n) (ov := v) (replace := replace)
  rw [Arg_lit' hn, Arg_lit' hv, sep_emp, sep_emp] at t
  refine t.conseq (entails_refl _) fun r => ?_
  refine entails_ex_l fun a' => entails_pand_l fun hE => entails_ex_r a' (entails_pand_r ?_ hE)
  rw [Arg_lit' hn, Arg_lit' hv, emp_sep, sep_emp]
  exact entails_refl _

theorem exec_spec (op : Op) (hop : op.good) (env : List Nat) (as : List (Option Hdrs)) :
    Triple rel (Own OHdr env as) (exec op env)
      (fun r => ∃∃ as', (AStep rel op as r.1 as') ⋏ Own OHdr r.2 as') := by
  refine Triple.know (φ := env.length = as.length) Own_len fun hl => ?_
  cases op with
  | alloc =>
    exact lift_new (f := Out.handle) (S := AStep rel .alloc as) HTTPHeaders_Alloc_spec (fun hb => Or.inl ⟨rfl, hb, rfl⟩) (fun x hx => Or.inr ⟨rfl, x, hx, rfl⟩)
  | clone i =>
    exact lift_clone (f := Out.handle) (S := AStep rel (.clone i) as) hl (fun h a => HTTPHeaders_Clone_spec) (fun h => Or.inl ⟨h, rfl, rfl⟩)
      (fun a ha hb => Or.inr ⟨a, ha, Or.inl ⟨rfl, hb, rfl⟩⟩) (fun a x ha hx => Or.inr ⟨a, ha, Or.inr ⟨rfl, x, hx, rfl⟩⟩)
  | free i =>
    exact lift_del (S := AStep rel (.free i) as) hl (fun h a => HTTPHeaders_Free_spec) On1.skip (fun a ha => On1.call ha ⟨rfl, rfl⟩)
  | add i n v =>
    exact lift_op1 (f := Out.code) (S := AStep rel (.add i n v) as) hl (fun h a => store_lit hop.1 hop.2) On1.skip
      (fun a r a' ha hE => On1.call ha ⟨r, rfl, hE⟩)
  | replace i n v =>
    exact lift_op1 (f := Out.code) (S := AStep rel (.replace i n v) as) hl (fun h a => store_lit hop.1 hop.2) On1.skip
      (fun a r a' ha hE => On1.call ha ⟨r, rfl, hE⟩)
  | find i n =>
    have hop' : okText n := hop
    clear hop
    refine lift_get1 (f := Out.value) (S := AStep rel (.find i n) as) hl (E := fun a t => t = a.bind fun hs => n.bind (Headers.find hs)) (fun h a => ?_) On1.skip
      (fun a r ha hE => On1.read ha ⟨rfl, by rw [hE]⟩)
    have t := getValue_spec (rel := rel) (h := h) (a := a) (name := lit n) (on := n)
    rw [Arg_lit' hop', sep_emp] at t
    exact t
  | count i =>
    refine lift_get1 (f := Out.count) (S := AStep rel (.count i) as) hl (fun h a => HTTPHeaders_GetHeaderCount_spec) On1.skip
      (fun a r ha hE => On1.read ha ⟨rfl, ?_⟩)
    cases a <;> simp at hE ⊢ <;> exact hE
  | get i k =>
    refine lift_get1 (f := Out.line) (S := AStep rel (.get i k) as) hl (fun h a => getLine_spec) On1.skip
      (fun a r ha hE => On1.read ha ⟨rfl, ?_⟩)
    cases a with
    | none => dsimp only at hE ⊢; rw [hE]
    | some hs =>
      dsimp only at hE ⊢
      cases hl : Headers.line hs k with
      | none => rw [hl] at hE; dsimp only at hE ⊢; rw [hE]
      | some t =>
        rw [hl] at hE; dsimp only at hE ⊢
        rcases hE with hE | ⟨hE, h2⟩
        · left; rw [hE]
        · right; rw [hE]; exact ⟨rfl, h2⟩

/-- C28+C29 over histories: whatever the allocator does, any sequence of calls on any number of header sets runs without undefined
behaviour, every result and effect is that of an insertion-ordered list of named values combined with ", ", failing calls change
nothing, calls on one set change no other (a clone included), and the memory in use is exactly that of the live sets. -/
theorem HTTPHeaders_history (ops : List Op) (hops : ∀ op ∈ ops, op.good) (env : List Nat) (as : List (Option Hdrs)) :
    Triple rel (Own OHdr env as) (execAll exec ops env)
      (fun r => ∃∃ as', (Steps (AStep rel) ops as r.1 as') ⋏ Own OHdr r.2 as') :=
  history_ok exec_spec ops hops env as

/-- C28: any calls from empty memory, then release all sets: no undefined behaviour and nothing is left allocated. -/
theorem HTTPHeaders_no_leak (ops : List Op) (hops : ∀ op ∈ ops, op.good) (al : Nat → Heap → Nat → Nat) :
    ∃ s', (do let r ← execAll exec ops []; releaseAll HTTPHeaders_Free r.2) (St.start al) = some (.ok ((), s'))
      ∧ s'.heap = Heap.empty :=
  no_leak exec_spec (fun h a => HTTPHeaders_Free_spec) ops hops al

/-! ## consequences for a reader -/

theorem find_stored_self (replace : Bool) (hs : Hdrs) (n v : Text) :
    find (stored replace hs n v) n = some (match find hs n with
      | none => v
      | some old => if replace then v else old ++ [44, 32] ++ v) := by
  have hset : ∀ (hs : Hdrs) (w : Text), find hs n ≠ none → find (set hs n w) n = some w := by
    intro hs w
    induction hs with
    | nil => intro h; simp [find] at h
    | cons p hs ih =>
      intro h
      by_cases hp : p.1 = n
      · simp [find, set, hp]
      · have h' : find hs n ≠ none := by simpa [find, List.find?_cons, hp] using h
        have := ih h'
        simpa [find, set, List.find?_cons, hp] using this
  unfold stored
  cases hf : find hs n with
  | none =>
    have : hs.find? (fun p => decide (p.1 = n)) = none := by simpa [find] using hf
    simp only [find, List.find?_append, this]
    simp
  | some old =>
    dsimp only
    cases replace <;> simp [hset hs _ (by simp [hf])]

theorem find_stored_other (replace : Bool) (hs : Hdrs) (n v n' : Text) (h : n' ≠ n) : find (stored replace hs n v) n' = find hs n' := by
  have hset : ∀ (hs : Hdrs) (w : Text), find (set hs n w) n' = find hs n' := by
    intro hs w
    induction hs with
    | nil => rfl
    | cons p hs ih =>
      by_cases hp : p.1 = n
      · have e1 : p.1 ≠ n' := fun e => h (e ▸ hp)
        simp only [find, set, List.map_cons, hp, if_true, List.find?_cons, Ne.symm h, decide_false, e1] at ih ⊢
        simpa [find, set, Ne.symm h] using ih
      · by_cases hp' : p.1 = n'
        · simp [find, set, hp, hp', h]
        · simpa [find, set, List.find?_cons, hp, hp'] using ih
  unfold stored
  cases hf : find hs n with
  | none =>
    simp only [find, List.find?_append, List.find?_cons, Ne.symm h]
    simp
  | some old =>
    dsimp only
    cases replace <;> simp [hset]

/-- the number of headers changes only when a new name is stored -/
theorem length_stored (replace : Bool) (hs : Hdrs) (n v : Text) :
    (stored replace hs n v).length = hs.length + (if find hs n = none then 1 else 0) := by
  unfold stored
  cases hf : find hs n with
  | none => simp
  | some old => cases replace <;> simp [set]

/-- Non-vacuity: add "A: 1", add " 2" to it, look, count, print it, ask for an index out of range, use a bad name, replace, release. -/
example : outcome (do
      let r ← execAll exec [.alloc, .add 0 (some [65]) (some [49]), .add 0 (some [65]) (some [32, 50]), .find 0 (some [65]), .count 0, .get 0 0, .get 0 1,
          .add 0 (some [65, 58]) (some [49]), .clone 0, .replace 0 (some [65]) (some [9, 51]), .find 0 (some [65]), .find 1 (some [65]), .find 1 (some [97]), .free 0] []
      pure r.1) (St.start bump) =
      some (.ok [some (.handle true), some (.code .ok), some (.code .ok), some (.value (some [49, 44, 32, 50])), some (.count (.ok, some 1)),
        some (.line (.ok, some [65, 58, 32, 49, 44, 32, 50])), some (.line (.invalidArg, none)), some (.code .invalidArg), some (.handle true), some (.code .ok),
        some (.value (some [51])), some (.value (some [49, 44, 32, 50])), some (.value none), some .done]) := by decide +kernel

/-- Replacing a header by (a suffix of) the value found under the same name is undefined behaviour: arguments must not point into
the headers (the caller's texts in `store_header_spec` are separate from them). -/
theorem HTTPHeaders_Replace_own_value_is_UB :
    outcome (do
      let h ← HTTPHeaders_Alloc
      let _ ← HTTPHeaders_AddHeaderNameValuePair h (.str [65]) (.str [49])
      let p ← HTTPHeaders_FindHeaderValue h (.str [65])
      HTTPHeaders_ReplaceHeaderNameValuePair h (.str [65]) (.ofPtr p)) (St.start bump) =
        some (.error (.ub "read from a block that is not live")) := by decide +kernel

end Verif.Headers
