import Verif.Const.Buffer
import Verif.Map.History
/-!
# Model of `/repo/src/constmap.c`, and C13

A `CONSTMAP_HANDLE` is the address of a block with two slots: `map` (constmap.c:17-20) and the reference count (refcount.h:44-49).
-/
set_option linter.unusedSimpArgs false
set_option linter.unusedVariables false
namespace Verif.Const
open Verif Verif.Map
variable {rel : Prop}

/-- constmap.h:48-52 -/
inductive CResult where
  | ok | error | invalidArg | keyNotFound
  deriving DecidableEq, Repr

abbrev mMap : Nat := 0
abbrev mCount : Nat := 1

/-- constmap.c:26-50 (refcount.h:50-58 inlined) -/
def ConstMap_Create (sourceMap : Ptr) : M Ptr := do
  let result ← mallocS 2
  if result = 0 then pure 0
  else
    store result mCount (.int 1)
    let m ← Map_Clone sourceMap
    store result mMap (.ptr m)
    if m = 0 then
      free result
      pure 0
    else pure result

/-- constmap.c:52-71 -/
def ConstMap_Destroy (handle : Ptr) : M Unit := do
  if handle = 0 then pure ()
  else
    let n ← decRef handle mCount
    if n = 0 then
      let m ← loadPtr handle mMap
      Map_Destroy m
      free handle
    else pure ()

/-- constmap.c:73-87 -/
def ConstMap_Clone (handle : Ptr) : M Ptr := do
  if handle = 0 then pure handle
  else
    let _ ← incRef handle mCount
    pure handle

/-- constmap.c:89-108 -/
def ConstMap_ErrorConvert : MapResult → CResult
  | .ok => .ok
  | .invalidArg => .invalidArg
  | .keyNotFound => .keyNotFound
  | _ => .error

/-- constmap.c:110-126 -/
def ConstMap_CloneWriteable (handle : Ptr) : M Ptr := do
  if handle = 0 then pure 0
  else
    let m ← loadPtr handle mMap
    Map_Clone m

/-- constmap.c:128-155; `keyExists` starts as false and is reset to false unless the lookup reports MAP_OK -/
def ConstMap_ContainsKey (handle : Ptr) (key : CharPtr) : M Bool := do
  if handle = 0 then pure false
  else if key = .null then pure false
  else
    let m ← loadPtr handle mMap
    let r ← Map_ContainsKey m key true
    if r.1 ≠ .ok then pure false else pure (r.2.getD false)

/-- constmap.c:157-183 -/
def ConstMap_ContainsValue (handle : Ptr) (value : CharPtr) : M Bool := do
  if handle = 0 then pure false
  else if value = .null then pure false
  else
    let m ← loadPtr handle mMap
    let r ← Map_ContainsValue m value true
    pure (r.2.getD false)

/-- constmap.c:185-211 -/
def ConstMap_GetValue (handle : Ptr) (key : CharPtr) : M Ptr := do
  if handle = 0 then pure 0
  else if key = .null then pure 0
  else
    let m ← loadPtr handle mMap
    Map_GetValueFromKey m key

/-- constmap.c:213-233; the triple is what is written to `*keys, *values, *count` (`out = false`: one of them is NULL) -/
def ConstMap_GetInternals (handle : Ptr) (out : Bool) : M (CResult × Option (Ptr × Ptr × Nat)) := do
  if handle = 0 then pure (.invalidArg, none)
  else
    let m ← loadPtr handle mMap
    let r ← Map_GetInternals m out
    pure (ConstMap_ErrorConvert r.1, r.2)

/-! ## Representation and contracts -/

/-- handle `h` with the snapshot `m` and `n` references -/
def CM (h : Ptr) (n : Nat) (m : MapV) : HProp :=
  ∃∃ mp : Nat, (n < u32) ⋏ h ↦ [.ptr mp, .int n] ∗ MapR mp m

theorem know_CM {h n : Nat} {m : MapV} {P F : HProp} (pk : Pick P (CM h n m) F) : ∀ hp, P hp → h ≠ 0 ∧ n < u32 := by
  intro hp hP; unfold Pick at pk; rw [pk, CM, hex_sep] at hP
  obtain ⟨p, hP⟩ := hP
  rw [pand_sep, sep_assoc] at hP
  obtain ⟨hn, x, y, _, _, h1, _⟩ := hP
  exact ⟨h1.1, hn⟩

/-- C13: `ConstMap_Create` makes a snapshot of the source with one reference, leaving the source as it was; NULL for a NULL source
or a refused allocation, with nothing left allocated. -/
theorem ConstMap_Create_spec {g : Ptr} {a : Option MapV} :
    Triple rel (OMap g a) (ConstMap_Create g)
      (fun r => Made (fun h m => CM h 1 m) (a = none ∨ ¬ rel ∨ ∃ m, a = some m ∧ maxObj < 8 * m.pairs.length)
        (fun m' => ∃ m, a = some m ∧ m' = m.clone) r ∗ OMap g a) := by
  unfold ConstMap_Create
  refine Triple.mallocS (by omega) (fun hr => ?_) (fun r hr => ?_)
  · rw [if_pos rfl]; exact Triple.pure (Made_fail_sep (Or.inr (Or.inl hr)) (entails_refl _))
  rw [if_neg hr]; hoist
  step (store_spec (p := r) ?_)
  step (Map_Clone_spec (h := g) (a := a)) into mp
  step (store_spec (p := r) ?_)
  refine Triple.ite (fun h0 => ?_) (fun h0 => ?_)
  · subst h0; rw [Made_zero]; hoist; intro hb
    step (free_spec (p := r))
    exact Triple.pure (Made_fail_sep hb (entails_refl _))
  · rw [Made_ne h0]; hoist; intro m' m hm hm'
    refine Triple.pure (Made_ok_sep m' hr ⟨m, hm, hm'⟩ ?_)
    unfold CM
    rw [hex_sep]
    refine entails_ex_r mp ?_
    rw [pand_sep]
    refine entails_pand_r ?_ (by decide)
    sep_cancel

/-- C13: `ConstMap_Clone` returns the same handle with one more reference. -/
theorem ConstMap_Clone_spec {h n : Nat} {m : MapV} (hn : n + 1 < u32) :
    Triple rel (CM h n m) (ConstMap_Clone h) (fun r => (r = h) ⋏ CM h (n + 1) m) := by
  unfold ConstMap_Clone
  refine Triple.know (know_CM (h := h) (by pick)) fun hk => ?_
  rw [if_neg hk.1]; simp only [CM]; hoist; intro p _
  step (incRef_spec (h := h) (off := mCount) (n := n) (b := [.ptr p, .int n]) rfl hn)
  exact Triple.pure (entails_pand_r (entails_ex_r p (entails_pand_r (entails_refl _) hn)) rfl)

/-- C13: `ConstMap_Destroy` gives back one reference; the memory is returned with the last one, not earlier. -/
theorem ConstMap_Destroy_spec {h n : Nat} {m : MapV} :
    Triple rel (CM h (n + 1) m) (ConstMap_Destroy h) (fun _ => Sh CM h (n, m)) := by
  unfold ConstMap_Destroy
  refine Triple.know (know_CM (h := h) (by pick)) fun hk => ?_
  rw [if_neg hk.1]; simp only [CM]; hoist; intro p hn
  step (decRef_spec (h := h) (off := mCount) (n := n) (b := [.ptr p, .int (n + 1)]) rfl hn)
  refine Triple.ite (fun h0 => ?_) (fun h0 => ?_)
  · subst h0
    step (loadPtr_spec (p := h) ?_)
    simp only [Sh, if_true]
    have hd := Map_Destroy_spec (rel := rel) (h := p) (a := some m)
    simp only [OMap, ORep_some] at hd
    step hd
    last (free_spec (p := h))
    rw [sep_emp]; exact entails_refl _
  · refine Triple.pure ?_
    rw [Sh, if_neg h0]
    refine entails_ex_r p (entails_pand_r (entails_refl _) (by simp only [u32] at *; omega))

/-- NULL handles are ignored / refused. -/
theorem ConstMap_null {k : CharPtr} {out : Bool} : ConstMap_Destroy 0 = pure () ∧ ConstMap_Clone 0 = pure 0 ∧ ConstMap_CloneWriteable 0 = pure 0 ∧
    ConstMap_ContainsKey 0 k = pure false ∧ ConstMap_ContainsValue 0 k = pure false ∧ ConstMap_GetValue 0 k = pure 0 ∧
    ConstMap_GetInternals 0 out = pure (.invalidArg, none) := by
  simp [ConstMap_Destroy, ConstMap_Clone, ConstMap_CloneWriteable, ConstMap_ContainsKey, ConstMap_ContainsValue, ConstMap_GetValue,
    ConstMap_GetInternals]

/-- C13: `ConstMap_CloneWriteable` makes a separate map equal to the snapshot. -/
theorem ConstMap_CloneWriteable_spec {h n : Nat} {m : MapV} :
    Triple rel (CM h n m) (ConstMap_CloneWriteable h)
      (fun r => Made MapR (¬ rel ∨ maxObj < 8 * m.pairs.length) (fun m' => m' = m.clone) r ∗ CM h n m) := by
  unfold ConstMap_CloneWriteable
  refine Triple.know (know_CM (h := h) (by pick)) fun hk => ?_
  rw [if_neg hk.1]; simp only [CM]; hoist; intro p hn
  step (loadPtr_spec (p := h) ?_)
  have hc := Map_Clone_spec (rel := rel) (h := p) (a := some m)
  simp only [OMap, ORep_some] at hc
  last hc
  rename_i r
  rw [sep_assoc]
  refine sep_mono ?_ ?_
  · by_cases h0 : r = 0
    · subst h0; rw [Made_zero, Made_zero]; exact entails_pand_l fun hb => entails_pand_r (entails_refl _) (by simpa using hb)
    · rw [Made_ne h0, Made_ne h0]
      refine entails_ex_l fun x => entails_pand_l ?_
      rintro ⟨m0, h1, h2⟩
      cases h1
      exact entails_ex_r x (entails_pand_r (entails_refl _) h2)
  · refine entails_ex_r p (entails_pand_r ?_ hn)
    sep_cancel

/-- C13: `ConstMap_ContainsKey` answers for the snapshot. -/
theorem ConstMap_ContainsKey_spec {h n : Nat} {m : MapV} {key : CharPtr} {ok : Option Text} :
    Triple rel (CM h n m ∗ Arg key ok) (ConstMap_ContainsKey h key)
      (fun r => (r = true ↔ ∃ k, ok = some k ∧ k ∈ m.keys) ⋏ CM h n m ∗ Arg key ok) := by
  unfold ConstMap_ContainsKey
  refine Triple.know (know_CM (h := h) (by pick)) fun hk => ?_
  refine Triple.know (know_Arg (s := key) (by pick)) fun hs => ?_
  rw [if_neg hk.1]
  refine Triple.ite (fun h0 => ?_) (fun h0 => ?_)
  · exact Triple.pure (entails_pand_r (entails_refl _) (by simp [hs.1 h0]))
  simp only [CM]; hoist; intro p hn
  step (loadPtr_spec (p := h) ?_)
  have hc := Map_ContainsKey_spec (rel := rel) (h := p) (a := some m) (key := key) (ok := ok) (out := true)
  simp only [OMap, ORep_some] at hc
  obtain ⟨k, rfl⟩ : ∃ k, ok = some k := by
    cases ok with
    | none => exact absurd (hs.2 rfl) h0
    | some k => exact ⟨k, rfl⟩
  step hc
  rw [if_neg (by simp)]
  refine Triple.pure (entails_pand_r ?_ (by simp))
  rw [hex_sep]
  refine entails_ex_r p ?_
  rw [pand_sep]
  refine entails_pand_r ?_ hn
  sep_cancel

/-- C13: `ConstMap_ContainsValue` answers for the snapshot. -/
theorem ConstMap_ContainsValue_spec {h n : Nat} {m : MapV} {value : CharPtr} {ov : Option Text} :
    Triple rel (CM h n m ∗ Arg value ov) (ConstMap_ContainsValue h value)
      (fun r => (r = true ↔ ∃ v, ov = some v ∧ v ∈ m.vals) ⋏ CM h n m ∗ Arg value ov) := by
  unfold ConstMap_ContainsValue
  refine Triple.know (know_CM (h := h) (by pick)) fun hk => ?_
  refine Triple.know (know_Arg (s := value) (by pick)) fun hs => ?_
  rw [if_neg hk.1]
  refine Triple.ite (fun h0 => ?_) (fun h0 => ?_)
  · exact Triple.pure (entails_pand_r (entails_refl _) (by simp [hs.1 h0]))
  simp only [CM]; hoist; intro p hn
  step (loadPtr_spec (p := h) ?_)
  have hc := Map_ContainsValue_spec (rel := rel) (h := p) (a := some m) (value := value) (ov := ov) (out := true)
  simp only [OMap, ORep_some] at hc
  obtain ⟨k, rfl⟩ : ∃ k, ov = some k := by
    cases ov with
    | none => exact absurd (hs.2 rfl) h0
    | some k => exact ⟨k, rfl⟩
  step hc
  refine Triple.pure (entails_pand_r ?_ (by simp))
  rw [hex_sep]
  refine entails_ex_r p ?_
  rw [pand_sep]
  refine entails_pand_r ?_ hn
  sep_cancel

/-- `ConstMap_GetValue`, then read the string it points to (the client's part) -/
def cgetText (h : Ptr) (k : CharPtr) : M (Option Text) := do
  let p ← ConstMap_GetValue h k
  if p = 0 then pure none
  else
    let t ← cstr (.ofPtr p)
    pure (some t)

/-- `ConstMap_GetInternals`, then read all strings -/
def cgetArrays (h : Ptr) : M (Option (List Text × List Text)) := do
  let r ← ConstMap_GetInternals h true
  match r with
  | (_, some (kp, vp, n)) =>
    let ks ← readArr kp n 0
    let vs ← readArr vp n 0
    pure (some (ks, vs))
  | (_, none) => pure none

/-- C13: `ConstMap_GetValue` points to the value of the key in the snapshot, NULL if there is none. -/
theorem ConstMap_GetValue_spec {h n : Nat} {m : MapV} {key : CharPtr} {ok : Option Text} :
    Triple rel (CM h n m ∗ Arg key ok) (cgetText h key)
      (fun t => (match ok, t with
        | some k, some v => (k, v) ∈ m.pairs
        | some k, none => k ∉ m.keys
        | none, t => t = none) ⋏ CM h n m ∗ Arg key ok) := by
  unfold cgetText ConstMap_GetValue
  refine Triple.know (know_CM (h := h) (by pick)) fun hk => ?_
  refine Triple.know (know_Arg (s := key) (by pick)) fun hs => ?_
  rw [if_neg hk.1]
  by_cases h0 : key = .null
  · rw [if_pos h0]
    refine Triple.bind_pure ?_
    rw [if_pos rfl]
    exact Triple.pure (entails_pand_r (entails_refl _) (by simp [hs.1 h0]))
  rw [if_neg h0]
  simp only [CM]; hoist; intro p hn
  rw [bind_assoc]
  step (loadPtr_spec (p := h) ?_)
  have hc := getText_spec (rel := rel) (h := p) (a := some m) (key := key) (ok := ok)
  simp only [OMap, ORep_some] at hc
  obtain ⟨k, rfl⟩ : ∃ k, ok = some k := by
    cases ok with
    | none => exact absurd (hs.2 rfl) h0
    | some k => exact ⟨k, rfl⟩
  have hc' := hc
  unfold getText at hc'
  last hc'
  rename_i t
  rw [pand_sep]
  refine entails_pand_l fun ht => entails_pand_r ?_ ?_
  · rw [hex_sep]
    refine entails_ex_r p ?_
    rw [pand_sep]
    refine entails_pand_r ?_ hn
    sep_cancel
  · cases t <;> simpa using ht

/-- C13: `ConstMap_GetInternals` shows the keys and values of the snapshot, in order. -/
theorem ConstMap_GetInternals_spec {h n : Nat} {m : MapV} :
    Triple rel (CM h n m) (cgetArrays h) (fun r => (r = some (m.keys, m.vals)) ⋏ CM h n m) := by
  unfold cgetArrays ConstMap_GetInternals
  refine Triple.know (know_CM (h := h) (by pick)) fun hk => ?_
  rw [if_neg hk.1]
  simp only [CM]; hoist; intro p hn
  rw [bind_assoc]
  step (loadPtr_spec (p := h) ?_)
  rw [bind_assoc]
  have hi := Map_GetInternals_spec (rel := rel) (h := p) (a := some m) (out := true)
  simp only [OMap, ORep_some] at hi
  step hi into r
  rcases r with ⟨c, o⟩
  cases o with
  | none =>
    cases c <;> (unfold InternalsAt; hoist; intro hh) <;> try exact hh.elim
    simp at hh
  | some x =>
    obtain ⟨kp, vp, q⟩ := x
    cases c <;> (unfold InternalsAt; hoist) <;> try (intro hh; exact hh.elim)
    intro m0 ha _ hq hnd
    cases ha; subst hq
    refine Triple.bind_pure ?_
    dsimp only
    step (readArr_spec (p := kp) (keys_length m).symm)
    step (readArr_spec (p := vp) (vals_length m).symm)
    refine Triple.pure (entails_pand_r (entails_ex_r p (entails_pand_r ?_ hn)) rfl)
    refine entails_trans ?_ (sep_mono (entails_refl _) (MapR_close (kp := kp) (vp := vp) (h := p) (m := m) rfl rfl rfl rfl hnd (entails_refl _)))
    sep_cancel

/-! ## Histories of one client holding maps and references to const maps -/

/-- calls: any call on an ordinary map (`Map.Op`), and the const map calls -/
inductive COp where
  | map (op : Map.Op)
  | create (i : Nat)
  | clone (j : Nat)
  | destroy (j : Nat)
  | writeable (j : Nat)
  | containsKey (j : Nat) (k : Option Text)
  | containsValue (j : Nat) (v : Option Text)
  | get (j : Nat) (k : Option Text)
  | internals (j : Nat)

inductive COut where
  | map (o : Option Map.Out)
  | none
  | handle (nonNull : Bool)
  | same (eq : Bool)
  | done
  | flag (b : Bool)
  | value (t : Option Text)
  | arrays (r : Option (List Text × List Text))
  deriving DecidableEq

def COp.good : COp → Prop
  | .map op => op.good
  | .containsKey _ k | .containsValue _ k | .get _ k => okText k
  | _ => True

abbrev CEnv := List Nat × RefEnv

def back (maps : List Nat) (c : M (Option COut × RefEnv)) : M (COut × CEnv) := do
  let r ← c
  pure (r.1.getD .none, (maps, r.2))

/-- a client with a table of maps and a table of const maps; a failed const map creation yields no object -/
def cexec (flt : Filt) : COp → CEnv → M (COut × CEnv)
  | .map op, (maps, refs) => do
    let r ← Map.exec flt op maps
    pure (.map r.1, (r.2, refs))
  | .create i, (maps, refs) =>
    match maps[i]? with
    | some g => do
      let h ← ConstMap_Create g
      if h = 0 then pure (.handle false, (maps, refs)) else pure (.handle true, (maps, refs ++ [(h, 1)]))
    | _ => pure (.none, (maps, refs))
  | .clone j, (maps, refs) => back maps (onRef refs j fun h n => do
    if n + 2 < u32 then
      let h' ← ConstMap_Clone h
      pure (some (.same (h' == h)), refs.set j (h, n + 2))
    else pure (some .done, refs.set j (h, n + 1)))
  | .destroy j, (maps, refs) => back maps (onRef refs j fun h n => do
    ConstMap_Destroy h
    pure (some .done, refs.set j (h, n)))
  | .writeable j, (maps, refs) =>
    match refs[j]? with
    | some (h, _ + 1) => do
      let r ← ConstMap_CloneWriteable h
      pure (.handle (decide (r ≠ 0)), (maps ++ [r], refs))
    | _ => pure (.none, (maps, refs))
  | .containsKey j k, (maps, refs) => back maps (onRef refs j fun h n => do
    let b ← ConstMap_ContainsKey h (lit k)
    pure (some (.flag b), refs.set j (h, n + 1)))
  | .containsValue j k, (maps, refs) => back maps (onRef refs j fun h n => do
    let b ← ConstMap_ContainsValue h (lit k)
    pure (some (.flag b), refs.set j (h, n + 1)))
  | .get j k, (maps, refs) => back maps (onRef refs j fun h n => do
    let t ← cgetText h (lit k)
    pure (some (.value t), refs.set j (h, n + 1)))
  | .internals j, (maps, refs) => back maps (onRef refs j fun h n => do
    let t ← cgetArrays h
    pure (some (.arrays t), refs.set j (h, n + 1)))

/-- abstract state: maps, and const maps as (references, snapshot) -/
abbrev CState := List (Option MapV) × List (Nat × MapV)

def onC (x : CState) (j : Nat) (E : Nat → MapV → COut → Nat → Prop) (o : COut) (x' : CState) : Prop :=
  ∃ o' cs', OnRef x.2 j E o' cs' ∧ o = o'.getD .none ∧ x' = (x.1, cs')

/-- What the calls mean: a call on a map never changes a snapshot; a call on a const map never changes a snapshot or a map. -/
def CStep (flt : Filt) (rel : Prop) (x : CState) : COp → COut → CState → Prop
  | .map op, o, x' => ∃ o' ms', AStep flt rel op x.1 o' ms' ∧ o = .map o' ∧ x' = (ms', x.2)
  | .create i, o, x' => (x.1[i]? = none ∧ o = .none ∧ x' = x) ∨
      (o = .handle false ∧ x' = x ∧ ∃ a, x.1[i]? = some a ∧ (a = none ∨ ¬ rel ∨ ∃ m, a = some m ∧ maxObj < 8 * m.pairs.length)) ∨
      (o = .handle true ∧ ∃ m, x.1[i]? = some (some m) ∧ x' = (x.1, x.2 ++ [(1, m.clone)]))
  | .clone j, o, x' => onC x j (fun n _ o n' => if n + 2 < u32 then o = .same true ∧ n' = n + 2 else o = .done ∧ n' = n + 1) o x'
  | .destroy j, o, x' => onC x j (fun n _ o n' => o = .done ∧ n' = n) o x'
  | .writeable j, o, x' => ((∀ n m, x.2[j]? ≠ some (n + 1, m)) ∧ o = .none ∧ x' = x) ∨
      ∃ n m, x.2[j]? = some (n + 1, m) ∧
        ((o = .handle false ∧ (¬ rel ∨ maxObj < 8 * m.pairs.length) ∧ x' = (x.1 ++ [none], x.2)) ∨
         (o = .handle true ∧ x' = (x.1 ++ [some m.clone], x.2)))
  | .containsKey j k, o, x' => onC x j (fun n m o n' => n' = n + 1 ∧ ∃ b, o = .flag b ∧ (b = true ↔ ∃ t, k = some t ∧ t ∈ m.keys)) o x'
  | .containsValue j k, o, x' => onC x j (fun n m o n' => n' = n + 1 ∧ ∃ b, o = .flag b ∧ (b = true ↔ ∃ t, k = some t ∧ t ∈ m.vals)) o x'
  | .get j k, o, x' => onC x j (fun n m o n' => n' = n + 1 ∧ ∃ t, o = .value t ∧ match k, t with
        | some k, some v => (k, v) ∈ m.pairs
        | some k, none => k ∉ m.keys
        | none, t => t = none) o x'
  | .internals j, o, x' => onC x j (fun n m o n' => n' = n + 1 ∧ o = .arrays (some (m.keys, m.vals))) o x'

def CInv (e : CEnv) (x : CState) : HProp := Own OMap e.1 x.1 ∗ Shared CM e.2 x.2

theorem back_spec {maps : List Nat} {refs : RefEnv} {ms : List (Option MapV)} {cs : List (Nat × MapV)} {j : Nat}
    {k : Ptr → Nat → M (Option COut × RefEnv)} {E : Nat → MapV → COut → Nat → Prop}
    (hk : ∀ h n a, refs[j]? = some (h, n + 1) → cs[j]? = some (n + 1, a) →
      Triple rel (CM h (n + 1) a) (k h n) (fun r => ∃∃ (o : COut) (n' : Nat), (r = (some o, refs.set j (h, n')) ∧ E n a o n') ⋏ Sh CM h (n', a))) :
    Triple rel (CInv (maps, refs) (ms, cs)) (back maps (onRef refs j k)) (fun r => ∃∃ x', (onC (ms, cs) j E r.1 x') ⋏ CInv r.2 x') := by
  unfold back CInv
  dsimp only
  step (onRef_spec (R := CM) (env := refs) (as := cs) (i := j) (k := k) (E := E) hk) into r
  intro cs' hr
  refine Triple.pure (entails_ex_r (ms, cs') (entails_pand_r ?_ ⟨r.1, cs', hr, rfl, rfl⟩))
  dsimp only
  sep_cancel

theorem cread {α : Type} {h n : Nat} {a : MapV} {c : M α} {E : α → Prop} {f : α → COut} {refs : RefEnv} {j : Nat} {E' : COut → Nat → Prop}
    (hc : Triple rel (CM h (n + 1) a) c (fun r => (E r) ⋏ CM h (n + 1) a)) (hE : ∀ r, E r → E' (f r) (n + 1)) :
    Triple rel (CM h (n + 1) a) (do let r ← c; pure (some (f r), refs.set j (h, n + 1)))
      (fun r => ∃∃ (o : COut) (n' : Nat), (r = (some o, refs.set j (h, n')) ∧ E' o n') ⋏ Sh CM h (n', a)) := by
  refine Triple.bind' hc fun r => ?_
  hoist; intro hr
  refine Triple.pure (entails_ex_r _ (entails_ex_r (n + 1) (entails_pand_r ?_ ⟨rfl, hE r hr⟩)))
  rw [Sh, if_neg (by simp)]; exact entails_refl _

theorem noArg {α : Type} {P : HProp} {c : M α} {A : HProp} {E : α → Prop} (hc : Triple rel (P ∗ A) c (fun r => (E r) ⋏ P ∗ A)) (hA : A = emp) :
    Triple rel P c (fun r => (E r) ⋏ P) := by
  rw [hA] at hc
  simp only [sep_emp] at hc
  exact hc

theorem cexec_spec (flt : Filt) (op : COp) (hop : op.good) (e : CEnv) (x : CState) :
    Triple rel (CInv e x) (cexec flt op e) (fun r => ∃∃ x', (CStep flt rel x op r.1 x') ⋏ CInv r.2 x') := by
  obtain ⟨maps, refs⟩ := e
  obtain ⟨ms, cs⟩ := x
  cases op with
  | map op =>
    unfold cexec CInv
    dsimp only
    step (Map.exec_spec (rel := rel) flt op hop maps ms) into r
    intro ms' hr
    refine Triple.pure (entails_ex_r (ms', cs) (entails_pand_r (entails_refl _) ⟨r.1, ms', hr, rfl, rfl⟩))
  | create i =>
    unfold cexec
    refine Triple.know (φ := maps.length = ms.length) (fun hp hP => ?_) fun hl => ?_
    · obtain ⟨x, y, _, _, h1, _⟩ := hP; exact h1.1
    cases hi : maps[i]? with
    | none =>
      have hn : ms[i]? = none := by simp only [List.getElem?_eq_none_iff] at hi ⊢; omega
      dsimp only
      rw [hi]
      exact Triple.pure (entails_ex_r (ms, cs) (entails_pand_r (entails_refl _) (Or.inl ⟨hn, rfl, rfl⟩)))
    | some g =>
      dsimp only
      rw [hi]
      obtain ⟨a, F, ha, e1, e2⟩ := Own_get (R := OMap) hi hl
      unfold CInv
      dsimp only
      rw [e1, sep_assoc]
      step (ConstMap_Create_spec (g := g) (a := a)) into h
      refine Triple.ite (fun h0 => ?_) (fun h0 => ?_)
      · subst h0; rw [Made_zero]; hoist; intro hb
        refine Triple.pure (entails_ex_r (ms, cs) (entails_pand_r ?_ (Or.inr (Or.inl ⟨rfl, rfl, a, ha, hb⟩))))
        dsimp only; rw [e1]
        sep_cancel
      · rw [Made_ne h0]; hoist; intro m' m hm hm'
        subst hm hm'
        refine Triple.pure (entails_ex_r (ms, cs ++ [(1, m.clone)]) (entails_pand_r ?_ (Or.inr (Or.inr ⟨rfl, m, ha, rfl⟩))))
        dsimp only; rw [e1]
        refine entails_trans ?_ (sep_mono (entails_refl _) Shared_snoc)
        rw [Sh, if_neg (by simp)]
        dsimp only
        sep_cancel
  | clone j =>
    refine back_spec fun h n a he ha => ?_
    refine Triple.ite (fun hn => ?_) (fun hn => ?_)
    · step (ConstMap_Clone_spec (h := h) (n := n + 1) (m := a) (by omega))
      refine Triple.pure (entails_ex_r _ (entails_ex_r (n + 2) (entails_pand_r ?_ ⟨rfl, ?_⟩)))
      · rw [Sh, if_neg (by simp)]; exact entails_refl _
      · rw [if_pos hn]; simp
    · refine Triple.pure (entails_ex_r _ (entails_ex_r (n + 1) (entails_pand_r ?_ ⟨rfl, ?_⟩)))
      · rw [Sh, if_neg (by simp)]; exact entails_refl _
      · rw [if_neg hn]; simp
  | destroy j =>
    refine back_spec fun h n a he ha => ?_
    step (ConstMap_Destroy_spec (h := h) (n := n) (m := a))
    exact Triple.pure (entails_ex_r _ (entails_ex_r n (entails_pand_r (entails_refl _) ⟨rfl, by simp⟩)))
  | writeable j =>
    unfold cexec CInv
    dsimp only
    rw [Shared_eq]; hoist; intro he
    have hl : (refs.map Prod.fst).length = cs.length := by have := congrArg List.length he; simpa using this
    have corr : ∀ j : Nat, (refs[j]?).map Prod.snd = (cs[j]?).map Prod.fst := by
      intro j; rw [← List.getElem?_map, ← List.getElem?_map, he]
    have skip : (∀ n m, cs[j]? ≠ some (n + 1, m)) → Triple rel (Own OMap maps ms ∗ Own (Sh CM) (refs.map Prod.fst) cs) (pure (.none, (maps, refs)) : M (COut × CEnv))
        (fun r => ∃∃ x', (CStep flt rel (ms, cs) (.writeable j) r.1 x') ⋏ (Own OMap r.2.1 x'.1 ∗ Shared CM r.2.2 x'.2)) := by
      intro h
      refine Triple.pure (entails_ex_r (ms, cs) (entails_pand_r ?_ (Or.inl ⟨h, rfl, rfl⟩)))
      rw [Shared_eq, sep_pand]; exact entails_pand_r (entails_refl _) he
    rcases he1 : refs[j]? with _ | ⟨h, _ | n⟩
    · refine skip fun n a ha => ?_
      have := corr j; rw [he1, ha] at this; simp at this
    · refine skip fun n a ha => ?_
      have := corr j; rw [he1, ha] at this; simp at this
    · have hp : (refs.map Prod.fst)[j]? = some h := by simp [he1]
      obtain ⟨⟨q, m⟩, F, ha, e1, e2⟩ := Own_get (R := Sh CM) hp hl
      have hm : q = n + 1 := by have := corr j; rw [he1, ha] at this; simpa using this.symm
      subst hm
      rw [e1]
      have hSh : Sh CM h (n + 1, m) = CM h (n + 1) m := if_neg (by simp)
      rw [hSh]
      dsimp only
      step (ConstMap_CloneWriteable_spec (h := h) (n := n + 1) (m := m)) into r
      have fin : (CM h (n + 1) m ∗ F) = Own (Sh CM) (refs.map Prod.fst) cs := by rw [e1, hSh]
      by_cases h0 : r = 0
      · subst h0; rw [Made_zero]; hoist; intro hb
        refine Triple.pure (entails_ex_r (ms ++ [none], cs) (entails_pand_r ?_ (Or.inr ⟨n, m, ha, Or.inl ⟨rfl, hb, rfl⟩⟩)))
        dsimp only
        rw [Shared_eq, sep_pand]
        refine entails_pand_r ?_ he
        rw [← fin]
        have := Own_snoc (R := OMap) (env := maps) (as := ms) (h := 0) (a := none)
        refine entails_trans ?_ (sep_mono this (entails_refl _))
        simp only [OMap, ORep_none, true_pand, emp_sep, eq_self]
        sep_cancel
      · rw [Made_ne h0]; hoist; rintro m' rfl
        refine Triple.pure (entails_ex_r (ms ++ [some m.clone], cs) (entails_pand_r ?_ (Or.inr ⟨n, m, ha, Or.inr ⟨by simp [h0], rfl⟩⟩)))
        dsimp only
        rw [Shared_eq, sep_pand]
        refine entails_pand_r ?_ he
        rw [← fin]
        have := Own_snoc (R := OMap) (env := maps) (as := ms) (h := r) (a := some m.clone)
        refine entails_trans ?_ (sep_mono this (entails_refl _))
        simp only [OMap, ORep_some]
        sep_cancel
  | containsKey j k =>
    refine back_spec fun h n a he ha => ?_
    refine cread (f := COut.flag) (noArg (ConstMap_ContainsKey_spec (ok := k)) (Arg_lit' hop)) ?_
    intro r hr
    exact ⟨rfl, r, rfl, hr⟩
  | containsValue j k =>
    refine back_spec fun h n a he ha => ?_
    refine cread (f := COut.flag) (noArg (ConstMap_ContainsValue_spec (ov := k)) (Arg_lit' hop)) ?_
    intro r hr
    exact ⟨rfl, r, rfl, hr⟩
  | get j k =>
    refine back_spec fun h n a he ha => ?_
    refine cread (f := COut.value) (noArg (ConstMap_GetValue_spec (ok := k)) (Arg_lit' hop)) ?_
    intro r hr
    exact ⟨rfl, r, rfl, hr⟩
  | internals j =>
    refine back_spec fun h n a he ha => ?_
    refine cread (f := COut.arrays) (E := fun r => r = some (a.keys, a.vals)) ConstMap_GetInternals_spec ?_
    intro r hr
    exact ⟨rfl, by rw [hr]⟩

/-- C13 over histories: any sequence of map and const map calls is free of undefined behaviour; whatever happens to the maps in
between, const map lookups answer for the snapshot taken at creation; a writeable clone is a separate map; memory in use is exactly
that of the live maps and of the const maps to which references remain. -/
theorem ConstMap_history (flt : Filt) (ops : List COp) (hops : ∀ op ∈ ops, op.good) (e : CEnv) (x : CState) :
    Triple rel (CInv e x) (runOps (cexec flt) ops e) (fun r => ∃∃ x', (Runs (CStep flt rel) x ops r.1 x') ⋏ CInv r.2 x') :=
  runOps_spec (Inv := CInv) (step := CStep flt rel) (cexec_spec flt) ops hops e x

/-- C13: when the client has given back every reference and its maps, nothing is left allocated. -/
theorem ConstMap_no_leak (flt : Filt) (ops : List COp) (hops : ∀ op ∈ ops, op.good) (al : Nat → Heap → Nat → Nat) :
    ∃ os e s', (do let r ← runOps (cexec flt) ops ([], []); releaseAll Map_Destroy r.2.1; pure r) (St.start al) = some (.ok ((os, e), s')) ∧
      ((∀ q ∈ e.2, q.2 = 0) → s'.heap = Heap.empty) := by
  have h0 : CInv ([], []) ([], []) = emp := by
    unfold CInv; rw [Own_nil]; unfold Shared; simp [Pool, true_pand, sep_emp]
  have h := ConstMap_history (rel := False) flt ops hops ([], []) ([], [])
  rw [h0] at h
  have h2 : Triple False emp (do let r ← runOps (cexec flt) ops ([], []); releaseAll Map_Destroy r.2.1; pure r)
      (fun r => ∃∃ cs, Shared CM r.2.2 cs) := by
    refine Triple.bind' h fun r => ?_
    hoist; rintro ⟨ms, cs⟩ _
    unfold CInv
    dsimp only
    step (releaseAll_spec (R := OMap) (del := Map_Destroy) (fun h a => Map_Destroy_spec) r.2.1 ms)
    exact Triple.pure (entails_ex_r cs (entails_refl _))
  obtain ⟨⟨os, e⟩, s', h1, cs, h3⟩ := h2.run (St.start al) Heap.fin_empty (by simp) rfl
  refine ⟨os, e, s', h1, fun hz => ?_⟩
  refine Shared_done (R := CM) (env := e.2) (as := cs) (fun a ha => ?_) s'.heap h3
  have hc : e.2.map Prod.snd = cs.map Prod.fst := h3.1
  have : a.1 ∈ cs.map Prod.fst := List.mem_map.2 ⟨a, ha, rfl⟩
  rw [← hc] at this
  obtain ⟨e, he, h3⟩ := List.mem_map.1 this
  rw [← h3]; exact hz e he

set_option synthInstance.maxSize 4000 in
/-- Non-vacuity. -/
example : outcome (do
    let r ← runOps (cexec fun _ _ _ => 0) [.map (.create 0), .map (.add 0 (some [97]) (some [49])), .create 0, .map (.update 0 (some [97]) (some [50])),
      .get 0 (some [97]), .map (.get 0 (some [97])), .clone 0, .destroy 0, .map (.destroy 0), .containsKey 0 (some [97]), .writeable 0,
      .map (.delete 1 (some [97])), .internals 0, .destroy 0, .get 0 (some [97]), .create 0] ([], [])
    pure r.1) (St.start bump) =
    some (.ok [.map (some (.handle true)), .map (some (.code .ok)), .handle true, .map (some (.code .ok)), .value (some [49]), .map (some (.value (some [50]))),
      .same true, .done, .map (some .done), .flag true, .handle true, .map (some (.code .ok)), .arrays (some ([[97]], [[49]])), .done, .none, .handle false]) := by
  decide +kernel

end Verif.Const
