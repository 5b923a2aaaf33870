import Verif.Vec.Model
import Verif.Map.Props2
/-! # C18, C19: contracts of the vector calls

The abstract value of a vector is its element size and the sequence of its elements, each a byte string of that size. -/
set_option linter.unusedSimpArgs false
set_option linter.unusedVariables false
namespace Verif.Vec
open Verif
variable {rel : Prop}

abbrev Elems := List (List UInt8)
abbrev V := Nat × Elems

def Stor (st : Ptr) (es : Elems) : HProp := if es = [] then ((st = 0) ⋏ emp) else (st ↦ bytesV es.flatten)

/-- The handle `h` owns a vector whose storage is at `st`. -/
def VecAt (h st : Ptr) (v : V) : HProp :=
  (0 < v.1 ∧ v.1 < szMod ∧ ∀ e ∈ v.2, e.length = v.1) ⋏ (h ↦ [.ptr st, .int v.2.length, .int v.1] ∗ Stor st v.2)
/-- The handle `h` owns a vector. -/
def VecR (h : Ptr) (v : V) : HProp := ∃∃ st : Nat, VecAt h st v
abbrev OVec (h : Ptr) (a : Option V) : HProp := ORep VecR h a

theorem flat_len {es : Elems} {k : Nat} (h : ∀ e ∈ es, e.length = k) : es.flatten.length = k * es.length := by
  induction es with
  | nil => simp
  | cons e es ih =>
    simp only [List.flatten_cons, List.length_append, List.length_cons]
    rw [ih fun e he => h e (by simp [he]), h e (by simp)]; simp [Nat.mul_add, Nat.add_comm]

theorem Stor_nil {st : Ptr} : Stor st [] = ((st = 0) ⋏ emp) := by simp [Stor]
theorem Stor_ne {st : Ptr} {es : Elems} (h : es ≠ []) : Stor st es = (st ↦ bytesV es.flatten) := by simp [Stor, h]

/-- total size of the storage -/
theorem know_VecAt {h st : Ptr} {v : V} {P F : HProp} (pk : Pick P (VecAt h st v) F) :
    ∀ hp, P hp → h ≠ 0 ∧ v.1 * v.2.length ≤ maxObj ∧ (v.2 = [] ↔ st = 0) ∧ 0 < v.1 ∧ v.1 < szMod ∧ ∀ e ∈ v.2, e.length = v.1 := by
  intro hp hP; unfold Pick at pk; rw [pk] at hP
  obtain ⟨x, y, _, _, ⟨hv, ⟨u, w, _, _, h1, h2⟩⟩, _⟩ := hP
  refine ⟨h1.1, ?_, ?_, hv⟩
  · by_cases h : v.2 = []
    · simp [h]
    · rw [Stor_ne h] at h2
      have := h2.2.1
      rwa [bytesV, List.length_map, flat_len hv.2.2] at this
  · by_cases h : v.2 = []
    · rw [h, Stor_nil] at h2; simp [h, h2.1]
    · rw [Stor_ne h] at h2
      simp [h, h2.1]

theorem mul_mod {a b : Nat} (h : a * b ≤ maxObj) : a * b % szMod = a * b :=
  Nat.mod_eq_of_lt (Nat.lt_of_le_of_lt h (by decide))
theorem count_lt {a b : Nat} (h : a * b ≤ maxObj) (h0 : 0 < a) : b ≤ maxObj :=
  Nat.le_trans (Nat.le_mul_of_pos_left b h0) h

theorem VECTOR_create_spec {k : Nat} (hk : 0 < k) (hk' : k < szMod) : Triple rel emp (VECTOR_create k) (Made VecR (¬ rel) (· = (k, []))) := by
  unfold VECTOR_create
  refine Triple.mallocS (by omega) (fun hr => ?_) (fun r hr => ?_)
  · rw [if_pos rfl]; exact Triple.pure (Made_fail hr)
  rw [if_neg hr]; hoist
  step (store_spec (p := r) ?_)
  step (store_spec (p := r) ?_)
  step (store_spec (p := r) ?_)
  refine Triple.pure (Made_ok (k, []) hr rfl ?_)
  refine entails_ex_r 0 (entails_pand_r ?_ ⟨hk, hk', by simp⟩)
  simp only [Stor_nil]
  rw [sep_pand, sep_emp]
  exact entails_pand_r (entails_refl _) trivial

theorem clear_spec {h st : Ptr} {v : V} : Triple rel (VecAt h st v) (internal_VECTOR_clear h) (fun _ => VecAt h 0 (v.1, [])) := by
  unfold internal_VECTOR_clear
  refine Triple.know (know_VecAt (h := h) (by pick)) fun hk => ?_
  have hw : (0 < v.1 ∧ v.1 < szMod ∧ ∀ e ∈ ([] : Elems), e.length = v.1) := ⟨hk.2.2.2.1, hk.2.2.2.2.1, by simp⟩
  unfold VecAt
  hoist; intro _ _ _
  by_cases h0 : v.2 = []
  · rw [h0, Stor_nil]; hoist; rintro rfl
    step (loadPtr_spec (p := h) ?_)
    rw [if_neg (by simp)]
    last (store_spec (p := h) ?_)
    refine entails_pand_r ?_ hw
    rw [Stor_nil, sep_pand]; exact entails_pand_r (entails_refl _) rfl
  · rw [Stor_ne h0]
    step (loadPtr_spec (p := h) ?_)
    rw [if_pos (fun h => h0 (hk.2.2.1.2 h))]
    step (free_spec (p := st))
    step (store_spec (p := h) ?_)
    last (store_spec (p := h) ?_)
    refine entails_pand_r ?_ hw
    rw [Stor_nil, sep_pand]; exact entails_pand_r (entails_refl _) rfl

/-- C18: `VECTOR_destroy` gives all memory back. -/
theorem VECTOR_destroy_spec {h : Ptr} {a : Option V} : Triple rel (OVec h a) (VECTOR_destroy h) (fun _ => emp) := by
  unfold VECTOR_destroy
  cases a with
  | none =>
    simp only [OVec, ORep_none]; hoist; rintro rfl
    rw [if_neg (by simp)]; exact Triple.pure (entails_refl _)
  | some v =>
    simp only [OVec, ORep_some, VecR]; hoist; intro st
    refine Triple.know (know_VecAt (h := h) (by pick)) fun hk => ?_
    rw [if_pos hk.1]
    step (clear_spec (h := h))
    unfold VecAt; hoist; intro _ _ _
    rw [Stor_nil]; hoist
    last (free_spec (p := h))
    rw [sep_emp]; exact entails_refl _

/-- C18: `VECTOR_clear`. -/
theorem VECTOR_clear_spec {h : Ptr} {a : Option V} :
    Triple rel (OVec h a) (VECTOR_clear h) (fun _ => OVec h (a.map fun v => (v.1, []))) := by
  unfold VECTOR_clear
  cases a with
  | none =>
    simp only [OVec, ORep_none, Option.map]; hoist; rintro rfl
    rw [if_neg (by simp)]; exact Triple.pure (entails_pand_r (entails_refl _) rfl)
  | some v =>
    simp only [OVec, ORep_some, VecR, Option.map]; hoist; intro st
    refine Triple.know (know_VecAt (h := h) (by pick)) fun hk => ?_
    rw [if_pos hk.1]
    refine clear_spec.conseq (entails_refl _) fun _ => ?_
    exact entails_ex_r 0 (entails_refl _)

/-- C18: `VECTOR_size`. -/
theorem VECTOR_size_spec {h : Ptr} {a : Option V} :
    Triple rel (OVec h a) (VECTOR_size h) (fun r => (r = (a.map fun v => v.2.length).getD 0) ⋏ OVec h a) := by
  unfold VECTOR_size
  cases a with
  | none =>
    simp only [OVec, ORep_none]; hoist; rintro rfl
    rw [if_neg (by simp)]; exact Triple.pure (entails_pand_r (entails_pand_r (entails_refl _) rfl) rfl)
  | some v =>
    simp only [OVec, ORep_some, VecR]; hoist; intro st
    refine Triple.know (know_VecAt (h := h) (by pick)) fun hk => ?_
    rw [if_pos hk.1]
    unfold VecAt; hoist; intro h1 h2 h3
    last (loadInt_spec (p := h) ?_)
    rename_i r; rw [pand_sep]
    refine entails_pand_l fun hr => entails_pand_r (entails_ex_r st (entails_pand_r (entails_refl _) ⟨h1, h2, h3⟩)) hr

/-- What `VECTOR_push_back` does: all `new` elements appended, or failure and no change; failure only for a NULL handle, no elements,
an allocator refusal, or a total larger than the largest object. -/
def PushE (rel : Prop) (a : Option V) (new : Elems) (r : Nat) (a' : Option V) : Prop :=
  (r = 0 ∧ ∃ v, a = some v ∧ new ≠ [] ∧ a' = some (v.1, v.2 ++ new)) ∨
  (r ≠ 0 ∧ a' = a ∧ ∀ v, a = some v → new = [] ∨ ¬ rel ∨ maxObj < v.1 * (v.2.length + new.length))

/-- C18: `VECTOR_push_back`; `src` designates the bytes of the new elements, in memory other than the vector's. -/
theorem VECTOR_push_back_spec {h : Ptr} {a : Option V} {src : CharPtr} {new : Elems} (hnew : ∀ v, a = some v → ∀ e ∈ new, e.length = v.1) :
    Triple rel (OVec h a ∗ Data src new.flatten) (VECTOR_push_back h src new.length)
      (fun r => ∃∃ a', (PushE rel a new r a') ⋏ OVec h a' ∗ Data src new.flatten) := by
  unfold VECTOR_push_back
  cases a with
  | none =>
    simp only [OVec, ORep_none]; hoist; rintro rfl
    rw [if_pos (Or.inl rfl)]
    refine Triple.pure (entails_ex_r none (entails_pand_r ?_ (Or.inr ⟨by omega, rfl, by simp⟩)))
    rw [ORep_none, pand_sep, emp_sep]; exact entails_pand_r (entails_refl _) rfl
  | some v =>
    have hnew := hnew v rfl
    simp only [OVec, ORep_some, VecR]; hoist; intro st
    refine Triple.know (know_VecAt (h := h) (by pick)) fun hk => ?_
    refine Triple.know (know_Data (s := src) (bs := new.flatten) (by pick)) fun hd => ?_
    refine Triple.know (φ := src = .null → new.flatten = []) (fun hp hP hs => ?_) fun hnull0 => ?_
    · subst hs
      obtain ⟨x, y, _, _, _, h2⟩ := hP
      exact h2.1
    obtain ⟨h0, hsz, hst, hv⟩ := hk
    have hfl := flat_len hnew
    rw [hfl] at hd
    by_cases hn : new = []
    · subst hn
      rw [if_pos (by simp)]
      refine Triple.pure (entails_ex_r (some v) (entails_pand_r ?_ (Or.inr ⟨by omega, rfl, by simp⟩)))
      rw [ORep_some, VecR]; simp only [hex_sep]; exact entails_ex_r st (entails_refl _)
    have hlen : new.length ≠ 0 := by simpa using hn
    have hpos : v.1 * new.length ≠ 0 := Nat.mul_ne_zero (by omega) hlen
    have hnull : src ≠ .null := fun h => by
      have := hnull0 h; rw [this] at hfl; simp only [List.length_nil] at hfl; exact hpos hfl.symm
    rw [if_neg (by
      rintro (h | h | h)
      · exact h0 h
      · exact hnull h
      · exact hlen h)]
    have hcur : v.1 * v.2.length % szMod = v.1 * v.2.length := mul_mod hsz
    have happ : v.1 * new.length % szMod = v.1 * new.length := mul_mod hd
    have hsum : (v.1 * v.2.length + v.1 * new.length) % szMod = v.1 * (v.2.length + new.length) := by
      rw [Nat.mul_add]; apply Nat.mod_eq_of_lt
      have : maxObj + maxObj < szMod := by decide
      omega
    have hcnt : (v.2.length + new.length) % szMod = (v.2 ++ new).length := by
      rw [List.length_append]; apply Nat.mod_eq_of_lt
      have := count_lt hsz hv.1
      have := count_lt hd hv.1
      have : maxObj + maxObj < szMod := by decide
      omega
    have hfo := flat_len hv.2.2
    unfold VecAt; hoist; intro _ _ _
    step (loadInt_spec (p := h) ?_)
    step (loadInt_spec (p := h) ?_)
    step (loadPtr_spec (p := h) ?_)
    rw [hcur, happ, hsum, hcnt]
    have tail : ∀ r, r ≠ 0 → Triple rel (r ↦ (bytesV v.2.flatten ++ List.replicate (v.1 * new.length) Val.undef) ∗
          h ↦ [.ptr st, .int v.2.length, .int v.1] ∗ Data src new.flatten)
        (do memcpy r (v.1 * v.2.length) src (v.1 * new.length)
            store h fStorage (.ptr r)
            store h fCount (.int (v.2 ++ new).length)
            pure 0)
        (fun r => ∃∃ a', (PushE rel (some v) new r a') ⋏ ORep VecR h a' ∗ Data src new.flatten) := by
      intro r hr
      have hp : patch (bytesV v.2.flatten ++ List.replicate (v.1 * new.length) Val.undef) (v.1 * v.2.length) (bytesV (new.flatten.take (v.1 * new.length))) = bytesV (v.2 ++ new).flatten := by
        rw [patch_end (by rw [bytesV, List.length_map, hfo]) (by rw [bytesV, List.length_map, List.length_take, hfl]; simp)]
        rw [← hfl, List.take_length, List.flatten_append]; simp [bytesV]
      step (memcpy_data (dst := r) (src := src) (bs := new.flatten) (n := v.1 * new.length) (off := v.1 * v.2.length)
        (b := bytesV v.2.flatten ++ List.replicate (v.1 * new.length) Val.undef) (by rw [hfl]; exact Nat.le_refl _) (by
          rw [List.length_append, bytesV, List.length_map, hfo, List.length_replicate]; exact Nat.le_refl _))
      rw [hp]
      step (store_spec (p := h) ?_)
      step (store_spec (p := h) ?_)
      refine Triple.pure (entails_ex_r (some (v.1, v.2 ++ new)) (entails_pand_r ?_ (Or.inl ⟨rfl, v, rfl, hn, rfl⟩)))
      rw [ORep_some, VecR]; simp only [hex_sep]
      refine entails_ex_r r ?_
      rw [VecAt, pand_sep]
      refine entails_pand_r ?_ ⟨hv.1, hv.2.1, fun e he => (List.mem_append.1 he).elim (hv.2.2 e) (hnew e)⟩
      rw [Stor_ne (by simp [hn]), sep_assoc]
      sep_cancel
    by_cases hvn : v.2 = []
    · rw [hvn, Stor_nil]; hoist; rintro rfl
      refine Triple.realloc_null (fun hr => ?_) (fun r hr hb => ?_)
      · rw [if_pos rfl]
        refine Triple.pure (entails_ex_r (some v) (entails_pand_r ?_ (Or.inr ⟨by omega, rfl, ?_⟩)))
        · rw [ORep_some, VecR]; simp only [hex_sep]; refine entails_ex_r 0 ?_
          rw [VecAt, pand_sep]; refine entails_pand_r ?_ hv
          rw [hvn, Stor_nil, sep_pand, sep_emp, pand_sep]; exact entails_pand_r (entails_refl _) rfl
        · rintro _ ⟨⟩; rw [hvn]; exact Or.inr hr
      · rw [if_neg hr]
        have := tail r hr
        rw [hvn] at this
        simp only [List.flatten_nil, bytesV, List.map_nil, List.nil_append, List.length_nil, Nat.mul_zero, Nat.zero_add] at this ⊢
        exact this
    · rw [Stor_ne hvn]
      refine Triple.realloc (p := st) (by rw [Nat.mul_add]; omega) (by pick) (fun hr => ?_) (fun r hr hb => ?_)
      · rw [if_pos rfl]
        refine Triple.pure (entails_ex_r (some v) (entails_pand_r ?_ (Or.inr ⟨by omega, rfl, ?_⟩)))
        · rw [ORep_some, VecR]; simp only [hex_sep]; refine entails_ex_r st ?_
          rw [VecAt, pand_sep]; refine entails_pand_r ?_ hv
          rw [Stor_ne hvn, sep_assoc]; sep_cancel
        · rintro _ ⟨⟩; exact Or.inr hr
      · rw [if_neg hr]
        refine (tail r hr).pre ?_
        have e : (bytesV v.2.flatten).take (v.1 * (v.2.length + new.length)) ++ List.replicate (v.1 * (v.2.length + new.length) - (bytesV v.2.flatten).length) Val.undef =
            bytesV v.2.flatten ++ List.replicate (v.1 * new.length) Val.undef := by
          have hl : (bytesV v.2.flatten).length = v.1 * v.2.length := by rw [bytesV, List.length_map, hfo]
          rw [List.take_of_length_le (by rw [hl, Nat.mul_add]; omega), hl, Nat.mul_add, Nat.add_sub_cancel_left]
        rw [e]; sep_cancel

/-! ## Access -/

/-- the client reads `n` bytes at a pointer the library returned -/
def readAt (p : VPtr) (n : Nat) : M (List Val) :=
  match p with
  | .at b off => loadN b off n
  | _ => ub "read through NULL or a wild pointer"

theorem flat_get {l1 l2 : Elems} {e : List UInt8} {k : Nat} (h : ∀ x ∈ l1 ++ e :: l2, x.length = k) :
    ((bytesV (l1 ++ e :: l2).flatten).drop (k * l1.length)).take k = bytesV e := by
  have h1 := flat_len (es := l1) (k := k) fun x hx => h x (by simp [hx])
  have he : e.length = k := h e (by simp)
  simp only [List.flatten_append, List.flatten_cons, bytesV, List.map_append]
  rw [List.drop_append_of_le_length (by rw [List.length_map, h1]; exact Nat.le_refl _)]
  rw [List.drop_of_length_le (by rw [List.length_map, h1]; exact Nat.le_refl _), List.nil_append, List.take_append_of_le_length (by simp [he]), List.take_of_length_le (by simp [he])]

/-- the bytes found at the address of element `l1.length` are those of the element -/
theorem readAt_spec {h st : Ptr} {k : Nat} {l1 l2 : Elems} {e : List UInt8} :
    Triple rel (VecAt h st (k, l1 ++ e :: l2)) (readAt (.at st (k * l1.length)) k)
      (fun r => (r = bytesV e) ⋏ VecAt h st (k, l1 ++ e :: l2)) := by
  unfold readAt VecAt
  hoist; intro h1 h2 h3
  have hf := flat_len h3
  rw [Stor_ne (by simp)]
  have e1 := flat_get h3
  last (loadN_spec (p := st) (b := bytesV (l1 ++ e :: l2).flatten) (off := k * l1.length) (n := k) (by
    rw [bytesV, List.length_map, hf]; simp only [List.length_append, List.length_cons, Nat.mul_add]; omega))
  rename_i r
  rw [pand_sep]
  refine entails_pand_l fun hr => entails_pand_r (entails_pand_r ?_ ⟨h1, h2, h3⟩) (by rw [hr, ← e1])
  sep_cancel

/-- Address of element `i` of a vector with storage at `st`. -/
def elemPtr (st : Ptr) (v : V) (i : Nat) : VPtr := if v.2 = [] then .null else .at st (v.1 * i)

/-- C18/C19: `VECTOR_element`: NULL beyond `count`; for an index up to `count` the address of that element. -/
theorem VECTOR_element_spec_partial {h st : Ptr} {v : V} {i : Nat} :
    Triple rel (VecAt h st v) (VECTOR_element h i)
      (fun r => (r = if i < v.2.length then .at st (v.1 * i) else if i = v.2.length then elemPtr st v i else .null) ⋏ VecAt h st v) := by
  unfold VECTOR_element
  refine Triple.know (know_VecAt (h := h) (by pick)) fun hk => ?_
  obtain ⟨h0, hsz, hst, hv⟩ := hk
  rw [if_pos h0]
  unfold VecAt; hoist; intro _ _ _
  step (loadInt_spec (p := h) ?_)
  by_cases hi : i ≤ v.2.length
  · rw [if_pos hi]
    step (loadPtr_spec (p := h) ?_)
    step (loadInt_spec (p := h) ?_)
    have hm : v.1 * i ≤ maxObj := Nat.le_trans (Nat.mul_le_mul_left _ hi) hsz
    rw [mul_mod hm]
    refine Triple.pure (entails_pand_r (entails_pand_r ?_ hv) ?_)
    · sep_cancel
    · unfold padd elemPtr
      by_cases he : v.2 = []
      · have : st = 0 := hst.1 he
        rw [he] at hi ⊢
        simp only [List.length_nil, Nat.le_zero] at hi
        simp [this, hi]
      · have hs : st ≠ 0 := fun h => he (hst.2 h)
        rw [if_neg hs, if_neg he]
        by_cases hl : i < v.2.length
        · rw [if_pos hl]
        · rw [if_neg hl, if_pos (by omega)]
  · rw [if_neg hi]
    refine Triple.pure (entails_pand_r (entails_pand_r ?_ hv) ?_)
    · sep_cancel
    · rw [if_neg (by omega), if_neg (by omega)]

/-- C18/C19: `VECTOR_front`: NULL on an empty vector, else the address of the first element. -/
theorem VECTOR_front_spec {h st : Ptr} {v : V} :
    Triple rel (VecAt h st v) (VECTOR_front h) (fun r => (r = elemPtr st v 0) ⋏ VecAt h st v) := by
  unfold VECTOR_front
  refine Triple.know (know_VecAt (h := h) (by pick)) fun hk => ?_
  obtain ⟨h0, hsz, hst, hv⟩ := hk
  rw [if_pos h0]
  unfold VecAt; hoist; intro _ _ _
  step (loadPtr_spec (p := h) ?_)
  refine Triple.pure (entails_pand_r (entails_pand_r ?_ hv) ?_)
  · sep_cancel
  · unfold padd elemPtr
    by_cases he : v.2 = []
    · rw [if_pos (hst.1 he), if_pos he]; rfl
    · rw [if_neg fun h => he (hst.2 h), if_neg he, Nat.mul_zero]

/-- C18: `VECTOR_back` of a nonempty vector: the address of the last element. -/
theorem VECTOR_back_spec_partial {h st : Ptr} {v : V} (hne : v.2 ≠ []) :
    Triple rel (VecAt h st v) (VECTOR_back h) (fun r => (r = .at st (v.1 * (v.2.length - 1))) ⋏ VecAt h st v) := by
  unfold VECTOR_back
  refine Triple.know (know_VecAt (h := h) (by pick)) fun hk => ?_
  obtain ⟨h0, hsz, hst, hv⟩ := hk
  have hl : v.2.length ≠ 0 := by simpa using hne
  have hc := count_lt hsz hv.1
  have : maxObj < szMod := by decide
  rw [if_pos h0]
  unfold VecAt; hoist; intro _ _ _
  step (loadPtr_spec (p := h) ?_)
  step (loadInt_spec (p := h) ?_)
  step (loadInt_spec (p := h) ?_)
  refine Triple.pure (entails_pand_r (entails_pand_r ?_ hv) ?_)
  · sep_cancel
  · have e : (v.2.length + szMod - 1) % szMod = v.2.length - 1 := by
      rw [show v.2.length + szMod - 1 = (v.2.length - 1) + szMod from by omega, Nat.add_mod_right, Nat.mod_eq_of_lt (by omega)]
    rw [e, mul_mod (Nat.le_trans (Nat.mul_le_mul_left _ (by omega)) hsz), padd, if_neg fun h => hne (hst.2 h)]

/-- NULL handles -/
theorem VECTOR_null : VECTOR_element 0 i = pure .null ∧ VECTOR_front 0 = pure .null ∧ VECTOR_back 0 = pure .null ∧
    VECTOR_size 0 = pure 0 ∧ VECTOR_erase 0 e n = pure () ∧ VECTOR_find_if 0 p b = pure .null ∧ VECTOR_find_if h none b = pure .null ∧
    VECTOR_find_if h p true = pure .null := by
  refine ⟨rfl, rfl, rfl, rfl, ?_, ?_, rfl, ?_⟩
  · simp [VECTOR_erase]
  · cases p <;> simp [VECTOR_find_if]
  · cases p <;> simp [VECTOR_find_if]

/-- C18: `VECTOR_erase` of a run of elements of the vector removes exactly it.  The allocator must not refuse to shrink the storage
(or nothing must be left): the code does not check. -/
theorem VECTOR_erase_spec_partial {h st : Ptr} {k : Nat} {l1 mid l2 : Elems} (hm : mid ≠ []) (hr : rel ∨ l1 ++ l2 = []) :
    Triple rel (VecAt h st (k, l1 ++ mid ++ l2)) (VECTOR_erase h (.at st (k * l1.length)) mid.length) (fun _ => VecR h (k, l1 ++ l2)) := by
  unfold VECTOR_erase
  refine Triple.know (know_VecAt (h := h) (by pick)) fun hk => ?_
  obtain ⟨h0, hsz, hst, hv⟩ := hk
  have hml : mid.length ≠ 0 := by simpa using hm
  dsimp only at hsz hv
  simp only [List.length_append] at hsz
  have hc := count_lt hsz hv.1
  have hz : maxObj < szMod := by decide
  have hk0 := hv.1
  rw [if_pos ⟨h0, by simp, by omega⟩]
  unfold VecAt; hoist; intro _ _ _
  have hne : l1 ++ mid ++ l2 ≠ [] := by simp [hm]
  rw [Stor_ne hne]
  dsimp only
  step (loadInt_spec (p := h) ?_)
  step (loadPtr_spec (p := h) ?_)
  step (loadInt_spec (p := h) ?_)
  simp only [List.length_append]
  have e1 : k * mid.length % szMod = k * mid.length := mul_mod (Nat.le_trans (Nat.mul_le_mul_left _ (by omega)) hsz)
  rw [e1, mul_mod hsz, if_neg (by simp), if_neg (by simp only [Nat.mul_add]; omega)]
  have e2 : k * (l1.length + mid.length + l2.length) - (k * l1.length + k * mid.length) = k * l2.length := by
    simp only [Nat.mul_add]; omega
  have e3 : (l1.length + mid.length + l2.length + szMod - mid.length) % szMod = l1.length + l2.length := by
    rw [show l1.length + mid.length + l2.length + szMod - mid.length = (l1.length + l2.length) + szMod from by omega, Nat.add_mod_right, Nat.mod_eq_of_lt (by omega)]
  rw [e2, e3]
  have f1 := flat_len (es := l1) (k := k) fun x hx => hv.2.2 x (by simp [hx])
  have f2 := flat_len (es := mid) (k := k) fun x hx => hv.2.2 x (by simp [hx])
  have f3 := flat_len (es := l2) (k := k) fun x hx => hv.2.2 x (by simp [hx])
  have fl : (bytesV (l1 ++ mid ++ l2).flatten).length = k * l1.length + k * mid.length + k * l2.length := by
    simp only [bytesV, List.length_map, List.flatten_append, List.length_append, f1, f2, f3]
  step (Verif.Map.memmove_spec (p := st) (b := bytesV (l1 ++ mid ++ l2).flatten) (d := k * l1.length) (s := k * l1.length + k * mid.length) (n := k * l2.length)
    (by rw [fl]; omega) (by rw [fl]; omega))
  -- the storage now starts with the remaining elements
  have hpt : ∃ junk, patch (bytesV (l1 ++ mid ++ l2).flatten) (k * l1.length) (((bytesV (l1 ++ mid ++ l2).flatten).drop (k * l1.length + k * mid.length)).take (k * l2.length))
      = bytesV (l1 ++ l2).flatten ++ junk := by
    have a1 : bytesV (l1 ++ mid ++ l2).flatten = bytesV l1.flatten ++ (bytesV mid.flatten ++ bytesV l2.flatten) := by
      simp [bytesV, List.flatten_append]
    have b1 : (bytesV l1.flatten).length = k * l1.length := by rw [bytesV, List.length_map, f1]
    have b2 : (bytesV mid.flatten).length = k * mid.length := by rw [bytesV, List.length_map, f2]
    have b3 : (bytesV l2.flatten).length = k * l2.length := by rw [bytesV, List.length_map, f3]
    have a2 : ((bytesV (l1 ++ mid ++ l2).flatten).drop (k * l1.length + k * mid.length)).take (k * l2.length) = bytesV l2.flatten := by
      rw [a1, ← List.append_assoc, List.drop_append_of_le_length (by simp [b1, b2]), List.drop_of_length_le (by simp [b1, b2]), List.nil_append, ← b3, List.take_length]
    rw [a2, a1, patch, ← b1, List.take_append_of_le_length (Nat.le_refl _), List.take_length]
    rw [show bytesV (l1 ++ l2).flatten = bytesV l1.flatten ++ bytesV l2.flatten from by simp [bytesV, List.flatten_append]]
    exact ⟨_, rfl⟩
  obtain ⟨junk, hj⟩ := hpt
  rw [hj]
  step (store_spec (p := h) ?_)
  have hv' : 0 < k ∧ k < szMod ∧ ∀ e ∈ l1 ++ l2, e.length = k := ⟨hv.1, hv.2.1, fun e he => hv.2.2 e (by
    rcases List.mem_append.1 he with h | h <;> simp [h])⟩
  by_cases hl : l1 ++ l2 = []
  · have hl' : l1.length + l2.length = 0 := by rw [← List.length_append, hl]; rfl
    rw [if_pos hl']
    step (free_spec (p := st))
    last (store_spec (p := h) ?_)
    refine entails_ex_r 0 (entails_pand_r ?_ hv')
    dsimp only
    rw [hl, Stor_nil, sep_pand, hl']; exact entails_pand_r (entails_refl _) rfl
  · have hl' : l1.length + l2.length ≠ 0 := by rw [← List.length_append]; simpa using hl
    have hb : k * (l1.length + l2.length) ≤ maxObj := Nat.le_trans (Nat.mul_le_mul_left _ (by omega)) hsz
    rw [if_neg hl', mul_mod hb]
    refine Triple.realloc (p := st) (Nat.mul_ne_zero (by omega) hl') (by pick) (fun hr' => ?_) (fun r hr' _ => ?_)
    · exact absurd (hr.resolve_right hl) (hr'.elim id fun h => by omega)
    · last (store_spec (p := h) ?_)
      refine entails_ex_r r (entails_pand_r ?_ hv')
      dsimp only
      have f4 := flat_len hv'.2.2
      have b4 : (bytesV (l1 ++ l2).flatten).length = k * (l1.length + l2.length) := by rw [bytesV, List.length_map, f4, List.length_append]
      rw [Stor_ne hl, ← b4, List.take_append_of_le_length (Nat.le_refl _), List.take_length, List.length_append (as := l1)]
      rw [show (bytesV (l1 ++ l2).flatten).length - (bytesV (l1 ++ l2).flatten ++ junk).length = 0 from by simp]
      simp only [List.replicate_zero, List.append_nil, List.set]
      sep_cancel

theorem findLoop_spec {h st : Ptr} {k : Nat} {f : VPtr → M Bool} {X : HProp} {g : List UInt8 → Bool} {l2 : Elems} : ∀ {l1 : Elems},
    (∀ a e b, l1 ++ l2 = a ++ e :: b → Triple rel (VecAt h st (k, l1 ++ l2) ∗ X) (f (.at st (k * a.length))) (fun r => (r = g e) ⋏ VecAt h st (k, l1 ++ l2) ∗ X)) →
    Triple rel (VecAt h st (k, l1 ++ l2) ∗ X) (findLoop h f l1.length)
      (fun r => (r = match l2.findIdx? g with | some i => .at st (k * (l1.length + i)) | none => .null) ⋏ VecAt h st (k, l1 ++ l2) ∗ X) := by
  induction l2 with
  | nil =>
    intro l1 hm
    rw [findLoop]
    have ld : Triple rel (VecAt h st (k, l1 ++ [])) (loadInt h fCount) (fun r => (r = (l1 ++ []).length) ⋏ VecAt h st (k, l1 ++ [])) := by
      unfold VecAt; hoist; intro h1 h2 h3
      last (loadInt_spec (p := h) ?_)
      rename_i r; rw [pand_sep]
      exact entails_pand_l fun hr => entails_pand_r (entails_pand_r (entails_refl _) ⟨h1, h2, h3⟩) hr
    step ld
    rw [if_neg (by simp)]
    exact Triple.pure (entails_pand_r (entails_refl _) (by simp))
  | cons e l2 ih =>
    intro l1 hm
    rw [findLoop]
    refine Triple.know (know_VecAt (h := h) (st := st) (v := (k, l1 ++ e :: l2)) (by pick)) fun hk => ?_
    obtain ⟨h0, hsz, hst, hv⟩ := hk
    dsimp only at hsz hst hv
    have hs0 : st ≠ 0 := fun h => by simpa using hst.2 h
    have ld : Triple rel (VecAt h st (k, l1 ++ e :: l2)) (loadInt h fCount) (fun r => (r = (l1 ++ e :: l2).length) ⋏ VecAt h st (k, l1 ++ e :: l2)) := by
      unfold VecAt; hoist; intro h1 h2 h3
      last (loadInt_spec (p := h) ?_)
      rename_i r; rw [pand_sep]
      exact entails_pand_l fun hr => entails_pand_r (entails_pand_r (entails_refl _) ⟨h1, h2, h3⟩) hr
    have ld2 : Triple rel (VecAt h st (k, l1 ++ e :: l2)) (loadPtr h fStorage) (fun r => (r = st) ⋏ VecAt h st (k, l1 ++ e :: l2)) := by
      unfold VecAt; hoist; intro h1 h2 h3
      last (loadPtr_spec (p := h) ?_)
      rename_i r; rw [pand_sep]
      exact entails_pand_l fun hr => entails_pand_r (entails_pand_r (entails_refl _) ⟨h1, h2, h3⟩) hr
    have ld3 : Triple rel (VecAt h st (k, l1 ++ e :: l2)) (loadInt h fSize) (fun r => (r = k) ⋏ VecAt h st (k, l1 ++ e :: l2)) := by
      unfold VecAt; hoist; intro h1 h2 h3
      last (loadInt_spec (p := h) ?_)
      rename_i r; rw [pand_sep]
      exact entails_pand_l fun hr => entails_pand_r (entails_pand_r (entails_refl _) ⟨h1, h2, h3⟩) hr
    step ld
    rw [if_pos (by simp)]
    step ld2
    step ld3
    have hmod : k * l1.length % szMod = k * l1.length := mul_mod (Nat.le_trans (Nat.mul_le_mul_left _ (by simp)) hsz)
    rw [hmod, padd, if_neg hs0]
    refine Triple.bind' (hm l1 e l2 rfl) fun r => ?_
    hoist; rintro rfl
    refine Triple.ite (fun hg => ?_) (fun hg => ?_)
    · refine Triple.pure (entails_pand_r (entails_refl _) ?_)
      rw [List.findIdx?_cons, if_pos hg]; rfl
    · have ea : l1 ++ e :: l2 = (l1 ++ [e]) ++ l2 := by simp
      rw [ea] at hm ⊢
      have := ih (l1 := l1 ++ [e]) hm
      rw [List.length_append, List.length_singleton] at this
      refine this.conseq (entails_refl _) fun r => ?_
      refine entails_pand_l fun hr => entails_pand_r (entails_refl _) ?_
      rw [hr, List.findIdx?_cons, if_neg hg]
      cases l2.findIdx? g with
      | none => rfl
      | some i => simp [Nat.add_assoc, Nat.add_comm 1]

/-- C18: `VECTOR_find_if` returns the address of the first element the predicate accepts, NULL if there is none.  The predicate is
any client code that answers `g` of the element and leaves the vector and its own data `X` as they were. -/
theorem VECTOR_find_if_spec {h st : Ptr} {v : V} {f : VPtr → M Bool} {X : HProp} {g : List UInt8 → Bool}
    (hm : ∀ a e b, v.2 = a ++ e :: b → Triple rel (VecAt h st v ∗ X) (f (.at st (v.1 * a.length))) (fun r => (r = g e) ⋏ VecAt h st v ∗ X)) :
    Triple rel (VecAt h st v ∗ X) (VECTOR_find_if h (some f) false)
      (fun r => (r = match v.2.findIdx? g with | some i => .at st (v.1 * i) | none => .null) ⋏ VecAt h st v ∗ X) := by
  unfold VECTOR_find_if
  dsimp only
  refine Triple.know (know_VecAt (h := h) (st := st) (v := v) (by pick)) fun hk => ?_
  rw [if_pos ⟨hk.1, rfl⟩]
  have := findLoop_spec (rel := rel) (h := h) (st := st) (k := v.1) (f := f) (X := X) (g := g) (l1 := []) (l2 := v.2) hm
  simpa using this

end Verif.Vec
