import Verif.Map.Store
/-! # Properties C08–C11: the operations of a map, against the specification in `Verif.Map.Spec` -/
set_option linter.unusedSimpArgs false
set_option linter.unusedVariables false
namespace Verif.Map
open Verif Verif.Crt
variable {rel : Prop} {β : Type}

theorem MapR_open {h : Ptr} {m : MapV} : MapR h m = ∃∃ (kp : Nat) (vp : Nat), (m.keys.Nodup) ⋏
    h ↦ [.ptr kp, .ptr vp, .int m.pairs.length, .int m.filter] ∗ Arr kp m.keys ∗ Arr vp m.vals := rfl

theorem MapR_close {h kp vp n f : Nat} {m : MapV} {ks vs : List Text} {P : HProp} (hn : n = m.pairs.length) (hf : f = m.filter)
    (hk : ks = m.keys) (hv : vs = m.vals) (hd : m.keys.Nodup)
    (hP : P ⊢ₕ h ↦ [.ptr kp, .ptr vp, .int n, .int f] ∗ Arr kp ks ∗ Arr vp vs) : P ⊢ₕ MapR h m := by
  subst hn hf hk hv
  exact entails_ex_r kp (entails_ex_r vp (entails_pand_r hP hd))

theorem keys_length (m : MapV) : m.keys.length = m.pairs.length := by simp [MapV.keys]
theorem vals_length (m : MapV) : m.vals.length = m.pairs.length := by simp [MapV.vals]

/-! ## Create -/

/-- C08: a new map is empty and has the given filter. -/
theorem Map_Create_spec {f : Nat} : Triple rel emp (Map_Create f) (Made MapR (¬ rel) (fun m => m.pairs = [] ∧ m.filter = f)) := by
  unfold Map_Create
  refine Triple.mallocS (by omega) (fun hr => ?_) (fun r h => ?_)
  · rw [if_neg (by simp)]; exact Triple.pure (Made_fail hr)
  rw [if_pos h]; hoist
  step (store_spec ?_)
  step (store_spec ?_)
  step (store_spec ?_)
  step (store_spec ?_)
  refine Triple.pure (Made_ok ⟨[], f⟩ h ⟨rfl, rfl⟩ ?_)
  refine MapR_close (n := 0) (f := f) (kp := 0) (vp := 0) rfl rfl rfl rfl (by simp [MapV.keys]) ?_
  simp only [MapV.keys, MapV.vals, List.map_nil, Arr_null]
  sep_cancel

/-! ## Inserting -/

theorem copy_via {A C F : HProp} {src : CharPtr} {t : Text} (R : Reads C src t) (hA : A = (C ∗ F)) {p off : Nat} {b : Block} (h : off < b.length) :
    Triple rel (p ↦ b ∗ A) (mallocAndStrcpy_s p off src)
      (fun r => ∃∃ q : Nat, (if q = 0 then ((r = ENOMEM ∧ ¬ rel) ⋏ emp) else ((r = 0) ⋏ q ↦ bytesV (t ++ [0]))) ∗ p ↦ b.set off (.ptr q) ∗ A) := by
  rw [hA]
  refine ((mallocAndStrcpy_s_reads R h).frame F).conseq (by rw [sep_assoc]; exact entails_refl _) fun r => ?_
  simp only [hex_sep, sep_assoc]
  exact entails_refl _

theorem insert_spec {h : Ptr} {m : MapV} {key value : CharPtr} {k v : Text} {A C1 C2 F1 F2 : HProp} (R1 : Reads C1 key k) (R2 : Reads C2 value v) (h1 : A = (C1 ∗ F1))
    (h2 : A = (C2 ∗ F2)) (hk : k ∉ m.keys) :
    Triple rel (MapR h m ∗ A) (insertNewKeyValue h key value)
      (fun r => ∃∃ m' : MapV, (insertE rel m k v (if r = 0 then .ok else .error) m') ⋏ MapR h m' ∗ A) := by
  unfold insertNewKeyValue
  refine Triple.know (know_via (φ := NoNul k) h1 (by pick) fun _ hp => (R1.know (by pick) _ hp).2.1) fun hnk => ?_
  refine Triple.know (know_via (φ := NoNul v) h2 (by pick) fun _ hp => (R2.know (by pick) _ hp).2.1) fun hnv => ?_
  rw [MapR_open]; hoist; intro kp vp hnd
  step (Increase_spec (h := h) (keys_length m).symm (vals_length m).symm) into r
  by_cases hr : r = 0
  · subst hr
    simp only [if_true]
    rw [if_neg (by simp)]
    hoist; intro kp' vp' kps vps hkl hvl
    step (loadPtr_spec (p := h) ?_)
    step (loadInt_spec (p := h) ?_)
    simp only [Nat.add_sub_cancel]
    step (copy_via R1 h1 (p := kp') (b := kps.map Val.ptr ++ [.ptr 0]) (by simp; omega)) into r
    intro q
    rw [set_end (by simpa using hkl)]
    have dec : ∀ kx, Triple rel (h ↦ [.ptr kp', .ptr vp', .int (m.pairs.length + 1), .int m.filter] ∗ kp' ↦ (kps.map Val.ptr ++ kx) ∗ Own CS kps m.keys ∗ vp' ↦ (vps.map Val.ptr ++ [.ptr 0]) ∗ Own CS vps m.vals)
        (Map_DecreaseStorageKeysValues h) (fun _ => ∃∃ m' : MapV, (m'.pairs = m.pairs ∧ (m'.filter = m.filter ∨ (m.pairs = [] ∧ m'.filter = 0))) ⋏ MapR h m') := by
      intro kx
      refine (Decrease_spec (keys_length m).symm (vals_length m).symm).conseq (entails_refl _) fun _ => ?_
      refine entails_ex_l fun kp2 => entails_ex_l fun vp2 => ?_
      refine entails_ex_r ⟨m.pairs, if m.pairs.length = 0 then 0 else m.filter⟩ (entails_pand_r ?_ ⟨rfl, ?_⟩)
      · exact MapR_close (n := m.pairs.length) rfl rfl rfl rfl hnd (entails_refl _)
      · by_cases he : m.pairs = []
        · right; exact ⟨he, by simp [he]⟩
        · left; simp [List.length_eq_zero_iff, he]
    by_cases hq : q = 0
    · subst hq
      simp only [if_true]; hoist; intro he hrel
      subst he
      rw [if_pos (by simp [ENOMEM])]
      step (dec [.ptr 0])
      intro m' hm hf
      refine Triple.pure (entails_ex_r m' (entails_pand_r (entails_refl _) ?_))
      exact Or.inr ⟨by simp, Or.inl hrel, hm, hf⟩
    · simp only [if_neg hq]; hoist; rintro rfl
      rw [if_neg (by simp)]
      step (loadPtr_spec (p := h) ?_)
      step (loadInt_spec (p := h) ?_)
      simp only [Nat.add_sub_cancel]
      step (copy_via R2 h2 (p := vp') (b := vps.map Val.ptr ++ [.ptr 0]) (by simp; omega)) into r
      intro q2
      rw [set_end (by simpa using hvl)]
      by_cases hq2 : q2 = 0
      · subst hq2
        simp only [if_true]; hoist; intro he hrel
        subst he
        rw [if_pos (by simp [ENOMEM])]
        step (loadPtr_spec (p := h) ?_)
        step (loadInt_spec (p := h) ?_)
        simp only [Nat.add_sub_cancel]
        step (loadPtr_spec (p := kp') (b := kps.map Val.ptr ++ [.ptr q]) (q := q) (by rw [List.getElem?_append_right (by simp; omega)]; simp [hkl]))
        step (free_spec (p := q))
        step (dec [.ptr q])
        intro m' hm hf
        refine Triple.pure (entails_ex_r m' (entails_pand_r (entails_refl _) ?_))
        exact Or.inr ⟨by simp, Or.inl hrel, hm, hf⟩
      · simp only [if_neg hq2]; hoist; rintro rfl
        rw [if_neg (by simp)]
        refine Triple.pure (entails_ex_r (m.append k v) (entails_pand_r ?_ (Or.inl ⟨by simp, rfl⟩)))
        refine entails_trans ?_ (sep_mono (MapR_close (kp := kp') (vp := vp') (n := m.pairs.length + 1) (f := m.filter) (ks := m.keys ++ [k]) (vs := m.vals ++ [v]) (by simp [MapV.append]) rfl (by simp [MapV.keys, MapV.append]) (by simp [MapV.vals, MapV.append]) ?_ (entails_refl _)) (entails_refl _))
        · rw [sep_assoc, sep_assoc]
          refine entails_trans ?_ (sep_mono (entails_refl _) (sep_mono (Arr_intro (ps := kps ++ [q]) (ex := []) (by simp)) (sep_mono (Arr_intro (ps := vps ++ [q2]) (ex := []) (by simp)) (entails_refl _))))
          rw [Own_snoc_eq (by rw [keys_length]; exact hkl), Own_snoc_eq (by rw [vals_length]; exact hvl)]
          simp only [List.map_append, List.map_cons, List.map_nil, List.append_nil]
          rw [bytesV_append, bytesV_append]
          have e1 := CStr_intro (p := q) hnk []
          have e2 := CStr_intro (p := q2) hnv []
          simp only [CS]
          refine entails_trans ?_ (sep_mono (entails_refl _) (sep_mono (sep_mono (entails_refl _) (sep_mono e1 (entails_refl _))) (sep_mono (sep_mono (entails_refl _) (sep_mono e2 (entails_refl _))) (entails_refl _))))
          simp only [bytesV, List.map_cons, List.map_nil]
          sep_cancel
        · have : (m.append k v).keys = m.keys ++ [k] := by simp [MapV.keys, MapV.append]
          rw [this, List.nodup_append]
          refine ⟨hnd, by simp, ?_⟩
          rintro a ha b hb rfl
          simp at hb; subst hb; exact hk ha
  · rw [if_neg hr, if_pos hr]; hoist
    intro kp' hor
    refine Triple.pure (entails_ex_r m (entails_pand_r ?_ (Or.inr ⟨by simp, hor, rfl, Or.inl rfl⟩)))
    refine entails_trans ?_ (sep_mono (MapR_close (kp := kp') (vp := vp) rfl rfl rfl rfl hnd (entails_refl _)) (entails_refl _))
    sep_cancel

/-! ## Filters and the mutators -/

theorem callFilter_spec {flt : Filt} {f : Nat} {key value : CharPtr} {k v : Text} {A C1 C2 F1 F2 : HProp} (R1 : Reads C1 key k) (R2 : Reads C2 value v) (h1 : A = (C1 ∗ F1))
    (h2 : A = (C2 ∗ F2)) : Triple rel A (callFilter flt f key value) (fun r => (r = flt f k v) ⋏ A) := by
  unfold callFilter
  have t1 : Triple rel A (cstr key) (fun r => (r = k) ⋏ A) := by
    rw [h1]; refine (R1.cstr.frame F1).conseq (entails_refl _) fun r => ?_
    rw [pand_sep]; exact entails_refl _
  have t2 : Triple rel A (cstr value) (fun r => (r = v) ⋏ A) := by
    rw [h2]; refine (R2.cstr.frame F2).conseq (entails_refl _) fun r => ?_
    rw [pand_sep]; exact entails_refl _
  step t1
  step t2
  exact Triple.pure (entails_pand_r (entails_refl _) rfl)

theorem rejected_spec {flt : Filt} {h kp vp n f : Nat} {key value : CharPtr} {k v : Text} {A C1 C2 F1 F2 : HProp} (R1 : Reads C1 key k) (R2 : Reads C2 value v) (h1 : A = (C1 ∗ F1))
    (h2 : A = (C2 ∗ F2)) :
    Triple rel (h ↦ [.ptr kp, .ptr vp, .int n, .int f] ∗ A) (rejected flt h key value)
      (fun r => (r = decide (f ≠ 0 ∧ flt f k v ≠ 0)) ⋏ h ↦ [.ptr kp, .ptr vp, .int n, .int f] ∗ A) := by
  unfold rejected
  step (loadInt_spec (p := h) ?_)
  refine Triple.ite (fun hf => ?_) (fun hf => ?_)
  · step (loadInt_spec (p := h) ?_)
    step (callFilter_spec R1 R2 h1 h2)
    refine Triple.pure (entails_pand_r (by sep_cancel) ?_)
    simp [hf]
  · refine Triple.pure (entails_pand_r (by sep_cancel) ?_)
    simp only [ne_eq, Decidable.not_not] at hf; simp [hf]

theorem findKey_via {h kp vp f : Nat} {ks : List Text} {n : Nat} (hn : n = ks.length) {key : CharPtr} {k : Text} {A C1 F1 : HProp} (R1 : Reads C1 key k) (h1 : A = (C1 ∗ F1)) :
    Triple rel (h ↦ [.ptr kp, .ptr vp, .int n, .int f] ∗ Arr kp ks ∗ A) (findKey h key)
      (fun r => (Found ks k r) ⋏ h ↦ [.ptr kp, .ptr vp, .int n, .int f] ∗ Arr kp ks ∗ A) := by
  rw [h1]
  refine ((findKey_reads hn R1).frame F1).conseq (by simp only [sep_assoc]; exact entails_refl _) fun r => ?_
  rw [pand_sep, sep_assoc, sep_assoc]; exact entails_refl _

theorem ArgReads.know {C : HProp} {s : CharPtr} {o : Option Text} (R : ArgReads C s o) {P F : HProp} (pk : Pick P C F) :
    ∀ h, P h → (s = .null ↔ o = none) := by
  cases o with
  | none => exact know_Arg (s := s) (o := none) (R ▸ pk)
  | some t =>
    intro h hp
    have := (Reads.know (show Reads C s t from R) pk h hp).1
    simp [this]

/-- arguments, one of them or the handle NULL -/
theorem null_args {h : Ptr} {a : Option MapV} {A : HProp} {key value : CharPtr} {ok ov : Option Text} (hA : Args2 A key ok value ov)
    {P R : HProp} (pk : P = (OMap h a ∗ A)) : ∀ hp, P hp → (h = 0 ∨ key = .null ∨ value = .null ↔ a = none ∨ ok = none ∨ ov = none) := by
  obtain ⟨⟨C1, F1, R1, h1⟩, ⟨C2, F2, R2, h2⟩⟩ := hA
  intro hp hP
  rw [pk] at hP
  have k1 := know_via (φ := (key = .null ↔ ok = none)) h1 (Pick.tailLast (B := OMap h a)) (fun _ hh => ArgReads.know R1 (by pick) _ hh) _ hP
  have k2 := know_via (φ := (value = .null ↔ ov = none)) h2 (Pick.tailLast (B := OMap h a)) (fun _ hh => ArgReads.know R2 (by pick) _ hh) _ hP
  have k3 : h = 0 ↔ a = none := by
    cases a with
    | none =>
      obtain ⟨x, y, _, _, ⟨h3, _⟩, _⟩ := hP
      simp [h3]
    | some m =>
      have := (know_MapR (h := h) (m := m) (P := MapR h m ∗ A) (by pick) _ hP).1
      simp [this]
  rw [k1, k2, k3]

/-- C08, C10: `Map_Add`. -/
theorem Map_Add_spec {flt : Filt} {h : Ptr} {a : Option MapV} {key value : CharPtr} {ok ov : Option Text} {A : HProp}
    (hA : Args2 A key ok value ov) :
    Triple rel (OMap h a ∗ A) (Map_Add flt h key value)
      (fun r => ∃∃ a' : Option MapV, (AddE flt rel a ok ov r a') ⋏ OMap h a' ∗ A) := by
  unfold Map_Add
  refine Triple.know (null_args (R := emp) hA rfl) fun hn => ?_
  refine Triple.ite (fun hc => ?_) (fun hc => ?_)
  · refine Triple.pure (entails_ex_r a (entails_pand_r (entails_refl _) ?_))
    rw [hn] at hc
    unfold AddE
    cases a <;> cases ok <;> cases ov <;> simp_all
  rw [hn] at hc
  simp only [not_or] at hc
  obtain ⟨m, rfl⟩ := Option.ne_none_iff_exists'.1 hc.1
  obtain ⟨k, rfl⟩ := Option.ne_none_iff_exists'.1 hc.2.1
  obtain ⟨v, rfl⟩ := Option.ne_none_iff_exists'.1 hc.2.2
  obtain ⟨⟨C1, F1, R1, h1⟩, ⟨C2, F2, R2, h2⟩⟩ := hA
  have R1 : Reads C1 key k := R1
  have R2 : Reads C2 value v := R2
  simp only [OMap, ORep_some]
  rw [MapR_open]; hoist; intro kp vp hnd
  step (findKey_via (h := h) (keys_length m).symm R1 h1) into w
  intro hw
  have back : h ↦ [.ptr kp, .ptr vp, .int m.pairs.length, .int m.filter] ∗ Arr kp m.keys ∗ Arr vp m.vals ⊢ₕ MapR h m :=
    MapR_close rfl rfl rfl rfl hnd (entails_refl _)
  cases w with
  | some j =>
    rw [if_pos (by simp)]
    refine Triple.pure (entails_ex_r (some m) (entails_pand_r ?_ ?_))
    · refine entails_trans ?_ (sep_mono back (entails_refl _)); sep_cancel
    · have : k ∈ m.keys := List.mem_of_getElem? hw
      simp [AddE, this]
  | none =>
    have hk : k ∉ m.keys := hw
    rw [if_neg (by simp)]
    step (rejected_spec (h := h) R1 R2 h1 h2)
    refine Triple.ite (fun hr => ?_) (fun hr => ?_)
    · simp only [decide_eq_true_eq] at hr
      refine Triple.pure (entails_ex_r (some m) (entails_pand_r ?_ ?_))
      · refine entails_trans ?_ (sep_mono back (entails_refl _)); sep_cancel
      · simp only [AddE, hk, if_false]; exact Or.inl ⟨hr, trivial, trivial⟩
    · simp only [decide_eq_true_eq] at hr
      refine Triple.pre (P' := MapR h m ∗ A) ?_ (by refine entails_trans ?_ (sep_mono back (entails_refl _)); sep_cancel)
      step (insert_spec R1 R2 h1 h2 hk) into r
      intro m' hm'
      refine Triple.ite (fun h0 => ?_) (fun h0 => ?_)
      · rw [if_neg h0] at hm'
        refine Triple.pure (entails_ex_r (some m') (entails_pand_r (entails_refl _) ?_))
        simp only [AddE, hk, if_false]; right; exact ⟨hr, m', rfl, hm'⟩
      · simp only [ne_eq, Decidable.not_not] at h0
        rw [if_pos h0] at hm'
        refine Triple.pure (entails_ex_r (some m') (entails_pand_r (entails_refl _) ?_))
        simp only [AddE, hk, if_false]; right; exact ⟨hr, m', rfl, hm'⟩

theorem pairs_get {m : MapV} {j : Nat} {k : Text} (h : m.keys[j]? = some k) : ∃ v, m.pairs[j]? = some (k, v) ∧ m.vals[j]? = some v := by
  simp only [MapV.keys, MapV.vals, List.getElem?_map] at *
  cases hp : m.pairs[j]? with
  | none => simp [hp] at h
  | some p => simp [hp] at h ⊢; subst h; rfl

theorem update_eq {l : List (Text × Text)} {j : Nat} {k v w : Text} (hn : (l.map Prod.fst).Nodup) (h : l[j]? = some (k, w)) :
    l.map (fun p => if p.1 = k then (k, v) else p) = l.set j (k, v) := by
  induction l generalizing j with
  | nil => simp at h
  | cons p l ih =>
    simp only [List.map_cons, List.nodup_cons] at hn
    cases j with
    | zero =>
      simp at h; subst h
      simp only [List.map_cons, if_true, List.set_cons_zero, List.cons.injEq, true_and]
      conv => rhs; rw [← List.map_id l]
      apply List.map_congr_left
      intro q hq
      rw [if_neg]; · rfl
      rintro rfl
      exact hn.1 (by rw [List.mem_map]; exact ⟨q, hq, rfl⟩)
    | succ j =>
      simp at h
      rw [List.map_cons, List.set_cons_succ, ih hn.2 h, if_neg]
      rintro rfl
      exact hn.1 (by rw [List.mem_map]; exact ⟨_, List.mem_of_getElem? h, rfl⟩)

theorem remove_eq {l : List (Text × Text)} {j : Nat} {k w : Text} (hn : (l.map Prod.fst).Nodup) (h : l[j]? = some (k, w)) :
    l.filter (fun p => p.1 ≠ k) = l.eraseIdx j := by
  induction l generalizing j with
  | nil => simp at h
  | cons p l ih =>
    simp only [List.map_cons, List.nodup_cons] at hn
    cases j with
    | zero =>
      simp at h; subst h
      rw [List.eraseIdx_zero, List.tail_cons, List.filter_cons_of_neg (by simp), List.filter_eq_self]
      intro q hq
      simp only [ne_eq, decide_eq_true_eq]
      rintro rfl
      exact hn.1 (by rw [List.mem_map]; exact ⟨q, hq, rfl⟩)
    | succ j =>
      simp at h
      rw [List.eraseIdx_cons_succ, List.filter_cons_of_pos, ih hn.2 h]
      simp only [ne_eq, decide_eq_true_eq]
      rintro rfl
      exact hn.1 (by rw [List.mem_map]; exact ⟨_, List.mem_of_getElem? h, rfl⟩)

/-- C08, C10: `Map_AddOrUpdate`. -/
theorem Map_AddOrUpdate_spec {flt : Filt} {h : Ptr} {a : Option MapV} {key value : CharPtr} {ok ov : Option Text} {A : HProp}
    (hA : Args2 A key ok value ov) :
    Triple rel (OMap h a ∗ A) (Map_AddOrUpdate flt h key value)
      (fun r => ∃∃ a' : Option MapV, (UpdateE flt rel a ok ov r a') ⋏ OMap h a' ∗ A) := by
  unfold Map_AddOrUpdate
  refine Triple.know (null_args (R := emp) hA rfl) fun hn => ?_
  refine Triple.ite (fun hc => ?_) (fun hc => ?_)
  · refine Triple.pure (entails_ex_r a (entails_pand_r (entails_refl _) ?_))
    rw [hn] at hc
    unfold UpdateE
    cases a <;> cases ok <;> cases ov <;> simp_all
  rw [hn] at hc
  simp only [not_or] at hc
  obtain ⟨m, rfl⟩ := Option.ne_none_iff_exists'.1 hc.1
  obtain ⟨k, rfl⟩ := Option.ne_none_iff_exists'.1 hc.2.1
  obtain ⟨v, rfl⟩ := Option.ne_none_iff_exists'.1 hc.2.2
  obtain ⟨⟨C1, F1, R1, h1⟩, ⟨C2, F2, R2, h2⟩⟩ := hA
  have R1 : Reads C1 key k := R1
  have R2 : Reads C2 value v := R2
  simp only [OMap, ORep_some]
  refine Triple.know (know_via (φ := NoNul v ∧ v.length < maxObj) h2 (by pick) fun _ hp => (R2.know (by pick) _ hp).2) fun hnv => ?_
  rw [MapR_open]; hoist; intro kp vp hnd
  have back : h ↦ [.ptr kp, .ptr vp, .int m.pairs.length, .int m.filter] ∗ Arr kp m.keys ∗ Arr vp m.vals ⊢ₕ MapR h m :=
    MapR_close rfl rfl rfl rfl hnd (entails_refl _)
  step (rejected_spec (h := h) R1 R2 h1 h2)
  refine Triple.ite (fun hr => ?_) (fun hr => ?_)
  · simp only [decide_eq_true_eq] at hr
    refine Triple.pure (entails_ex_r (some m) (entails_pand_r ?_ ?_))
    · refine entails_trans ?_ (sep_mono back (entails_refl _)); sep_cancel
    · exact Or.inl ⟨hr, rfl, rfl⟩
  simp only [decide_eq_true_eq] at hr
  step (findKey_via (h := h) (keys_length m).symm R1 h1) into w
  intro hw
  cases w with
  | none =>
    have hk : k ∉ m.keys := hw
    dsimp only
    refine Triple.pre (P' := MapR h m ∗ A) ?_ (by refine entails_trans ?_ (sep_mono back (entails_refl _)); sep_cancel)
    step (insert_spec R1 R2 h1 h2 hk) into r
    intro m' hm'
    refine Triple.ite (fun h0 => ?_) (fun h0 => ?_)
    · rw [if_neg h0] at hm'
      refine Triple.pure (entails_ex_r (some m') (entails_pand_r (entails_refl _) ?_))
      exact Or.inr ⟨hr, Or.inl ⟨hk, m', rfl, hm'⟩⟩
    · simp only [ne_eq, Decidable.not_not] at h0
      rw [if_pos h0] at hm'
      refine Triple.pure (entails_ex_r (some m') (entails_pand_r (entails_refl _) ?_))
      exact Or.inr ⟨hr, Or.inl ⟨hk, m', rfl, hm'⟩⟩
  | some j =>
    dsimp only
    have hj : m.keys[j]? = some k := hw
    have hk : k ∈ m.keys := List.mem_of_getElem? hj
    obtain ⟨w, hp, hwv⟩ := pairs_get hj
    have hvs : m.vals ≠ [] := by intro h; rw [h] at hwv; simp at hwv
    have ts : Triple rel A (strlen value) (fun r => (r = v.length) ⋏ A) := by
      rw [h2]; refine (R2.strlen.frame F2).conseq (entails_refl _) fun r => ?_
      rw [pand_sep]; exact entails_refl _
    step ts
    rw [Arr_ne hvs, Vec]; hoist; intro vps vx
    refine Triple.know (know_Own (env := vps) (as := m.vals) (R := CS) (by pick)) fun hvl => ?_
    have hjl : j < m.vals.length := (List.getElem?_eq_some_iff.1 hwv).1
    obtain ⟨q, hq⟩ := get_of_lt (l := vps) (i := j) (by omega)
    obtain ⟨w', F, hw', e1, e2⟩ := Own_get (R := CS) hq hvl
    rw [hwv] at hw'; cases hw'
    step (loadPtr_spec (p := h) ?_)
    step (loadPtr_spec (p := vp) (arr_get hq))
    simp only [e1, CS, CStr_heap0]; hoist; intro ob hob
    refine Triple.realloc (p := q) (n := v.length + 1) (by omega) (by pick) (fun hrr => ?_) (fun q2 hq2 _ => ?_)
    · rw [if_pos rfl]
      refine Triple.pure (entails_ex_r (some m) (entails_pand_r ?_ ?_))
      · refine entails_trans ?_ (sep_mono back (entails_refl _))
        rw [Arr_ne hvs, Vec]
        simp only [hex_sep, sep_hex, sep_assoc]
        refine entails_ex_r vps (entails_ex_r vx ?_)
        rw [e1]
        have : q ↦ ob ⊢ₕ CS q w := by simp only [CS, CStr_heap0]; exact entails_ex_r ob (entails_pand_r (entails_refl _) hob)
        simp only [sep_assoc]
        refine entails_trans ?_ (sep_mono (entails_refl _) (sep_mono (entails_refl _) (sep_mono (entails_refl _) (sep_mono this (entails_refl _)))))
        sep_cancel
      · refine Or.inr ⟨hr, Or.inr ⟨hk, Or.inr ⟨rfl, hrr.resolve_right (by omega), rfl⟩⟩⟩
    · rw [if_neg hq2]
      have tm : ∀ b : Block, b.length = v.length + 1 → Triple rel (q2 ↦ b ∗ A) (memcpy q2 0 value (v.length + 1)) (fun _ => q2 ↦ bytesV (v ++ [0]) ∗ A) := by
        intro b hb
        rw [h2]
        refine ((R2.memcpy (dst := q2) (off := 0) (b := b) (Nat.le_refl _) (by omega)).frame F2).conseq (by rw [sep_assoc]; exact entails_refl _) fun _ => ?_
        rw [sep_assoc, List.take_of_length_le (by simp), patch_full (by simp [bytesV, hb])]
        exact entails_refl _
      step (tm (ob.take (v.length + 1) ++ List.replicate (v.length + 1 - ob.length) .undef) (by simp; omega))
      step (loadPtr_spec (p := h) ?_)
      step (store_spec (p := vp) (b := vps.map Val.ptr ++ vx) (by simp; omega))
      refine Triple.pure (entails_ex_r (some (m.update k v)) (entails_pand_r ?_ ?_))
      · have hup : (m.update k v).pairs = m.pairs.set j (k, v) := update_eq hnd hp
        have hk' : m.keys = (m.update k v).keys := by
          simp only [MapV.keys, hup, List.map_set]
          rw [set_self]; exact hj
        have hv' : m.vals.set j v = (m.update k v).vals := by
          simp only [MapV.vals, hup, List.map_set]
        refine entails_trans ?_ (sep_mono (MapR_close (kp := kp) (vp := vp) (n := m.pairs.length) (f := m.filter) (ks := m.keys) (vs := m.vals.set j v) (by rw [hup]; simp) rfl hk' hv' (hk' ▸ hnd) (entails_refl _)) (entails_refl _))
        rw [sep_assoc, sep_assoc]
        refine entails_trans ?_ (sep_mono (entails_refl _) (sep_mono (entails_refl _) (sep_mono (Arr_intro (ps := vps.set j q2) (ex := vx) (by simpa using hvs)) (entails_refl _))))
        rw [e2, List.set_append_left _ _ (by simp; omega), List.map_set, bytesV_append]
        have ei := CStr_intro (p := q2) hnv.1 []
        refine entails_trans ?_ (sep_mono (entails_refl _) (sep_mono (entails_refl _) (sep_mono (sep_mono (entails_refl _) (sep_mono ei (entails_refl _))) (entails_refl _))))
        simp only [bytesV, List.map_cons, List.map_nil]
        sep_cancel
      · exact Or.inr ⟨hr, Or.inr ⟨hk, Or.inl ⟨rfl, rfl⟩⟩⟩

end Verif.Map
