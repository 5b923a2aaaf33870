import Verif.Map.Props
/-! # Properties C08–C11: deletion, queries, cloning, destruction -/
set_option linter.unusedSimpArgs false
set_option linter.unusedVariables false
namespace Verif.Map
open Verif Verif.Crt
variable {rel : Prop} {β : Type}

theorem memmove_spec {p : Ptr} {b : Block} {d s n : Nat} (h1 : s + n ≤ b.length) (h2 : d + n ≤ b.length) :
    Triple rel (p ↦ b) (memmove p d s n) (fun _ => p ↦ patch b d ((b.drop s).take n)) := by
  unfold memmove
  step (loadN_spec h1)
  have e : ((b.drop s).take n).length = n := by simp; omega
  last (storeN_spec' (b := b) (off := d) (vs := (b.drop s).take n) (by rw [e]; exact h2))
  rw [sep_emp]; exact entails_refl _

theorem map_erase {α β} {f : α → β} {l : List α} {j : Nat} : (l.map f).eraseIdx j = (l.eraseIdx j).map f := by
  rw [List.eraseIdx_eq_take_drop_succ, List.eraseIdx_eq_take_drop_succ]; simp

theorem erase_block {α} {ps : List α} {ex : List α} {j n : Nat} (hj : j < ps.length) (hn : n = ps.length) :
    ∃ ex', (ps ++ ex).take j ++ ((ps ++ ex).drop (j + 1)).take (n - j - 1) ++ (ps ++ ex).drop (j + (((ps ++ ex).drop (j + 1)).take (n - j - 1)).length)
      = ps.eraseIdx j ++ ex' := by
  refine ⟨(ps ++ ex).drop (j + (((ps ++ ex).drop (j + 1)).take (n - j - 1)).length), ?_⟩
  congr 1
  rw [List.eraseIdx_eq_take_drop_succ, List.take_append_of_le_length (by omega), List.drop_append_of_le_length (by omega),
    List.take_append_of_le_length (by simp; omega), List.take_of_length_le (l := ps.drop (j + 1)) (by simp; omega)]

/-- removing one element from an array of owned strings, after its string has been freed -/
theorem remove_spec {p : Ptr} {ps : List Nat} {ex : List Val} {j n : Nat} (hj : j < ps.length) (hn : n = ps.length) :
    Triple rel (p ↦ (ps.map Val.ptr ++ ex)) (memmove p j (j + 1) (n - j - 1))
      (fun _ => ∃∃ ex' : List Val, p ↦ ((ps.eraseIdx j).map Val.ptr ++ ex')) := by
  refine (memmove_spec (by simp; omega) (by simp; omega)).conseq (entails_refl _) fun _ => ?_
  obtain ⟨ex', e⟩ := erase_block (ps := ps.map Val.ptr) (ex := ex) (j := j) (n := n) (by simpa using hj) (by simpa using hn)
  refine entails_ex_r ex' ?_
  rw [← map_erase, ← e]
  exact entails_refl _

/-- handle or key NULL -/
theorem null_reads1 {h : Ptr} {a : Option MapV} {key : CharPtr} {ok : Option Text} {C : HProp} (R : ArgReads C key ok) :
    ∀ hp, (OMap h a ∗ C) hp → (h = 0 ∨ key = .null ↔ a = none ∨ ok = none) := by
  intro hp hP
  have := null_args (R := emp) (A := C) (key := key) (value := key) (ok := ok) (ov := ok)
    ⟨⟨C, emp, R, (sep_emp _).symm⟩, ⟨C, emp, R, (sep_emp _).symm⟩⟩ rfl hp hP
  rw [or_self, or_self] at this; exact this

theorem null_args1 {h : Ptr} {a : Option MapV} {key : CharPtr} {ok : Option Text} :
    ∀ hp, (OMap h a ∗ Arg key ok) hp → (h = 0 ∨ key = .null ↔ a = none ∨ ok = none) := null_reads1 Arg_reads

/-- C08: `Map_Delete`. -/
theorem Map_Delete_spec {h : Ptr} {a : Option MapV} {key : CharPtr} {ok : Option Text} :
    Triple rel (OMap h a ∗ Arg key ok) (Map_Delete h key)
      (fun r => ∃∃ a' : Option MapV, (DeleteE a ok r a') ⋏ OMap h a' ∗ Arg key ok) := by
  unfold Map_Delete
  refine Triple.know null_args1 fun hn => ?_
  refine Triple.ite (fun hc => ?_) (fun hc => ?_)
  · refine Triple.pure (entails_ex_r a (entails_pand_r (entails_refl _) ?_))
    rw [hn] at hc
    unfold DeleteE
    cases a <;> cases ok <;> simp_all
  rw [hn] at hc
  simp only [not_or] at hc
  obtain ⟨m, rfl⟩ := Option.ne_none_iff_exists'.1 hc.1
  obtain ⟨k, rfl⟩ := Option.ne_none_iff_exists'.1 hc.2
  simp only [OMap, ORep_some, Arg_some]
  rw [MapR_open]; hoist; intro kp vp hnd
  step (findKey_spec (h := h) (keys_length m).symm) into w
  intro hw
  cases w with
  | none =>
    have hk : k ∉ m.keys := hw
    dsimp only
    refine Triple.pure (entails_ex_r (some m) (entails_pand_r ?_ (by simp [DeleteE, hk])))
    refine entails_trans ?_ (sep_mono (MapR_close (kp := kp) (vp := vp) rfl rfl rfl rfl hnd (entails_refl _)) (entails_refl _))
    sep_cancel
  | some j =>
    dsimp only
    have hj : m.keys[j]? = some k := hw
    have hk : k ∈ m.keys := List.mem_of_getElem? hj
    obtain ⟨v, hp, hv⟩ := pairs_get hj
    have hks : m.keys ≠ [] := by intro h; rw [h] at hj; simp at hj
    have hvs : m.vals ≠ [] := by intro h; rw [h] at hv; simp at hv
    rw [Arr_ne hks, Arr_ne hvs]
    simp only [Vec]; hoist; intro vps vx kps kx
    refine Triple.know (know_Own (env := vps) (as := m.vals) (R := CS) (by pick)) fun hvl => ?_
    refine Triple.know (know_Own (env := kps) (as := m.keys) (R := CS) (by pick)) fun hkl => ?_
    have hjp : j < m.pairs.length := (List.getElem?_eq_some_iff.1 hp).1
    have kl := keys_length m
    have vl := vals_length m
    obtain ⟨q, hq⟩ := get_of_lt (l := kps) (i := j) (by omega)
    obtain ⟨q2, hq2⟩ := get_of_lt (l := vps) (i := j) (by omega)
    have e1 := Own_erase (R := CS) hq hj
    have e2 := Own_erase (R := CS) hq2 hv
    step (loadPtr_spec (p := h) ?_)
    step (loadPtr_spec (p := kp) (arr_get hq))
    rw [e1, e2]; simp only [sep_assoc]
    step (free_CS (p := q))
    step (loadPtr_spec (p := h) ?_)
    step (loadPtr_spec (p := vp) (arr_get hq2))
    step (free_CS (p := q2))
    step (loadInt_spec (p := h) ?_)
    step (loadPtr_spec (p := h) ?_)
    step (remove_spec (p := kp) (ps := kps) (ex := kx) (j := j) (by omega) (by omega))
    intro kx'
    step (loadPtr_spec (p := h) ?_)
    step (remove_spec (p := vp) (ps := vps) (ex := vx) (j := j) (by omega) (by omega))
    intro vx'
    have hlen : m.pairs.length = (m.pairs.length - 1) + 1 := by omega
    have hrem : (m.pairs.filter fun p => p.1 ≠ k) = m.pairs.eraseIdx j := remove_eq hnd hp
    have hrp : (m.remove k).pairs = m.pairs.eraseIdx j := hrem
    have hrk : m.keys.eraseIdx j = (m.remove k).keys := by simp only [MapV.keys, hrp, map_erase]
    have hrv : m.vals.eraseIdx j = (m.remove k).vals := by simp only [MapV.vals, hrp, map_erase]
    have hrl : (m.pairs.eraseIdx j).length = m.pairs.length - 1 := List.length_eraseIdx_of_lt hjp
    rw [show (Val.int m.pairs.length) = .int ((m.pairs.length - 1) + 1) by rw [← hlen]]
    step (Decrease_spec (h := h) (n := m.pairs.length - 1) (ks := m.keys.eraseIdx j) (vs := m.vals.eraseIdx j)
      (kps := kps.eraseIdx j) (vps := vps.eraseIdx j) (kx := kx') (vx := vx') (by rw [List.length_eraseIdx_of_lt (by omega), kl]) (by rw [List.length_eraseIdx_of_lt (by omega), vl]))
    intro kp' vp'
    refine Triple.pure (entails_ex_r (some (m.remove k)) (entails_pand_r ?_ (by simp [DeleteE, hk])))
    refine entails_trans ?_ (sep_mono (MapR_close (kp := kp') (vp := vp') (n := m.pairs.length - 1) (f := if m.pairs.length - 1 = 0 then 0 else m.filter) (by rw [hrp, hrl]) ?_ hrk hrv (hrk ▸ hnd.sublist (List.eraseIdx_sublist _ _)) (entails_refl _)) (entails_refl _))
    · sep_cancel
    unfold MapV.remove
    simp only [hrem, ← List.length_eq_zero_iff, hrl]

/-! ## Queries -/

/-- C08: `Map_ContainsKey`. -/
theorem Map_ContainsKey_spec {h : Ptr} {a : Option MapV} {key : CharPtr} {ok : Option Text} {out : Bool} :
    Triple rel (OMap h a ∗ Arg key ok) (Map_ContainsKey h key out)
      (fun r => (match a, ok, out with
        | some m, some k, true => r = (.ok, some (decide (k ∈ m.keys)))
        | _, _, _ => r = (.invalidArg, none)) ⋏ OMap h a ∗ Arg key ok) := by
  unfold Map_ContainsKey
  refine Triple.know null_args1 fun hn => ?_
  have hn' : (h = 0 ∨ key = .null ∨ out = false ↔ (a = none ∨ ok = none) ∨ out = false) := by rw [← hn]; exact or_assoc.symm
  refine Triple.ite (fun hc => ?_) (fun hc => ?_) <;> rw [hn'] at hc
  · refine Triple.pure (entails_pand_r (entails_refl _) ?_)
    cases a <;> cases ok <;> cases out <;> simp_all
  · simp only [not_or] at hc
    obtain ⟨m, rfl⟩ := Option.ne_none_iff_exists'.1 hc.1.1
    obtain ⟨k, rfl⟩ := Option.ne_none_iff_exists'.1 hc.1.2
    have ho : out = true := by simpa using hc.2
    subst ho
    simp only [OMap, ORep_some, Arg_some]
    rw [MapR_open]; hoist; intro kp vp hnd
    step (findKey_spec (h := h) (keys_length m).symm) into w
    intro hw
    refine Triple.pure (entails_pand_r ?_ ?_)
    · refine entails_trans ?_ (sep_mono (MapR_close (kp := kp) (vp := vp) rfl rfl rfl rfl hnd (entails_refl _)) (entails_refl _))
      sep_cancel
    · cases w with
      | none => simpa [Found] using hw
      | some j => simpa using List.mem_of_getElem? hw

/-- C08: `Map_ContainsValue`. -/
theorem Map_ContainsValue_spec {h : Ptr} {a : Option MapV} {value : CharPtr} {ov : Option Text} {out : Bool} :
    Triple rel (OMap h a ∗ Arg value ov) (Map_ContainsValue h value out)
      (fun r => (match a, ov, out with
        | some m, some v, true => r = (.ok, some (decide (v ∈ m.vals)))
        | _, _, _ => r = (.invalidArg, none)) ⋏ OMap h a ∗ Arg value ov) := by
  unfold Map_ContainsValue
  refine Triple.know null_args1 fun hn => ?_
  have hn' : (h = 0 ∨ value = .null ∨ out = false ↔ (a = none ∨ ov = none) ∨ out = false) := by rw [← hn]; exact or_assoc.symm
  refine Triple.ite (fun hc => ?_) (fun hc => ?_) <;> rw [hn'] at hc
  · refine Triple.pure (entails_pand_r (entails_refl _) ?_)
    cases a <;> cases ov <;> cases out <;> simp_all
  · simp only [not_or] at hc
    obtain ⟨m, rfl⟩ := Option.ne_none_iff_exists'.1 hc.1.1
    obtain ⟨k, rfl⟩ := Option.ne_none_iff_exists'.1 hc.1.2
    have ho : out = true := by simpa using hc.2
    subst ho
    simp only [OMap, ORep_some, Arg_some]
    rw [MapR_open]; hoist; intro kp vp hnd
    step (findValue_spec (h := h) (vals_length m).symm) into w
    intro hw
    refine Triple.pure (entails_pand_r ?_ ?_)
    · refine entails_trans ?_ (sep_mono (MapR_close (kp := kp) (vp := vp) rfl rfl rfl rfl hnd (entails_refl _)) (entails_refl _))
      sep_cancel
    · cases w with
      | none => simpa [Found] using hw
      | some j => simpa using List.mem_of_getElem? hw

/-- What `Map_GetValueFromKey` lets the caller see: NULL when there is no such key (or an argument is NULL), else a pointer to
the text of the value, inside the map. -/
def ValueAt (h : Ptr) (a : Option MapV) (ok : Option Text) (r : Ptr) : HProp :=
  if r = 0 then ((∀ m k, a = some m → ok = some k → k ∉ m.keys) ⋏ OMap h a)
  else ∃∃ (v : Text) (F : HProp), (∃ m k, a = some m ∧ ok = some k ∧ (k, v) ∈ m.pairs ∧ (CS r v ∗ F ⊢ₕ MapR h m)) ⋏ CS r v ∗ F

theorem ValueAt_back {h : Ptr} {a : Option MapV} {ok : Option Text} {r : Ptr} : ValueAt h a ok r ⊢ₕ OMap h a := by
  unfold ValueAt
  split
  · exact entails_pand_l fun _ => entails_refl _
  · refine entails_ex_l fun v => entails_ex_l fun F => entails_pand_l ?_
    rintro ⟨m, k, rfl, rfl, h1, h2⟩
    exact h2

/-- C08: `Map_GetValueFromKey`, for a key in any memory it can be read from. -/
theorem Map_GetValueFromKey_reads {h : Ptr} {a : Option MapV} {key : CharPtr} {ok : Option Text} {C : HProp} (R : ArgReads C key ok) :
    Triple rel (OMap h a ∗ C) (Map_GetValueFromKey h key) (fun r => ValueAt h a ok r ∗ C) := by
  unfold Map_GetValueFromKey
  refine Triple.know (null_reads1 R) fun hn => ?_
  refine Triple.ite (fun hc => ?_) (fun hc => ?_)
  · rw [hn] at hc
    refine Triple.pure ?_
    rw [ValueAt, if_pos rfl, pand_sep]
    refine entails_pand_r (entails_refl _) ?_
    rintro m k rfl rfl; simp at hc
  rw [hn] at hc
  simp only [not_or] at hc
  obtain ⟨m, rfl⟩ := Option.ne_none_iff_exists'.1 hc.1
  obtain ⟨k, rfl⟩ := Option.ne_none_iff_exists'.1 hc.2
  have R : Reads C key k := R
  simp only [OMap, ORep_some]
  rw [MapR_open]; hoist; intro kp vp hnd
  step (findKey_reads (h := h) (keys_length m).symm R) into w
  intro hw
  cases w with
  | none =>
    have hk : k ∉ m.keys := hw
    dsimp only
    refine Triple.pure ?_
    rw [ValueAt, if_pos rfl, pand_sep]
    refine entails_pand_r ?_ (by rintro m' k' h1 h2; cases h1; cases h2; exact hk)
    refine entails_trans ?_ (sep_mono (MapR_close (kp := kp) (vp := vp) rfl rfl rfl rfl hnd (entails_refl _)) (entails_refl _))
    sep_cancel
  | some j =>
    dsimp only
    have hj : m.keys[j]? = some k := hw
    obtain ⟨v, hp, hv⟩ := pairs_get hj
    have hvs : m.vals ≠ [] := by intro h; rw [h] at hv; simp at hv
    rw [Arr_ne hvs]
    simp only [Vec]; hoist; intro vps vx
    refine Triple.know (know_Own (env := vps) (as := m.vals) (R := CS) (by pick)) fun hvl => ?_
    have hjl := (List.getElem?_eq_some_iff.1 hv).1
    obtain ⟨q, hq⟩ := get_of_lt (l := vps) (i := j) (by omega)
    have e2 := Own_erase (R := CS) hq hv
    step (loadPtr_spec (p := h) ?_)
    refine Triple.know (φ := q ≠ 0) (fun hh hP => by
      rw [e2] at hP
      exact know_heap0 (p := q) (t := v) (by pick) _ hP) fun hq0 => ?_
    last (loadPtr_spec (p := vp) (arr_get hq))
    rename_i r
    rw [pand_sep]
    refine entails_pand_l ?_
    rintro rfl
    rw [ValueAt, if_neg hq0]
    simp only [hex_sep, pand_sep]
    refine entails_ex_r v (entails_ex_r (h ↦ [.ptr kp, .ptr vp, .int m.pairs.length, .int m.filter] ∗ Arr kp m.keys ∗ vp ↦ (vps.map Val.ptr ++ vx) ∗ Own CS (vps.eraseIdx j) (m.vals.eraseIdx j)) (entails_pand_r ?_ ⟨m, k, rfl, rfl, List.mem_of_getElem? hp, ?_⟩))
    · rw [e2]; sep_cancel
    · refine MapR_close (kp := kp) (vp := vp) rfl rfl rfl rfl hnd ?_
      refine entails_trans ?_ (sep_mono (entails_refl _) (sep_mono (entails_refl _) (Arr_intro (ps := vps) (ex := vx) hvs)))
      rw [e2]; sep_cancel

/-- C08: `Map_GetValueFromKey`. -/
theorem Map_GetValueFromKey_spec {h : Ptr} {a : Option MapV} {key : CharPtr} {ok : Option Text} :
    Triple rel (OMap h a ∗ Arg key ok) (Map_GetValueFromKey h key) (fun r => ValueAt h a ok r ∗ Arg key ok) :=
  Map_GetValueFromKey_reads Arg_reads

/-- What `Map_GetInternals` lets the caller see: the arrays of keys and values, and their length. -/
def InternalsAt (h : Ptr) (a : Option MapV) (out : Bool) (r : MapResult × Option (Nat × Nat × Nat)) : HProp :=
  match r with
  | (.ok, some (kp, vp, n)) => ∃∃ m : MapV, (a = some m ∧ out = true ∧ n = m.pairs.length ∧ m.keys.Nodup) ⋏
      h ↦ [.ptr kp, .ptr vp, .int m.pairs.length, .int m.filter] ∗ Arr kp m.keys ∗ Arr vp m.vals
  | (.invalidArg, none) => (a = none ∨ out = false) ⋏ OMap h a
  | _ => False ⋏ emp

/-- C08: `Map_GetInternals` gives the arrays, in insertion order. -/
theorem Map_GetInternals_spec {h : Ptr} {a : Option MapV} {out : Bool} :
    Triple rel (OMap h a) (Map_GetInternals h out) (fun r => InternalsAt h a out r) := by
  unfold Map_GetInternals
  cases a with
  | none =>
    simp only [OMap, ORep_none]; hoist; rintro rfl
    rw [if_pos (Or.inl rfl)]
    exact Triple.pure (entails_pand_r (entails_pand_r (entails_refl _) rfl) (Or.inl rfl))
  | some m =>
    simp only [OMap, ORep_some]
    refine Triple.know (know_MapR (h := h) (by pick)) fun hk => ?_
    cases out with
    | false =>
      rw [if_pos (Or.inr rfl)]
      exact Triple.pure (entails_pand_r (entails_refl _) (Or.inr rfl))
    | true =>
      rw [if_neg (by simp [hk.1])]
      rw [MapR_open]; hoist; intro kp vp hnd
      step (loadPtr_spec (p := h) ?_)
      step (loadPtr_spec (p := h) ?_)
      step (loadInt_spec (p := h) ?_)
      refine Triple.pure (entails_ex_r m (entails_pand_r (entails_refl _) ⟨rfl, rfl, rfl, hnd⟩))

/-! ## Clone -/

theorem freeLoop_spec {p : Ptr} {ps : List Nat} {ex : List Val} {ts : List Text} (hl : ps.length = ts.length) :
    ∀ fuel j, j + fuel = ps.length →
    Triple rel (p ↦ (ps.map Val.ptr ++ ex) ∗ Own CS (ps.drop j) (ts.drop j)) (freeLoop p fuel j) (fun _ => p ↦ (ps.map Val.ptr ++ ex)) := by
  intro fuel
  induction fuel with
  | zero =>
    intro j hj
    unfold freeLoop
    refine Triple.pure ?_
    rw [List.drop_of_length_le (by omega), List.drop_of_length_le (by omega), Own_nil, sep_emp]
    exact entails_refl _
  | succ fuel ih =>
    intro j hj
    unfold freeLoop
    obtain ⟨q, hq⟩ := get_of_lt (l := ps) (i := j) (by omega)
    obtain ⟨t, ht⟩ := get_of_lt (l := ts) (i := j) (by omega)
    rw [Own_drop (R := CS) hq ht]
    step (loadPtr_spec (p := p) (arr_get hq))
    step (free_CS (p := q))
    exact (ih (j + 1) (by omega)).pre (by sep_cancel)

theorem cloneLoop_spec {src dst : Ptr} {ps : List Nat} {ex : List Val} {ts : List Text} (hl : ps.length = ts.length) :
    ∀ fuel i rps, i + fuel = ts.length → rps.length = i →
    Triple rel (src ↦ (ps.map Val.ptr ++ ex) ∗ Own CS ps ts ∗ dst ↦ (rps.map Val.ptr ++ List.replicate fuel .undef) ∗ Own CS rps (ts.take i))
      (cloneLoop src dst fuel i)
      (fun r => ∃∃ (rps' : List Nat) (ex' : List Val), (rps'.length = r ∧ r ≤ ts.length ∧ (r ≠ ts.length → ¬ rel)) ⋏
        src ↦ (ps.map Val.ptr ++ ex) ∗ Own CS ps ts ∗ dst ↦ (rps'.map Val.ptr ++ ex') ∗ Own CS rps' (ts.take r)) := by
  intro fuel
  induction fuel with
  | zero =>
    intro i rps hi hr
    refine Triple.pure (entails_ex_r rps (entails_ex_r [] (entails_pand_r (entails_refl _) ⟨hr, by omega, fun h => absurd (by omega) h⟩)))
  | succ fuel ih =>
    intro i rps hi hr
    unfold cloneLoop
    obtain ⟨q, hq⟩ := get_of_lt (l := ps) (i := i) (by omega)
    obtain ⟨t, ht⟩ := get_of_lt (l := ts) (i := i) (by omega)
    step (loadPtr_spec (p := src) (arr_get hq))
    have e := Own_erase (R := CS) hq ht
    rw [e]; simp only [sep_assoc]
    refine Triple.know (know_CStr (s := .heap q 0) (by pick)) fun hk => ?_
    refine Triple.know (know_heap0 (p := q) (by pick)) fun hq0 => ?_
    rw [ofPtr_ne hq0]
    have hb : i < (rps.map Val.ptr ++ List.replicate (fuel + 1) Val.undef).length := by simp; omega
    step (mallocAndStrcpy_s_spec (p := dst) (off := i) (src := .heap q 0) (t := t) hb) into r
    intro q2
    by_cases h2 : q2 = 0
    · subst h2
      simp only [if_true]; hoist; intro he hrel
      subst he
      rw [if_pos (by simp [ENOMEM])]
      refine Triple.pure (entails_ex_r rps (entails_ex_r ((List.replicate (fuel + 1) Val.undef).set 0 (.ptr 0)) (entails_pand_r ?_ ⟨hr, by omega, fun _ => hrel⟩)))
      rw [List.set_append_right _ _ (by simp; omega)]
      simp only [List.length_map, hr, Nat.sub_self]
      sep_cancel
    · rw [if_neg h2]; hoist; rintro rfl
      rw [if_neg (by simp)]
      have hb2 : (rps.map Val.ptr ++ List.replicate (fuel + 1) Val.undef).set i (.ptr q2) = (rps ++ [q2]).map Val.ptr ++ List.replicate fuel .undef := by
        rw [List.set_append_right _ _ (by simp; omega), List.replicate_succ]
        simp [hr]
      rw [hb2]
      have ht2 : ts.take (i + 1) = ts.take i ++ [t] := by rw [List.take_add_one, ht]; rfl
      refine (ih (i + 1) (rps ++ [q2]) (by omega) (by simp [hr])).conseq ?_ fun r => ?_
      · rw [ht2, Own_snoc_eq (by simp; omega), e]
        have ei := CStr_intro (p := q2) hk.2.1 []
        rw [bytesV_append]
        simp only [sep_assoc]
        refine entails_trans ?_ (sep_mono (entails_refl _) (sep_mono (entails_refl _) (sep_mono (entails_refl _) (sep_mono (entails_refl _) (sep_mono ei (entails_refl _))))))
        simp only [bytesV, List.map_cons, List.map_nil]
        sep_cancel
      · rw [e]; simp only [sep_assoc]; exact entails_refl _

theorem CloneVector_spec {src : Ptr} {ps : List Nat} {ex : List Val} {ts : List Text} {n : Nat} (hn : n = ts.length) :
    Triple rel (src ↦ (ps.map Val.ptr ++ ex) ∗ Own CS ps ts) (Map_CloneVector src n)
      (fun r => (if r = 0 then ((¬ rel ∨ maxObj < 8 * n) ⋏ emp) else Vec r ts) ∗ src ↦ (ps.map Val.ptr ++ ex) ∗ Own CS ps ts) := by
  unfold Map_CloneVector
  refine Triple.know (know_Own (env := ps) (as := ts) (R := CS) (by pick)) fun hl => ?_
  refine Triple.mallocW (by omega) (fun hr => ?_) (fun r hr _ => ?_)
  · rw [if_pos rfl]
    refine Triple.pure ?_
    rw [if_pos rfl, pand_sep, emp_sep]
    exact entails_pand_r (entails_refl _) hr
  · rw [if_neg hr]
    have hc := cloneLoop_spec (rel := rel) (src := src) (dst := r) (ps := ps) (ex := ex) (ts := ts) hl n 0 [] (by omega) rfl
    simp only [List.map_nil, List.nil_append, List.take_zero, Own_nil, sep_emp] at hc
    step hc into i
    intro rps ex' h1 h2 h3
    refine Triple.ite (fun hi => ?_) (fun hi => ?_)
    · refine Triple.pure ?_
      rw [if_neg hr, Vec]
      simp only [hex_sep, sep_assoc]
      refine entails_ex_r rps (entails_ex_r ex' ?_)
      rw [hi, hn, List.take_length]
      sep_cancel
    · have hf := freeLoop_spec (rel := rel) (p := r) (ps := rps) (ex := ex') (ts := ts.take i) (by simp; omega) i 0 (by omega)
      simp only [List.drop_zero] at hf
      step hf
      step (free_spec (p := r))
      refine Triple.pure ?_
      rw [if_pos rfl, pand_sep, emp_sep]
      exact entails_pand_r (entails_refl _) (Or.inl (h3 (by omega)))

/-- C11: `Map_Clone` makes an equal map in its own memory (an empty map loses its filter). -/
theorem Map_Clone_spec {h : Ptr} {a : Option MapV} :
    Triple rel (OMap h a) (Map_Clone h)
      (fun r => Made MapR (a = none ∨ ¬ rel ∨ ∃ m, a = some m ∧ maxObj < 8 * m.pairs.length) (fun m' => ∃ m, a = some m ∧ m' = m.clone) r ∗ OMap h a) := by
  unfold Map_Clone
  cases a with
  | none =>
    simp only [OMap, ORep_none]; hoist; rintro rfl
    rw [if_pos rfl]
    exact Triple.pure (Made_fail_sep (Or.inl (by simp)) (entails_pand_r (entails_refl _) (by simp)))
  | some m =>
    simp only [OMap, ORep_some]
    refine Triple.know (know_MapR (h := h) (by pick)) fun hk => ?_
    rw [if_neg hk.1]
    refine Triple.mallocS (by omega) (fun hr => ?_) (fun r hr => ?_)
    · rw [if_pos rfl]
      exact Triple.pure (Made_fail_sep (Or.inr (Or.inl hr)) (entails_refl _))
    rw [if_neg hr, MapR_open]; hoist; intro kp vp hnd
    have back : h ↦ [.ptr kp, .ptr vp, .int m.pairs.length, .int m.filter] ∗ Arr kp m.keys ∗ Arr vp m.vals ⊢ₕ MapR h m :=
      MapR_close rfl rfl rfl rfl hnd (entails_refl _)
    step (loadInt_spec (p := h) ?_)
    refine Triple.ite (fun h0 => ?_) (fun h0 => ?_)
    · step (store_spec (p := r) ?_)
      step (store_spec (p := r) ?_)
      step (store_spec (p := r) ?_)
      step (store_spec (p := r) ?_)
      have hp : m.pairs = [] := List.eq_nil_of_length_eq_zero h0
      refine Triple.pure (Made_ok_sep m.clone hr ⟨m, rfl, rfl⟩ ?_)
      refine entails_trans ?_ (sep_mono (MapR_close (kp := 0) (vp := 0) (n := 0) (f := 0) (ks := []) (vs := []) (by simp [MapV.clone, hp]) (by simp [MapV.clone, hp])
        (by simp [MapV.clone, MapV.keys, hp]) (by simp [MapV.clone, MapV.vals, hp]) (by simp [MapV.clone, MapV.keys, hp]) (entails_refl _)) back)
      simp only [Arr_null, sep_emp]
      sep_cancel
    · have hp : m.pairs ≠ [] := by rintro h; rw [h] at h0; exact h0 rfl
      have hks : m.keys ≠ [] := by simpa [MapV.keys] using hp
      have hvs : m.vals ≠ [] := by simpa [MapV.vals] using hp
      have hcl : m.clone = m := by unfold MapV.clone; simp [hp]
      step (loadInt_spec (p := h) ?_)
      step (store_spec (p := r) ?_)
      step (loadInt_spec (p := h) ?_)
      step (store_spec (p := r) ?_)
      step (loadPtr_spec (p := h) ?_)
      have hbk : ∀ kps kx vps vx, h ↦ [.ptr kp, .ptr vp, .int m.pairs.length, .int m.filter] ∗ kp ↦ (List.map Val.ptr kps ++ kx) ∗ Own CS kps m.keys ∗ vp ↦ (List.map Val.ptr vps ++ vx) ∗ Own CS vps m.vals ⊢ₕ MapR h m := by
        intro kps kx vps vx
        refine entails_trans ?_ back
        refine entails_trans ?_ (sep_mono (entails_refl _) (sep_mono (Arr_intro (ps := kps) (ex := kx) hks) (Arr_intro (ps := vps) (ex := vx) hvs)))
        sep_cancel
      rw [Arr_ne hks, Arr_ne hvs]
      simp only [Vec]; hoist; intro vps vx kps kx
      step (CloneVector_spec (src := kp) (keys_length m).symm) into kr
      by_cases hkr : kr = 0
      · rw [hkr]; simp only [if_true]; hoist; intro hbad
        step (store_spec (p := r) ?_)
        step (free_spec (p := r))
        refine Triple.pure (Made_fail_sep (Or.inr (hbad.imp id fun h => ⟨m, rfl, h⟩)) (entails_trans ?_ (hbk kps kx vps vx)))
        sep_cancel
      · simp only [if_neg hkr]; hoist
        step (store_spec (p := r) ?_)
        step (loadPtr_spec (p := h) ?_)
        step (CloneVector_spec (src := vp) (vals_length m).symm) into vr
        by_cases hvr : vr = 0
        · rw [hvr]; simp only [if_true]; hoist; intro hbad
          step (store_spec (p := r) ?_)
          step (loadInt_spec (p := r) ?_)
          step (loadPtr_spec (p := r) ?_)
          simp only [Vec]; hoist; intro rps rx
          refine Triple.know (know_Own (env := rps) (as := m.keys) (R := CS) (by pick)) fun hrl => ?_
          have hf := freeLoop_spec (rel := rel) (p := kr) (ps := rps) (ex := rx) (ts := m.keys) hrl m.pairs.length 0 (by rw [hrl, keys_length]; omega)
          simp only [List.drop_zero] at hf
          step hf
          step (loadPtr_spec (p := r) ?_)
          step (free_spec (p := kr))
          step (free_spec (p := r))
          refine Triple.pure (Made_fail_sep (Or.inr (hbad.imp id fun h => ⟨m, rfl, h⟩)) (entails_trans ?_ (hbk kps kx vps vx)))
          sep_cancel
        · simp only [if_neg hvr]; hoist
          step (store_spec (p := r) ?_)
          refine Triple.pure (Made_ok_sep m hr ⟨m, rfl, hcl.symm⟩ ?_)
          refine entails_trans ?_ (sep_mono (MapR_close (kp := kr) (vp := vr) (n := m.pairs.length) (f := m.filter) rfl rfl rfl rfl hnd (entails_refl _)) (hbk kps kx vps vx))
          rw [Arr_ne hks, Arr_ne hvs]
          sep_cancel

/-! ## Destroy -/

theorem destroyLoop_spec {h kp vp : Ptr} {n f : Nat} {kps vps : List Nat} {kx vx : List Val} {ks vs : List Text}
    (hk : kps.length = n) (hv : vps.length = n) (hks : ks.length = n) (hvs : vs.length = n) :
    ∀ fuel i, i + fuel = n →
    Triple rel (h ↦ [.ptr kp, .ptr vp, .int n, .int f] ∗ kp ↦ (kps.map Val.ptr ++ kx) ∗ vp ↦ (vps.map Val.ptr ++ vx) ∗
        Own CS (kps.drop i) (ks.drop i) ∗ Own CS (vps.drop i) (vs.drop i))
      (destroyLoop h fuel i)
      (fun _ => h ↦ [.ptr kp, .ptr vp, .int n, .int f] ∗ kp ↦ (kps.map Val.ptr ++ kx) ∗ vp ↦ (vps.map Val.ptr ++ vx)) := by
  intro fuel
  induction fuel with
  | zero =>
    intro i hi
    refine Triple.pure ?_
    rw [List.drop_of_length_le (by omega), List.drop_of_length_le (by omega), List.drop_of_length_le (by omega), List.drop_of_length_le (by omega), Own_nil]
    simp only [sep_emp]
    exact entails_refl _
  | succ fuel ih =>
    intro i hi
    unfold destroyLoop
    obtain ⟨q, hq⟩ := get_of_lt (l := kps) (i := i) (by omega)
    obtain ⟨t, ht⟩ := get_of_lt (l := ks) (i := i) (by omega)
    obtain ⟨q2, hq2⟩ := get_of_lt (l := vps) (i := i) (by omega)
    obtain ⟨t2, ht2⟩ := get_of_lt (l := vs) (i := i) (by omega)
    rw [Own_drop (R := CS) hq ht, Own_drop (R := CS) hq2 ht2]
    simp only [sep_assoc]
    step (loadPtr_spec (p := h) ?_)
    step (loadPtr_spec (p := kp) (arr_get hq))
    step (free_CS (p := q))
    step (loadPtr_spec (p := h) ?_)
    step (loadPtr_spec (p := vp) (arr_get hq2))
    step (free_CS (p := q2))
    exact (ih (i + 1) (by omega)).pre (by sep_cancel)

/-- C09: `Map_Destroy` gives back exactly the memory of the map. -/
theorem Map_Destroy_spec {h : Ptr} {a : Option MapV} : Triple rel (OMap h a) (Map_Destroy h) (fun _ => emp) := by
  unfold Map_Destroy
  cases a with
  | none =>
    simp only [OMap, ORep_none]; hoist; rintro rfl
    rw [if_neg (by simp)]; exact Triple.pure (entails_refl _)
  | some m =>
    simp only [OMap, ORep_some]
    refine Triple.know (know_MapR (h := h) (by pick)) fun hk => ?_
    rw [if_pos hk.1, MapR_open]; hoist; intro kp vp hnd
    by_cases hp : m.pairs = []
    · have hks : m.keys = [] := by simpa [MapV.keys] using hp
      have hvs : m.vals = [] := by simpa [MapV.vals] using hp
      rw [hks, hvs, hp, Arr_nil, Arr_nil]; hoist; rintro rfl rfl
      step (loadInt_spec (p := h) ?_)
      unfold destroyLoop
      refine Triple.bind_pure ?_
      step (loadPtr_spec (p := h) ?_)
      step free_null_spec
      step (loadPtr_spec (p := h) ?_)
      step free_null_spec
      last (free_spec (p := h))
      rw [sep_emp]; exact entails_refl _
    · have hks : m.keys ≠ [] := by simpa [MapV.keys] using hp
      have hvs : m.vals ≠ [] := by simpa [MapV.vals] using hp
      rw [Arr_ne hks, Arr_ne hvs]
      simp only [Vec]; hoist; intro vps vx kps kx
      refine Triple.know (know_Own (env := vps) (as := m.vals) (R := CS) (by pick)) fun hvl => ?_
      refine Triple.know (know_Own (env := kps) (as := m.keys) (R := CS) (by pick)) fun hkl => ?_
      step (loadInt_spec (p := h) ?_)
      have kl := keys_length m
      have vl := vals_length m
      have hd := destroyLoop_spec (rel := rel) (h := h) (kp := kp) (vp := vp) (n := m.pairs.length) (f := m.filter) (kps := kps) (vps := vps) (kx := kx) (vx := vx) (ks := m.keys) (vs := m.vals)
        (by omega) (by omega) (by omega) (by omega) m.pairs.length 0 (by omega)
      simp only [List.drop_zero] at hd
      step hd
      step (loadPtr_spec (p := h) ?_)
      step (free_spec (p := kp))
      step (loadPtr_spec (p := h) ?_)
      step (free_spec (p := vp))
      last (free_spec (p := h))
      rw [sep_emp]; exact entails_refl _

end Verif.Map
