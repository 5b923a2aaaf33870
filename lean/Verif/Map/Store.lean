import Verif.Map.Rep
/-! # Map: searching, growing and shrinking the arrays (used by the specifications in `Verif.Map.Props`) -/
set_option linter.unusedSimpArgs false
set_option linter.unusedVariables false
namespace Verif.Map
open Verif Verif.Crt
variable {rel : Prop} {β : Type}

/-- `r` is a position of `k` in `ts`, or nothing when there is none -/
def Found (ts : List Text) (k : Text) (r : Option Nat) : Prop :=
  match r with
  | some j => ts[j]? = some k
  | none => k ∉ ts

theorem findLoop_spec {h a : Ptr} {blk : Block} {fld : Nat} (hf : blk[fld]? = some (.ptr a)) {ps : List Nat} {ex : List Val}
    {ts : List Text} {key : CharPtr} {k : Text} {C : HProp} (R : Reads C key k) (hl : ps.length = ts.length) :
    ∀ fuel i, i + fuel = ts.length →
    Triple rel (h ↦ blk ∗ a ↦ (ps.map Val.ptr ++ ex) ∗ Own CS ps ts ∗ C) (findLoop h fld key fuel i)
      (fun r => ((∀ j, r = some j → ts[j]? = some k) ∧ (r = none → k ∉ ts.drop i)) ⋏
        h ↦ blk ∗ a ↦ (ps.map Val.ptr ++ ex) ∗ Own CS ps ts ∗ C) := by
  intro fuel
  induction fuel with
  | zero =>
    intro i hi
    refine Triple.pure (entails_pand_r (entails_refl _) ⟨by simp, fun _ => ?_⟩)
    rw [List.drop_of_length_le (by omega)]; simp
  | succ fuel ih =>
    intro i hi
    unfold findLoop
    obtain ⟨q, hq⟩ := get_of_lt (l := ps) (i := i) (by omega)
    obtain ⟨t, ht⟩ := get_of_lt (l := ts) (i := i) (by omega)
    step (loadPtr_spec (p := h) hf)
    step (loadPtr_spec (p := a) (arr_get hq))
    obtain ⟨t', F, ht', e1, -⟩ := Own_get (R := CS) hq hl
    rw [ht] at ht'; cases ht'
    simp only [e1, sep_assoc]
    refine Triple.know (know_heap0 (p := q) (by pick)) fun hq0 => ?_
    rw [ofPtr_ne hq0]
    step (R.strcmp (a := .heap q 0) (x := t))
    refine Triple.ite (fun h0 => ?_) (fun h0 => ?_)
    · rw [strcmpL_eq_zero] at h0; subst h0
      refine Triple.pure (entails_pand_r (by sep_cancel) ⟨by rintro j hj; cases hj; exact ht, by simp⟩)
    · rw [strcmpL_eq_zero] at h0
      refine (ih (i + 1) (by omega)).conseq (by rw [e1, sep_assoc]; sep_cancel) fun r => ?_
      rw [e1, sep_assoc]
      refine entails_pand_l fun hr => entails_pand_r (by sep_cancel) ⟨hr.1, fun hn => ?_⟩
      obtain ⟨h1, h2⟩ := List.getElem?_eq_some_iff.1 ht
      rw [List.drop_eq_getElem_cons h1, h2]
      simp only [List.mem_cons, not_or]
      exact ⟨Ne.symm h0, hr.2 hn⟩

theorem findArr_spec {h a : Ptr} {blk : Block} {fld : Nat} (hf : blk[fld]? = some (.ptr a)) {ts : List Text}
    (hn : blk[fCount]? = some (.int ts.length)) {key : CharPtr} {k : Text} {C : HProp} (R : Reads C key k) :
    Triple rel (h ↦ blk ∗ Arr a ts ∗ C)
      (do
        let keys ← loadPtr h fld
        if keys = 0 then pure none
        else
          let count ← loadInt h fCount
          findLoop h fld key count 0)
      (fun r => (Found ts k r) ⋏ h ↦ blk ∗ Arr a ts ∗ C) := by
  step (loadPtr_spec (p := h) hf)
  by_cases hts : ts = []
  · subst hts
    simp only [Arr_nil]; hoist; rintro rfl
    rw [if_pos rfl]
    exact Triple.pure (entails_pand_r (by simp [true_pand, emp_sep]; exact entails_refl _) (by simp [Found]))
  · rw [Arr_ne hts, Vec]; hoist
    intro ps ex
    refine Triple.know (know_pts (p := a) (φ := a ≠ 0) (by pick) fun h _ => h) fun ha => ?_
    refine Triple.know (know_Own (env := ps) (as := ts) (R := CS) (by pick)) fun hl => ?_
    rw [if_neg ha]
    step (loadInt_spec (p := h) hn)
    last (findLoop_spec hf R hl ts.length 0 (by omega))
    rename_i r
    rw [sep_emp]
    refine entails_pand_l fun hr => entails_pand_r ?_ ?_
    · rw [hex_sep, sep_hex]; refine entails_ex_r ps ?_
      rw [hex_sep, sep_hex]; refine entails_ex_r ex ?_
      sep_cancel
    · cases r with
      | none => simpa [Found] using hr.2 rfl
      | some j => exact hr.1 j rfl

theorem findKey_spec {h kp vp f : Nat} {ks : List Text} {n : Nat} (hn : n = ks.length) {key : CharPtr} {k : Text} :
    Triple rel (h ↦ [.ptr kp, .ptr vp, .int n, .int f] ∗ Arr kp ks ∗ CStr key k) (findKey h key)
      (fun r => (Found ks k r) ⋏ h ↦ [.ptr kp, .ptr vp, .int n, .int f] ∗ Arr kp ks ∗ CStr key k) :=
  findArr_spec (fld := fKeys) rfl (by simp [hn]) CStr_reads

theorem findKey_reads {h kp vp f : Nat} {ks : List Text} {n : Nat} (hn : n = ks.length) {key : CharPtr} {k : Text} {C : HProp} (R : Reads C key k) :
    Triple rel (h ↦ [.ptr kp, .ptr vp, .int n, .int f] ∗ Arr kp ks ∗ C) (findKey h key)
      (fun r => (Found ks k r) ⋏ h ↦ [.ptr kp, .ptr vp, .int n, .int f] ∗ Arr kp ks ∗ C) :=
  findArr_spec (fld := fKeys) rfl (by simp [hn]) R

theorem findValue_spec {h kp vp f : Nat} {ks : List Text} {n : Nat} (hn : n = ks.length) {key : CharPtr} {k : Text} :
    Triple rel (h ↦ [.ptr kp, .ptr vp, .int n, .int f] ∗ Arr vp ks ∗ CStr key k) (findValue h key)
      (fun r => (Found ks k r) ⋏ h ↦ [.ptr kp, .ptr vp, .int n, .int f] ∗ Arr vp ks ∗ CStr key k) :=
  findArr_spec (fld := fValues) rfl (by simp [hn]) CStr_reads

/-! ## Growing and shrinking -/

theorem grow {p : Ptr} {ts : List Text} {n : Nat} (hn : n = ts.length) {k : Nat → M β} {P F : HProp} {Q : β → HProp} (pk : Pick P (Arr p ts) F)
    (h0 : (¬ rel ∨ maxObj < 8 * (n + 1)) → Triple rel (Arr p ts ∗ F) (k 0) Q)
    (h1 : ∀ r ps v, r ≠ 0 → ps.length = n →
      Triple rel (r ↦ (ps.map Val.ptr ++ [v]) ∗ Own CS ps ts ∗ F) (k r) Q) :
    Triple rel P (reallocS p (n + 1) >>= k) Q := by
  unfold Pick at pk; subst pk
  by_cases hts : ts = []
  · subst hts; subst hn
    rw [Arr_nil] at h0 ⊢
    hoist; rintro rfl
    simp only [true_pand, emp_sep] at h0
    refine Triple.reallocS_null h0 fun r hr _ => ?_
    refine (h1 r [] .undef hr rfl).conseq ?_ (fun _ => entails_refl _)
    rw [Own_nil, emp_sep]; exact entails_refl _
  · rw [Arr_ne hts] at h0 ⊢
    simp only [Vec] at h0 ⊢
    hoist; intro ps ex
    refine Triple.know (know_Own (env := ps) (as := ts) (R := CS) (by pick)) fun hl => ?_
    refine Triple.reallocS (p := p) (n := n + 1) (by omega) (by pick) (fun hh => ?_) (fun r hr _ => ?_)
    · refine (h0 hh).pre ?_
      simp only [hex_sep, sep_assoc]
      exact entails_ex_r ps (entails_ex_r ex (entails_refl _))
    · have e : ∃ v, (ps.map Val.ptr ++ ex).take (n + 1) ++ List.replicate (n + 1 - (ps.map Val.ptr ++ ex).length) Val.undef = ps.map Val.ptr ++ [v] := by
        have hpl : (ps.map Val.ptr).length = n := by simp; omega
        cases ex with
        | nil => exact ⟨.undef, by simp [List.take_of_length_le, show ps.length ≤ n + 1 by omega, show n + 1 - ps.length = 1 by omega, List.append_nil]⟩
        | cons v ex =>
          refine ⟨v, ?_⟩
          rw [show ps.map Val.ptr ++ v :: ex = (ps.map Val.ptr ++ [v]) ++ ex by simp, List.take_left' (by simp; omega)]
          simp [show n + 1 - (ps.length + (ex.length + 1)) = 0 by omega]
      obtain ⟨v, e⟩ := e
      rw [e]
      exact h1 r ps v hr (by omega)

theorem shrink {p : Ptr} {n : Nat} (h : n ≠ 0) {ps : List Nat} {ex : List Val} {ts : List Text} (hl : ps.length = n)
    {k : Nat → M β} {P F : HProp} {Q : β → HProp} (pk : Pick P (p ↦ (ps.map Val.ptr ++ ex)) F)
    (h0 : Triple rel (p ↦ (ps.map Val.ptr ++ ex) ∗ F) (k 0) Q)
    (h1 : ∀ r, r ≠ 0 → Triple rel (r ↦ (ps.map Val.ptr ++ []) ∗ F) (k r) Q) :
    Triple rel P (reallocS p n >>= k) Q := by
  refine Triple.reallocS (p := p) (n := n) h pk (fun _ => h0) (fun r hr _ => ?_)
  have e : (ps.map Val.ptr ++ ex).take n ++ List.replicate (n - (ps.map Val.ptr ++ ex).length) Val.undef = ps.map Val.ptr ++ [] := by
    rw [List.take_left' (by simp [hl])]; simp [show n - (ps.length + ex.length) = 0 by omega]
  rw [e]; exact h1 r hr

theorem set_end {ps : List Val} {n : Nat} (h : ps.length = n) {v w : Val} : (ps ++ [v]).set n w = ps ++ [w] := by
  subst h; rw [List.set_append_right _ _ (Nat.le_refl _)]; simp

theorem Increase_spec {h kp vp f n : Nat} {ks vs : List Text} (hk : n = ks.length) (hv : n = vs.length) :
    Triple rel (h ↦ [.ptr kp, .ptr vp, .int n, .int f] ∗ Arr kp ks ∗ Arr vp vs) (Map_IncreaseStorageKeysValues h)
      (fun r => if r = 0 then ∃∃ (kp' : Nat) (vp' : Nat) (kps : List Nat) (vps : List Nat), (kps.length = n ∧ vps.length = n) ⋏
          h ↦ [.ptr kp', .ptr vp', .int (n + 1), .int f] ∗
          kp' ↦ (kps.map Val.ptr ++ [.ptr 0]) ∗ Own CS kps ks ∗ vp' ↦ (vps.map Val.ptr ++ [.ptr 0]) ∗ Own CS vps vs
        else ∃∃ kp' : Nat, (¬ rel ∨ maxObj < 8 * (n + 1)) ⋏ h ↦ [.ptr kp', .ptr vp, .int n, .int f] ∗ Arr kp' ks ∗ Arr vp vs) := by
  unfold Map_IncreaseStorageKeysValues
  step (loadPtr_spec (p := h) ?_)
  step (loadInt_spec (p := h) ?_)
  refine grow hk (by pick) (fun hr => ?_) (fun kp' kps v hkp hkl => ?_)
  · rw [if_pos rfl]
    refine Triple.pure ?_
    rw [if_neg (by omega)]
    exact entails_ex_r kp (entails_pand_r (by sep_cancel) hr)
  rw [if_neg hkp]
  step (store_spec (p := h) ?_)
  step (store_spec (p := kp') (b := kps.map Val.ptr ++ [v]) (by simp; omega))
  rw [set_end (by simpa using hkl)]
  step (loadPtr_spec (p := h) ?_)
  refine grow hv (by pick) (fun hr => ?_) (fun vp' vps w hvp hvl => ?_)
  · rw [if_pos rfl]
    refine Triple.ite (fun h0 => ?_) (fun h0 => ?_)
    · subst h0
      have : ks = [] := List.eq_nil_of_length_eq_zero hk.symm
      subst this
      have : kps = [] := List.eq_nil_of_length_eq_zero hkl
      subst this
      step (loadPtr_spec (p := h) ?_)
      step (free_spec (p := kp'))
      step (store_spec (p := h) ?_)
      refine Triple.pure ?_
      rw [if_neg (by omega)]
      refine entails_ex_r 0 (entails_pand_r ?_ hr)
      rw [Own_nil, Arr_null]; sep_cancel
    · have hks : ks ≠ [] := by rintro rfl; exact h0 hk
      step (loadPtr_spec (p := h) ?_)
      refine shrink (ts := ks) h0 hkl (by pick) ?_ (fun kp2 hkp2 => ?_)
      · rw [if_pos rfl]
        refine Triple.pure ?_
        rw [if_neg (by omega)]
        refine entails_ex_r kp' (entails_pand_r ?_ hr)
        refine entails_trans ?_ (sep_mono (entails_refl _) (sep_mono (Arr_intro (ps := kps) (ex := [.ptr 0]) hks) (entails_refl _)))
        sep_cancel
      · rw [if_neg hkp2]
        step (store_spec (p := h) ?_)
        refine Triple.pure ?_
        rw [if_neg (by omega)]
        refine entails_ex_r kp2 (entails_pand_r ?_ hr)
        refine entails_trans ?_ (sep_mono (entails_refl _) (sep_mono (Arr_intro (ps := kps) (ex := []) hks) (entails_refl _)))
        sep_cancel
  · rw [if_neg hvp]
    step (store_spec (p := h) ?_)
    step (store_spec (p := vp') (b := vps.map Val.ptr ++ [w]) (by simp; omega))
    rw [set_end (by simpa using hvl)]
    step (store_spec (p := h) ?_)
    refine Triple.pure ?_
    rw [if_pos rfl]
    refine entails_ex_r kp' (entails_ex_r vp' (entails_ex_r kps (entails_ex_r vps (entails_pand_r ?_ ⟨hkl, hvl⟩))))
    sep_cancel

/-- both arrays with `n` elements, each with possible slots beyond, while the count says `n + 1` -/
theorem Decrease_spec {h kp vp f n : Nat} {ks vs : List Text} {kps vps : List Nat} {kx vx : List Val} (hk : n = ks.length) (hv : n = vs.length) :
    Triple rel (h ↦ [.ptr kp, .ptr vp, .int (n + 1), .int f] ∗ kp ↦ (kps.map Val.ptr ++ kx) ∗ Own CS kps ks ∗ vp ↦ (vps.map Val.ptr ++ vx) ∗ Own CS vps vs)
      (Map_DecreaseStorageKeysValues h)
      (fun _ => ∃∃ (kp' : Nat) (vp' : Nat), h ↦ [.ptr kp', .ptr vp', .int n, .int (if n = 0 then 0 else f)] ∗ Arr kp' ks ∗ Arr vp' vs) := by
  unfold Map_DecreaseStorageKeysValues
  refine Triple.know (know_Own (env := kps) (as := ks) (R := CS) (by pick)) fun hkl => ?_
  refine Triple.know (know_Own (env := vps) (as := vs) (R := CS) (by pick)) fun hvl => ?_
  step (loadInt_spec (p := h) ?_)
  refine Triple.ite (fun h1 => ?_) (fun h1 => ?_)
  · obtain rfl : n = 0 := by omega
    obtain rfl : ks = [] := List.eq_nil_of_length_eq_zero hk.symm
    obtain rfl : vs = [] := List.eq_nil_of_length_eq_zero hv.symm
    obtain rfl : kps = [] := List.eq_nil_of_length_eq_zero hkl
    obtain rfl : vps = [] := List.eq_nil_of_length_eq_zero hvl
    step (loadPtr_spec (p := h) ?_)
    step (free_spec (p := kp))
    step (store_spec (p := h) ?_)
    step (loadPtr_spec (p := h) ?_)
    step (free_spec (p := vp))
    step (store_spec (p := h) ?_)
    step (store_spec (p := h) ?_)
    last (store_spec (p := h) ?_)
    refine entails_ex_r 0 (entails_ex_r 0 ?_)
    simp only [List.set_cons_zero, List.set_cons_succ, Own_nil, Arr_null, if_true]
    sep_cancel
  · have hks : ks ≠ [] := by rintro rfl; simp at hk; omega
    have hvs : vs ≠ [] := by rintro rfl; simp at hv; omega
    have hn : n ≠ 0 := by omega
    simp only [Nat.add_sub_cancel, if_neg hn]
    have fin : ∀ kp' vp' kx' vx', h ↦ [.ptr kp', .ptr vp', .int n, .int f] ∗ kp' ↦ (kps.map Val.ptr ++ kx') ∗ Own CS kps ks ∗ vp' ↦ (vps.map Val.ptr ++ vx') ∗ Own CS vps vs ⊢ₕ
        ∃∃ (kp' : Nat) (vp' : Nat), h ↦ [.ptr kp', .ptr vp', .int n, .int f] ∗ Arr kp' ks ∗ Arr vp' vs := by
      intro kp' vp' kx' vx'
      refine entails_ex_r kp' (entails_ex_r vp' ?_)
      refine entails_trans ?_ (sep_mono (entails_refl _) (sep_mono (Arr_intro (ps := kps) (ex := kx') hks) (Arr_intro (ps := vps) (ex := vx') hvs)))
      sep_cancel
    have rest : ∀ kp' kx', Triple rel (h ↦ [.ptr kp', .ptr vp, .int (n + 1), .int f] ∗ kp' ↦ (kps.map Val.ptr ++ kx') ∗ Own CS kps ks ∗ vp ↦ (vps.map Val.ptr ++ vx) ∗ Own CS vps vs)
        (do
          let values ← loadPtr h fValues
          let undoneValues ← reallocS values n
          if undoneValues = 0 then pure ()
          else store h fValues (.ptr undoneValues)
          store h fCount (.int n))
        (fun _ => ∃∃ (kp' : Nat) (vp' : Nat), h ↦ [.ptr kp', .ptr vp', .int n, .int f] ∗ Arr kp' ks ∗ Arr vp' vs) := by
      intro kp' kx'
      step (loadPtr_spec (p := h) ?_)
      refine shrink (ts := vs) hn (ps := vps) (by omega) (by pick) ?_ (fun vp2 hvp2 => ?_)
      · rw [if_pos rfl]
        dsimp only
        last (store_spec (p := h) ?_)
        refine entails_trans ?_ (fin kp' vp kx' vx)
        simp only [List.set_cons_zero, List.set_cons_succ]
        sep_cancel
      · rw [if_neg hvp2]
        step (store_spec (p := h) ?_)
        last (store_spec (p := h) ?_)
        refine entails_trans ?_ (fin kp' vp2 kx' [])
        simp only [List.set_cons_zero, List.set_cons_succ]
        sep_cancel
    step (loadPtr_spec (p := h) ?_)
    refine shrink (ts := ks) hn (ps := kps) (by omega) (by pick) ?_ (fun kp2 hkp2 => ?_)
    · rw [if_pos rfl]
      exact (rest kp kx).pre (by sep_cancel)
    · rw [if_neg hkp2]
      step (store_spec (p := h) ?_)
      exact (rest kp2 []).pre (by sep_cancel)

end Verif.Map
