import Verif.Headers.Spec
import Verif.Map.History
import Verif.Tok.Props
/-!
# C28, C29: the header calls, one by one
-/
set_option linter.unusedSimpArgs false
set_option linter.unusedVariables false
namespace Verif.Headers
open Verif Verif.Crt
open Verif.Map (MapV MapR OMap CS Arr Vec Map_Create_spec Map_Destroy_spec Map_Clone_spec Map_AddOrUpdate_spec Map_GetValueFromKey_spec
  Map_GetInternals_spec InternalsAt ValueAt Args2 know_MapR know_Arg UpdateE insertE get_of_lt arr_get Own_erase Arr_ne)
variable {rel : Prop}

/-- The handle `h` owns the headers `hs`. -/
def HdrR (h : Ptr) (hs : Hdrs) : HProp := ∃∃ m : Nat, h ↦ [.ptr m] ∗ MapR m ⟨hs, 0⟩

abbrev OHdr (h : Ptr) (a : Option Hdrs) : HProp := ORep HdrR h a

theorem HdrR_intro {h m : Ptr} {hs : Hdrs} : h ↦ [.ptr m] ∗ MapR m ⟨hs, 0⟩ ⊢ₕ HdrR h hs := entails_ex_r m (entails_refl _)

theorem know_OHdr {h : Ptr} {a : Option Hdrs} {P F : HProp} (pk : Pick P (OHdr h a) F) : ∀ hp, P hp → (h = 0 ↔ a = none) := by
  intro hp hP
  unfold Pick at pk; rw [pk] at hP
  cases a with
  | none => obtain ⟨x, y, _, _, ⟨h3, _⟩, _⟩ := hP; simp [h3]
  | some hs =>
    simp only [OHdr, ORep_some, HdrR, hex_sep] at hP
    obtain ⟨m, hP⟩ := hP
    rw [sep_assoc] at hP
    have := know_pts (p := h) (φ := h ≠ 0) (by pick) (fun h1 _ => h1) hp hP
    simp [this]

/-! ## strings -/

theorem CStr_add {s : CharPtr} {i : Nat} {t : List UInt8} (hi : i ≤ t.length) : CStr s t ⊢ₕ CStr (addPtr s i) (t.drop i) := by
  cases s with
  | null => exact entails_pand_l fun h => h.elim
  | heap p off => exact Tok.CStr_drop hi
  | lit l =>
    unfold addPtr CStr
    refine entails_pand_l fun ⟨h1, h2⟩ => entails_pand_r (entails_refl _) ⟨?_, by simp; omega⟩
    obtain ⟨⟨w, hw⟩, hn⟩ := cstrV_prefix h1
    have hd : bytesV (l.drop i) = (bytesV l).drop i := by simp [bytesV, List.map_drop]
    rw [hd, ← hw, bytesV_append, List.append_assoc, List.drop_append_of_le_length (by rw [bytesV_length]; omega)]
    have : (bytesV t).drop i = bytesV (t.drop i) := by simp [bytesV, List.map_drop]
    rw [this]
    exact cstrV_bytes (fun h => hn (List.mem_of_mem_drop h)) w

theorem strcat_spec {dst : Ptr} {src : CharPtr} {t1 t2 : List UInt8} {rest : List Val} {C : HProp} (R : Reads C src t2) (h1 : NoNul t1) (hr : t2.length ≤ rest.length) :
    Triple rel (dst ↦ (bytesV t1 ++ .byte 0 :: rest) ∗ C) (strcat dst src)
      (fun _ => dst ↦ (bytesV (t1 ++ t2) ++ .byte 0 :: rest.drop t2.length) ∗ C) := by
  have hc : Triple rel (dst ↦ (bytesV t1 ++ .byte 0 :: rest)) (strlen (.heap dst 0))
      (fun r => (r = t1.length) ⋏ dst ↦ (bytesV t1 ++ .byte 0 :: rest)) := by
    unfold strlen
    step (cstr_pts (p := dst) (off := 0) (vs := bytesV t1 ++ .byte 0 :: rest) (t := t1) (Nat.zero_le _) (cstrV_bytes h1 rest))
    exact Triple.pure (entails_pand_r (entails_refl _) rfl)
  unfold strcat
  step hc
  last (R.strcpy (dst := dst) (off := t1.length) (b := bytesV t1 ++ .byte 0 :: rest) (by simp [bytesV]; omega))
  rw [sep_emp]
  refine sep_mono ?_ (entails_refl _)
  have : patch (bytesV t1 ++ .byte 0 :: rest) t1.length (bytesV (t2 ++ [0])) = bytesV (t1 ++ t2) ++ .byte 0 :: rest.drop t2.length := by
    unfold patch
    rw [List.take_append_of_le_length (by simp [bytesV]), List.take_of_length_le (by simp [bytesV]), bytesV_append, bytesV_append,
      List.drop_append, List.drop_of_length_le (by simp [bytesV])]
    simp [bytesV]
  rw [this]; exact entails_refl _

/-- `strcpy(dst, s1); strcat(dst, sep); strcat(dst, s2)` into a block of exactly the right size -/
theorem join_spec {dst : Ptr} {s1 s2 : CharPtr} {t1 t2 sp : List UInt8} {n : Nat} {β : Type} {k : M β} {P F C2 : HProp} {Q : β → HProp}
    (R2 : Reads C2 s2 t2) (hn : n = t1.length + sp.length + t2.length + 1) (hsp : NoNul sp) (hl : sp.length < maxObj)
    (pk : Pick P (CStr s1 t1) F) (pk2 : Pick F (C2) G)
    (hk : NoNul (t1 ++ sp ++ t2) → Triple rel (dst ↦ (bytesV (t1 ++ sp ++ t2) ++ [.byte 0]) ∗ P) k Q) :
    Triple rel (dst ↦ List.replicate n .undef ∗ P) (do strcpy dst 0 s1; strcat dst (.str sp); strcat dst s2; k) Q := by
  unfold Pick at pk pk2
  rw [pk, pk2]
  refine Triple.know (know_CStr (s := s1) (t := t1) (by pick)) fun k1 => ?_
  refine Triple.know (R2.know (by pick)) fun k2 => ?_
  have hn1 : NoNul (t1 ++ sp) := by simp only [NoNul, List.mem_append, not_or]; exact ⟨k1.2.1, hsp⟩
  have hn2 : NoNul (t1 ++ sp ++ t2) := by simp only [NoNul, List.mem_append, not_or]; exact ⟨⟨k1.2.1, hsp⟩, k2.2.1⟩
  step (strcpy_spec (dst := dst) (off := 0) (b := List.replicate n .undef) (src := s1) (t := t1) (by simp; omega))
  have e : patch (List.replicate n Val.undef) 0 (bytesV (t1 ++ [0])) = bytesV t1 ++ .byte 0 :: List.replicate (sp.length + t2.length) .undef := by
    rw [patch_zero, bytesV_append, List.drop_replicate, List.append_assoc]
    simp only [bytesV, List.map_cons, List.map_nil, List.cons_append, List.nil_append, List.length_append, List.length_map, List.length_cons, List.length_nil]
    congr 3; omega
  rw [e]
  have hlit := CStr_str hsp hl
  refine Triple.pre (P' := CStr (.str sp) sp ∗ dst ↦ (bytesV t1 ++ .byte 0 :: List.replicate (sp.length + t2.length) .undef) ∗ CStr s1 t1 ∗ C2 ∗ G) ?_ ?_
  rotate_left
  · refine entails_trans ?_ (sep_mono hlit (entails_refl _))
    rw [emp_sep]; sep_cancel
  step (strcat_spec (CStr_reads (s := .str sp)) (dst := dst) (src := .str sp) (t1 := t1) (t2 := sp) (rest := List.replicate (sp.length + t2.length) .undef) k1.2.1 (by simp))
  step (strcat_spec R2 (dst := dst) (src := s2) (t1 := t1 ++ sp) (t2 := t2) (rest := (List.replicate (sp.length + t2.length) .undef).drop sp.length) hn1 (by simp))
  have e2 : ((List.replicate (sp.length + t2.length) Val.undef).drop sp.length).drop t2.length = [] := by simp
  rw [e2]
  refine (hk hn2).pre ?_
  rw [pk, pk2]
  have : CStr (.str sp) sp ⊢ₕ emp := entails_pand_l fun _ => entails_refl _
  refine entails_trans (Q := CStr (.str sp) sp ∗ dst ↦ (bytesV (t1 ++ sp ++ t2) ++ [.byte 0]) ∗ CStr s1 t1 ∗ C2 ∗ G) (by sep_cancel) ?_
  refine entails_trans (sep_mono this (entails_refl _)) ?_
  rw [emp_sep]; exact entails_refl _

/-! ## creation and release -/

theorem HTTPHeaders_Alloc_spec : Triple rel emp HTTPHeaders_Alloc (Made HdrR (¬ rel) (fun hs => hs = [])) := by
  unfold HTTPHeaders_Alloc
  refine Triple.mallocS (by decide) (fun hb => ?_) (fun r hr => ?_)
  · rw [if_pos rfl]; exact Triple.pure (Made_fail hb)
  · rw [if_neg hr]
    step Map_Create_spec into m
    by_cases hm : m = 0
    · subst hm
      rw [Made_zero]; hoist; intro hb
      step (store_spec ?_)
      rw [if_pos rfl]
      step free_spec
      exact Triple.pure (Made_fail hb)
    · rw [Made_ne hm]; hoist; intro mv h1 h2
      step (store_spec ?_)
      rw [if_neg hm]
      refine Triple.pure (Made_ok [] hr rfl ?_)
      have : mv = ⟨[], 0⟩ := by cases mv; simp_all
      subst this
      refine entails_trans ?_ (HdrR_intro (m := m))
      sep_cancel

theorem HTTPHeaders_Free_spec {h : Ptr} {a : Option Hdrs} : Triple rel (OHdr h a) (HTTPHeaders_Free h) (fun _ => emp) := by
  unfold HTTPHeaders_Free
  refine Triple.know (know_OHdr (h := h) (a := a) (by pick)) fun hn => ?_
  cases a with
  | none =>
    simp only [OHdr, ORep_none]; hoist; rintro rfl
    rw [if_pos rfl]; exact Triple.pure (entails_refl _)
  | some hs =>
    rw [if_neg (by simp [hn])]
    simp only [OHdr, ORep_some, HdrR]; hoist; intro m
    step (loadPtr_spec (p := h) ?_)
    rw [show MapR m ⟨hs, 0⟩ = OMap m (some ⟨hs, 0⟩) from rfl]
    step Map_Destroy_spec
    last free_spec
    rw [sep_emp]; exact entails_refl _

theorem HTTPHeaders_Clone_spec {h : Ptr} {a : Option Hdrs} :
    Triple rel (OHdr h a) (HTTPHeaders_Clone h)
      (fun r => Made HdrR (a = none ∨ ¬ rel ∨ ∃ hs, a = some hs ∧ maxObj < 8 * hs.length) (fun hs' => a = some hs') r ∗ OHdr h a) := by
  unfold HTTPHeaders_Clone
  refine Triple.know (know_OHdr (h := h) (a := a) (by pick)) fun hn => ?_
  cases a with
  | none =>
    simp only [OHdr, ORep_none]; hoist; rintro rfl
    rw [if_pos rfl]; exact Triple.pure (Made_fail_sep (Or.inl trivial) (entails_pand_r (entails_refl _) rfl))
  | some hs =>
    rw [if_neg (by simp [hn])]
    refine Triple.mallocS (by decide) (fun hb => ?_) (fun r hr => ?_)
    · rw [if_pos rfl]; exact Triple.pure (Made_fail_sep (Or.inr (Or.inl hb)) (entails_refl _))
    · rw [if_neg hr]
      simp only [OHdr, ORep_some]
      rw [HdrR]; hoist; intro m
      step (loadPtr_spec (p := h) ?_)
      rw [show MapR m ⟨hs, 0⟩ = OMap m (some ⟨hs, 0⟩) from rfl]
      step Map_Clone_spec into m'
      by_cases hm : m' = 0
      · subst hm
        rw [Made_zero]; hoist; intro hb
        step (store_spec (p := r) ?_)
        rw [if_pos rfl]
        step (free_spec (p := r))
        refine Triple.pure (Made_fail_sep ?_ ?_)
        · rcases hb with hb | hb | ⟨_, hb, h2⟩
          · simp at hb
          · exact Or.inr (Or.inl hb)
          · cases hb; exact Or.inr (Or.inr ⟨hs, rfl, h2⟩)
        · refine entails_trans ?_ (HdrR_intro (m := m))
          sep_cancel
      · rw [Made_ne hm]; hoist; intro mv mv0 e1 e2
        cases e1
        subst e2
        step (store_spec (p := r) ?_)
        rw [if_neg hm]
        refine Triple.pure (Made_ok_sep hs hr rfl ?_)
        refine entails_trans ?_ (sep_mono (HdrR_intro (m := m')) (HdrR_intro (m := m)))
        have : MapV.clone ⟨hs, 0⟩ = ⟨hs, 0⟩ := by simp [MapV.clone]
        rw [this]
        sep_cancel

/-! ## storing a header -/

/-- where the first bad character of a name is -/
def badAt (t : Text) : Nat := (t.findIdx fun c => decide (c < 33 ∨ 126 < c ∨ c = 58))

theorem charAt_storage {s : CharPtr} {t : Text} {V : HProp} (hS : Triple rel V (storage s) (fun r => (bytesV (t ++ [0]) <+: r) ⋏ V)) {i : Nat} {c : UInt8}
    (hc : (t ++ [0])[i]? = some c) : Triple rel V (charAt s i) (fun r => (r = c) ⋏ V) := by
  unfold charAt
  step hS into vs
  rintro ⟨w, rfl⟩
  have hi := (List.getElem?_eq_some_iff.1 hc).1
  have : (bytesV (t ++ [0]) ++ w)[i]? = some (.byte c) := by
    rw [List.getElem?_append_left (by rw [bytesV_length]; exact hi)]
    simp only [bytesV, List.getElem?_map, hc, Option.map_some]
  rw [this]
  exact Triple.pure (entails_pand_r (entails_refl _) rfl)

theorem nameLoop_spec {s : CharPtr} {t : Text} {V : HProp} (hS : Triple rel V (storage s) (fun r => (bytesV (t ++ [0]) <+: r) ⋏ V)) : ∀ n i, i + n = t.length →
    Triple rel V (nameLoop s n i) (fun r => (r = i + badAt (t.drop i)) ⋏ V) := by
  intro n
  induction n with
  | zero =>
    intro i hi
    refine Triple.pure (entails_pand_r (entails_refl _) ?_)
    rw [List.drop_of_length_le (by omega)]; rfl
  | succ n ih =>
    intro i hi
    have hlt : i < t.length := by omega
    have hg : (t ++ [0])[i]? = some t[i] := by
      rw [List.getElem?_append_left hlt, List.getElem?_eq_getElem hlt]
    have hd : t.drop i = t[i] :: t.drop (i + 1) := List.drop_eq_getElem_cons hlt
    unfold nameLoop
    step (charAt_storage hS hg)
    refine Triple.ite (fun hc => ?_) (fun hc => ?_)
    · refine Triple.pure (entails_pand_r (entails_refl _) ?_)
      rw [hd, badAt, List.findIdx_cons]; simp [hc]
    · refine (ih (i + 1) (by omega)).conseq (entails_refl _) fun r => entails_pand_l fun h => entails_pand_r (entails_refl _) ?_
      rw [h, hd, badAt, badAt, List.findIdx_cons]; simp [hc]; omega

theorem badAt_lt {t : Text} : badAt t < t.length ↔ ¬ okName t := by
  unfold badAt okName
  rw [List.findIdx_lt_length]
  constructor
  · rintro ⟨c, h1, h2⟩ h
    have := h c h1
    simp only [decide_eq_true_eq] at h2
    rcases h2 with h2 | h2 | h2
    · exact absurd this.1 (by simpa using h2)
    · exact absurd this.2.1 (by simpa using h2)
    · exact this.2.2 h2
  · intro h
    apply Classical.byContradiction
    intro h2
    apply h
    intro c hc
    have : ¬ (c < 33 ∨ 126 < c ∨ c = 58) := fun h3 => h2 ⟨c, hc, by simpa using h3⟩
    simp only [not_or] at this
    exact ⟨by simpa using this.1, by simpa using this.2.1, this.2.2⟩

theorem skipLoop_eq {s : CharPtr} {w : List Val} : ∀ (t : Text) (n : Nat),
    skipLoop s (bytesV (t ++ [0]) ++ w) n = pure (addPtr s (n + (t.takeWhile isLWS).length))
  | [], n => by simp [skipLoop, bytesV]
  | c :: t, n => by
    have ih := skipLoop_eq (s := s) (w := w) t (n + 1)
    simp only [bytesV, List.cons_append, List.map_cons] at ih ⊢
    unfold skipLoop
    by_cases h : c = 32 ∨ c = 9 ∨ c = 13 ∨ c = 10
    · rw [if_pos h, ih]
      have : isLWS c = true := by simp [isLWS]; rcases h with h | h | h | h <;> simp [h]
      rw [List.takeWhile_cons, if_pos this, List.length_cons, show n + 1 + (t.takeWhile isLWS).length = n + ((t.takeWhile isLWS).length + 1) by omega]
    · rw [if_neg h]
      have : ¬ isLWS c = true := by simp only [not_or] at h; simp [isLWS, h]
      rw [List.takeWhile_cons, if_neg this]; rfl

theorem takeWhile_le (v : Text) : (v.takeWhile isLWS).length ≤ v.length := (List.takeWhile_sublist _).length_le

theorem drop_takeWhile (v : Text) : v.drop (v.takeWhile isLWS).length = v.dropWhile isLWS := by
  have h := List.drop_left (l₁ := v.takeWhile isLWS) (l₂ := v.dropWhile isLWS)
  rwa [List.takeWhile_append_dropWhile] at h

theorem pts_reads_at {p off i : Nat} {vs : List Val} {t : List UInt8} (h1 : off ≤ vs.length) (h2 : cstrV (vs.drop off) = some t) (hi : i ≤ t.length) :
    Reads (p ↦ vs) (addPtr (.heap p off) i) (t.drop i) := by
  obtain ⟨⟨w, hw⟩, hn⟩ := cstrV_prefix h2
  have hl := congrArg List.length hw
  simp only [List.length_append, bytesV_length, List.length_drop, List.length_cons, List.length_nil] at hl
  have e : vs.drop (off + i) = (vs.drop off).drop i := by rw [List.drop_drop]
  refine pts_reads (by omega) ?_
  rw [e, ← hw, bytesV_append, List.append_assoc, List.drop_append_of_le_length (by rw [bytesV_length]; omega)]
  have : (bytesV t).drop i = bytesV (t.drop i) := by simp [bytesV, List.map_drop]
  rw [this]
  exact cstrV_bytes (fun h => hn (List.mem_of_mem_drop h)) w

/-- a text can be read from any point on, and its memory put back -/
theorem CStr_open {s : CharPtr} {t : List UInt8} {i : Nat} (hi : i ≤ t.length) :
    CStr s t ⊢ₕ ∃∃ C : HProp, (Reads C (addPtr s i) (t.drop i) ∧ (C ⊢ₕ CStr s t)) ⋏ C := by
  cases s with
  | null => exact entails_pand_l fun h => h.elim
  | lit l =>
    intro h hp
    have hc := CStr_add (s := .lit l) hi h hp
    unfold CStr at hp
    obtain ⟨h1, h2⟩ := hp
    unfold addPtr CStr at hc
    refine ⟨emp, ⟨lit_reads hc.1.1 hc.1.2, ?_⟩, h2⟩
    unfold CStr; exact entails_pand_r (entails_refl _) h1
  | heap p off =>
    unfold CStr
    refine entails_ex_l fun vs => entails_pand_l fun ⟨h1, h2⟩ => ?_
    refine entails_ex_r (p ↦ vs) (entails_pand_r (entails_refl _) ⟨?_, ?_⟩)
    · exact pts_reads_at h1 h2 hi
    · exact entails_ex_r vs (entails_pand_r (entails_refl _) ⟨h1, h2⟩)

theorem find_none {hs : Hdrs} {n : Text} : find hs n = none ↔ n ∉ hs.map Prod.fst := by
  simp only [find, Option.map_eq_none_iff, List.find?_eq_none, List.mem_map, decide_eq_true_eq]
  constructor
  · rintro h ⟨p, hp, e⟩; exact h p hp e
  · rintro h p hp e; exact h ⟨p, hp, e⟩

theorem find_some {hs : Hdrs} {n v : Text} (hn : (hs.map Prod.fst).Nodup) (h : (n, v) ∈ hs) : find hs n = some v := by
  induction hs with
  | nil => simp at h
  | cons p hs ih =>
    simp only [List.map_cons, List.nodup_cons] at hn
    rcases List.mem_cons.1 h with rfl | h
    · simp [find]
    · have hne : p.1 ≠ n := fun e => hn.1 (e ▸ List.mem_map_of_mem (f := Prod.fst) h)
      have := ih hn.2 h
      simpa [find, List.find?_cons, hne] using this

/-- what `Map_AddOrUpdate` does on a map without filter -/
theorem update_stored {hs : Hdrs} {n v : Text} {r : Map.MapResult} {a' : Option MapV}
    (h : UpdateE noFilt rel (some ⟨hs, 0⟩) (some n) (some v) r a') :
    (r = .ok ∧ a' = some ⟨stored true hs n v, 0⟩) ∨ (r ≠ .ok ∧ a' = some ⟨hs, 0⟩ ∧ (¬ rel ∨ maxObj < 8 * (hs.length + 1))) := by
  have hk : MapV.keys ⟨hs, 0⟩ = hs.map Prod.fst := rfl
  simp only [UpdateE, MapV.rejects, hk, ne_eq, not_true_eq_false, false_and, not_false_eq_true, true_and, false_or] at h
  rcases h with ⟨h1, m', rfl, h2⟩ | ⟨h1, h2⟩
  · rcases h2 with ⟨rfl, rfl⟩ | ⟨rfl, h3, h4, h5⟩
    · left; refine ⟨rfl, ?_⟩
      rw [stored, find_none.2 h1]; rfl
    · right
      refine ⟨by simp, ?_, h3⟩
      have : m'.filter = 0 := by rcases h5 with h5 | ⟨_, h5⟩ <;> exact h5
      cases m'; simp_all
  · rcases h2 with ⟨rfl, rfl⟩ | ⟨rfl, h3, rfl⟩
    · left; refine ⟨rfl, ?_⟩
      cases hf : find hs n with
      | none => exact absurd h1 (find_none.1 hf)
      | some old => simp only [stored, hf, if_true]; rfl
    · exact Or.inr ⟨by simp, rfl, Or.inl h3⟩

abbrev Stored (rel : Prop) (replace : Bool) (h : Ptr) (a : Option Hdrs) (name : CharPtr) (on : Option Text) (value : CharPtr) (ov : Option Text) (r : Res) : HProp :=
  ∃∃ a' : Option Hdrs, (StoreE rel replace a on ov r a') ⋏ OHdr h a' ∗ Arg name on ∗ Arg value ov

theorem put_spec {m : Ptr} {hs : Hdrs} {name value : CharPtr} {n v : Text} {A : HProp} (hA : Args2 A name (some n) value (some v)) :
    Triple rel (MapR m ⟨hs, 0⟩ ∗ A) (Map.Map_AddOrUpdate noFilt m name value)
      (fun r => ∃∃ hs' : Hdrs, ((r = .ok ∧ hs' = stored true hs n v) ∨ (r ≠ .ok ∧ hs' = hs ∧ (¬ rel ∨ maxObj < 8 * (hs.length + 1)))) ⋏
        MapR m ⟨hs', 0⟩ ∗ A) := by
  refine (Map_AddOrUpdate_spec (rel := rel) (flt := noFilt) (h := m) (a := some ⟨hs, 0⟩) hA).conseq
    (entails_refl _) fun r => ?_
  refine entails_ex_l fun a' => entails_pand_l fun h => ?_
  rcases update_stored h with ⟨h1, rfl⟩ | ⟨h1, rfl, h3⟩
  · exact entails_ex_r _ (entails_pand_r (entails_refl _) (Or.inl ⟨h1, rfl⟩))
  · exact entails_ex_r _ (entails_pand_r (entails_refl _) (Or.inr ⟨h1, rfl, h3⟩))

theorem StoreE_ok {replace : Bool} {hs hs' : Hdrs} {n v : Text} (hb : okName n) (h : hs' = stored replace hs n (v.dropWhile isLWS)) :
    StoreE rel replace (some hs) (some n) (some v) .ok (some hs') := by
  have e : ∀ r a', StoreE rel replace (some hs) (some n) (some v) r a' = if okName n then _ else _ := fun _ _ => rfl
  rw [e, if_pos hb]; subst h
  exact Or.inl ⟨rfl, rfl⟩

theorem StoreE_fail {replace : Bool} {hs : Hdrs} {n v : Text} {r : Res} (hb : okName n)
    (hr : r = .allocFailed ∨ (r = .error ∧ replace = false ∧ find hs n ≠ none))
    (h : ¬ rel ∨ maxObj < 8 * (hs.length + 1) ∨ ∃ old, find hs n = some old ∧ maxObj ≤ old.length + 2 + v.length) :
    StoreE rel replace (some hs) (some n) (some v) r (some hs) := by
  have e : ∀ r a', StoreE rel replace (some hs) (some n) (some v) r a' = if okName n then _ else _ := fun _ _ => rfl
  rw [e, if_pos hb]
  exact Or.inr ⟨hr, rfl, h⟩

/-- Memory a value can be read from at any point, and put back. -/
structure Opens (V : HProp) (s : CharPtr) (t : List UInt8) : Prop where
  know' : ∀ h, V h → s ≠ .null ∧ NoNul t ∧ t.length < maxObj
  storage : ∀ {rel : Prop}, Triple rel V (storage s) (fun r => (bytesV (t ++ [0]) <+: r) ⋏ V)
  opened : ∀ {i : Nat}, i ≤ t.length → V ⊢ₕ ∃∃ C : HProp, (Reads C (addPtr s i) (t.drop i) ∧ (C ⊢ₕ V)) ⋏ C

theorem CStr_opens {s : CharPtr} {t : List UInt8} : Opens (CStr s t) s t where
  know' := know_CStr (R := emp) (by unfold Pick; rw [sep_emp])
  storage := storage_CStr
  opened := CStr_open

theorem pts_opens {p off : Nat} {vs : List Val} {t : List UInt8} (h1 : off ≤ vs.length) (h2 : cstrV (vs.drop off) = some t) :
    Opens (p ↦ vs) (.heap p off) t where
  know' := (pts_reads h1 h2).know'
  storage := (storage_pts h1).conseq (entails_refl _) fun r => entails_pand_l fun e => entails_pand_r (entails_refl _) (e ▸ (cstrV_prefix h2).1)
  opened := by
    intro i hi
    refine entails_ex_r (p ↦ vs) (entails_pand_r (entails_refl _) ⟨?_, entails_refl _⟩)
    exact pts_reads_at h1 h2 hi

/-- Memory a name and a value can be read from, the value at any point, and put back.  They may share memory. -/
structure Pair (V : HProp) (name : CharPtr) (n : Text) (value : CharPtr) (v : Text) : Prop where
  know' : ∀ h, V h → value ≠ .null ∧ NoNul v ∧ v.length < maxObj
  reads : Reads V name n
  storage1 : ∀ {rel : Prop}, Triple rel V (storage name) (fun r => (bytesV (n ++ [0]) <+: r) ⋏ V)
  storage2 : ∀ {rel : Prop}, Triple rel V (storage value) (fun r => (bytesV (v ++ [0]) <+: r) ⋏ V)
  opened : ∀ {i : Nat}, i ≤ v.length → V ⊢ₕ ∃∃ C : HProp, (Reads C name n ∧ Reads C (addPtr value i) (v.drop i) ∧ (C ⊢ₕ V)) ⋏ C

theorem Pair.sep {name value : CharPtr} {n v : Text} {V : HProp} (O : Opens V value v) : Pair (CStr name n ∗ V) name n value v where
  know' := fun h hp => by
    obtain ⟨_, _, _, _, _, h1⟩ := hp
    exact O.know' _ h1
  reads := CStr_reads.frame V
  storage1 := (storage_CStr.frame V).conseq (entails_refl _) fun r => by rw [pand_sep]; exact entails_refl _
  storage2 := by
    rw [sep_comm]
    exact (O.storage.frame _).conseq (entails_refl _) fun r => by rw [pand_sep]; exact entails_refl _
  opened := by
    intro i hi
    refine entails_trans (sep_mono (entails_refl _) (O.opened hi)) ?_
    rw [sep_hex]
    refine entails_ex_l fun C => ?_
    rw [sep_pand]
    refine entails_pand_l fun ⟨R, hC⟩ => entails_ex_r (CStr name n ∗ C) (entails_pand_r (entails_refl _) ⟨CStr_reads.frame C, ?_, sep_mono (entails_refl _) hC⟩)
    rw [sep_comm]
    exact R.frame _

/-- both inside one block -/
theorem Pair.pts {p o1 o2 : Nat} {vs : List Val} {n v : Text} (h1 : o1 ≤ vs.length) (h2 : cstrV (vs.drop o1) = some n)
    (h3 : o2 ≤ vs.length) (h4 : cstrV (vs.drop o2) = some v) : Pair (p ↦ vs) (.heap p o1) n (.heap p o2) v where
  know' := (pts_opens h3 h4).know'
  reads := pts_reads h1 h2
  storage1 := (pts_opens h1 h2).storage
  storage2 := (pts_opens h3 h4).storage
  opened := by
    intro i hi
    exact entails_ex_r (p ↦ vs) (entails_pand_r (entails_refl _) ⟨pts_reads h1 h2, pts_reads_at h3 h4 hi, entails_refl _⟩)

/-- C28, for a name and a value in any memory they can be read from: that memory is given back. -/
theorem store_header_pair {h : Ptr} {hs : Hdrs} {name value : CharPtr} {n v : Text} {V : HProp} (O : Pair V name n value v) {replace : Bool} :
    Triple rel (HdrR h hs ∗ V) (headers_ReplaceHeaderNameValuePair h name value replace)
      (fun r => ∃∃ hs' : Hdrs, (StoreE rel replace (some hs) (some n) (some v) r (some hs')) ⋏ HdrR h hs' ∗ V) := by
  unfold headers_ReplaceHeaderNameValuePair
  refine Triple.know (know_OHdr (h := h) (a := some hs) (F := V) rfl) fun k1 => ?_
  refine Triple.know (O.reads.know (by pick)) fun k2 => ?_
  refine Triple.know (φ := value ≠ .null ∧ NoNul v ∧ v.length < maxObj) (fun hp hP => by
    obtain ⟨_, _, _, _, _, h1⟩ := hP; exact O.know' _ h1) fun kv => ?_
  rw [if_neg (by simp [k1, k2.1, kv.1])]
  step O.reads.strlen
  step (nameLoop_spec (s := name) (t := n) O.storage1 n.length 0 (by omega))
  rw [List.drop_zero, Nat.zero_add]
  refine Triple.ite (fun hb => ?_) (fun hb => ?_) <;> rw [badAt_lt] at hb
  · exact Triple.pure (entails_ex_r hs (entails_pand_r (by sep_cancel) (by simp [StoreE, hb])))
  have hb : okName n := Classical.byContradiction hb
  have skip : ∀ {X : HProp} {β : Type} {k : CharPtr → M β} {Q : β → HProp},
      (∀ C : HProp, Reads C name n → Reads C (addPtr value (v.takeWhile isLWS).length) (v.dropWhile isLWS) → (C ⊢ₕ V) →
        Triple rel (C ∗ X) (k (addPtr value (v.takeWhile isLWS).length)) Q) →
      Triple rel (V ∗ X) (do let vs ← storage value; let value ← skipLoop value vs 0; k value) Q := by
    intro X β k Q hk
    step O.storage2 into vs
    rintro ⟨w, rfl⟩
    rw [skipLoop_eq, Nat.zero_add]
    refine Triple.bind_pure ?_
    refine Triple.pre ?_ (sep_mono (O.opened (takeWhile_le v)) (entails_refl _))
    hoist; intro C R1 R hC
    rw [drop_takeWhile] at R
    exact hk C R1 R hC
  rw [HdrR]; hoist; intro m
  step (loadPtr_spec (p := h) ?_)
  refine Triple.know (know_MapR (h := m) (m := ⟨hs, 0⟩) (by pick)) fun hnd => ?_
  rw [show MapR m ⟨hs, 0⟩ = OMap m (some ⟨hs, 0⟩) from rfl]
  step (Map.Map_GetValueFromKey_reads (ok := some n) (show Map.ArgReads V name (some n) from O.reads)) into ex
  have hdl : (v.dropWhile isLWS).length ≤ v.length := (List.dropWhile_sublist _).length_le
  refine Triple.pre_eq (P' := V ∗ ValueAt m (some ⟨hs, 0⟩) (some n) ex ∗ h ↦ [Val.ptr m]) (by simp only [sep_assoc, sep_comm, sep_left_comm]) ?_
  refine skip fun C R1 R hC => ?_
  have fin : ∀ (r : Res) (hs' : Hdrs), StoreE rel replace (some hs) (some n) (some v) r (some hs') →
      MapR m ⟨hs', 0⟩ ∗ C ∗ h ↦ [Val.ptr m] ⊢ₕ
      ∃∃ hs' : Hdrs, (StoreE rel replace (some hs) (some n) (some v) r (some hs')) ⋏ HdrR h hs' ∗ V := by
    intro r hs' hE
    refine entails_ex_r hs' (entails_pand_r ?_ hE)
    refine entails_trans ?_ (sep_mono (HdrR_intro (m := m)) (entails_refl _))
    refine entails_trans ?_ (sep_mono (entails_refl _) hC)
    sep_cancel
  generalize addPtr value (v.takeWhile isLWS).length = value' at *
  by_cases h0 : ex = 0
  · subst h0
    rw [if_neg (by simp), ValueAt, if_pos rfl]
    hoist; intro hno
    have hf : find hs n = none := find_none.2 (hno ⟨hs, 0⟩ n rfl rfl)
    rw [show OMap m (some ⟨hs, 0⟩) = MapR m ⟨hs, 0⟩ from rfl]
    step (put_spec (Map.Args2.shared R1 R) (m := m) (name := name) (value := value')) into r
    intro hs' hr
    refine Triple.ite (fun hc2 => ?_) (fun hc2 => ?_)
    · rcases hr with ⟨h1, _⟩ | ⟨_, rfl, h3⟩
      · exact absurd h1 hc2
      · refine Triple.pure (fin _ _ ?_)
        exact StoreE_fail hb (Or.inl rfl) (h3.imp id Or.inl)
    · rcases hr with ⟨_, rfl⟩ | ⟨h1, _⟩
      · refine Triple.pure (fin _ _ ?_)
        exact StoreE_ok hb (by simp [stored, hf])
      · exact absurd h1 hc2
  · rw [ValueAt, if_neg h0]
    hoist; intro old F m0 n0 e1 e2 hmem hback
    cases e1; cases e2
    have hf : find hs n = some old := find_some hnd.2 hmem
    have hback' : CS ex old ∗ F ⊢ₕ MapR m ⟨hs, 0⟩ := hback
    cases replace with
    | true =>
      rw [if_neg (by simp)]
      refine Triple.pre (P' := MapR m ⟨hs, 0⟩ ∗ C ∗ h ↦ [Val.ptr m]) ?_ ?_
      rotate_left
      · refine entails_trans ?_ (sep_mono hback' (entails_refl _))
        sep_cancel
      step (put_spec (Map.Args2.shared R1 R) (m := m) (name := name) (value := value')) into r
      intro hs' hr
      refine Triple.ite (fun hc2 => ?_) (fun hc2 => ?_)
      · rcases hr with ⟨h1, _⟩ | ⟨_, rfl, h3⟩
        · exact absurd h1 hc2
        · refine Triple.pure (fin _ _ ?_)
          exact StoreE_fail hb (Or.inl rfl) (h3.imp id Or.inl)
      · rcases hr with ⟨_, rfl⟩ | ⟨h1, _⟩
        · refine Triple.pure (fin _ _ ?_)
          exact StoreE_ok hb rfl
        · exact absurd h1 hc2
    | false =>
      rw [if_pos ⟨rfl, h0⟩, ofPtr_ne h0]
      refine Triple.know (know_CStr (s := .heap ex 0) (t := old) (by pick)) fun ko => ?_
      step (strlen_spec (s := .heap ex 0))
      step R.strlen
      have hmod : (old.length + 2 + (v.dropWhile isLWS).length + 1) % szMod = old.length + 2 + (v.dropWhile isLWS).length + 1 := by
        have h1 := ko.2.2; have h2 := kv.2.2
        simp only [szMod, maxObj] at h1 h2 ⊢; omega
      rw [hmod]
      have unre : stored true hs n (old ++ [44, 32] ++ v.dropWhile isLWS) = stored false hs n (v.dropWhile isLWS) := by simp [stored, hf]
      refine Triple.malloc (fun hbad => ?_) (fun nv hnv hle => ?_)
      · rw [if_pos rfl]
        refine Triple.pure (entails_trans ?_ (fin .allocFailed hs ?_))
        · refine entails_trans ?_ (sep_mono hback' (entails_refl _))
          sep_cancel
        refine StoreE_fail hb (Or.inl rfl) ?_
        rcases hbad with hbad | hbad
        · exact Or.inl hbad
        · exact Or.inr (Or.inr ⟨old, hf, by omega⟩)
      · rw [if_neg hnv]
        refine join_spec R (t1 := old) (sp := [44, 32]) (t2 := v.dropWhile isLWS) (by simp) (by decide) (by decide) (by pick) (by pick) fun hnn => ?_
        refine Triple.pre (P' := MapR m ⟨hs, 0⟩ ∗ (C ∗ CStr (.heap nv 0) (old ++ [44, 32] ++ v.dropWhile isLWS)) ∗ h ↦ [Val.ptr m]) ?_ ?_
        rotate_left
        · refine entails_trans (Q := (CS ex old ∗ F) ∗ (C ∗ nv ↦ (bytesV (old ++ [44, 32] ++ v.dropWhile isLWS) ++ [.byte 0])) ∗ h ↦ [Val.ptr m]) (by sep_cancel) ?_
          exact sep_mono hback' (sep_mono (sep_mono (entails_refl _) (CStr_intro hnn [])) (entails_refl _))
        step (put_spec (A := C ∗ CStr (.heap nv 0) (old ++ [44, 32] ++ v.dropWhile isLWS))
          ⟨⟨C, _, R1, rfl⟩, ⟨_, _, CStr_reads, sep_comm _ _⟩⟩ (m := m) (name := name) (value := .heap nv 0)) into r
        intro hs' hr
        refine Triple.ite (fun hc2 => ?_) (fun hc2 => ?_)
        · rcases hr with ⟨h1, _⟩ | ⟨_, rfl, h3⟩
          · exact absurd h1 hc2
          step (Map.free_CS (p := nv))
          refine Triple.pure (entails_trans ?_ (fin .error hs' ?_))
          · sep_cancel
          exact StoreE_fail hb (Or.inr ⟨rfl, rfl, by simp [hf]⟩) (h3.imp id Or.inl)
        · rcases hr with ⟨_, rfl⟩ | ⟨h1, _⟩
          · step (Map.free_CS (p := nv))
            refine Triple.pure (entails_trans ?_ (fin .ok (stored true hs n (old ++ [44, 32] ++ v.dropWhile isLWS)) ?_))
            · sep_cancel
            exact StoreE_ok hb unre
          · exact absurd h1 hc2

/-- C28, for a value in any memory it can be read from: that memory is given back. -/
theorem store_header_opens {h : Ptr} {hs : Hdrs} {name value : CharPtr} {n v : Text} {V : HProp} (O : Opens V value v) {replace : Bool} :
    Triple rel (HdrR h hs ∗ CStr name n ∗ V) (headers_ReplaceHeaderNameValuePair h name value replace)
      (fun r => ∃∃ hs' : Hdrs, (StoreE rel replace (some hs) (some n) (some v) r (some hs')) ⋏ HdrR h hs' ∗ CStr name n ∗ V) :=
  store_header_pair (Pair.sep O)

/-- C28: adding and replacing. -/
theorem store_header_spec {h : Ptr} {a : Option Hdrs} {name value : CharPtr} {on ov : Option Text} {replace : Bool} :
    Triple rel (OHdr h a ∗ Arg name on ∗ Arg value ov) (headers_ReplaceHeaderNameValuePair h name value replace)
      (Stored rel replace h a name on value ov) := by
  refine Triple.know (know_OHdr (h := h) (a := a) (by pick)) fun k1 => ?_
  refine Triple.know (know_Arg (s := name) (o := on) (by pick)) fun k2 => ?_
  refine Triple.know (know_Arg (s := value) (o := ov) (by pick)) fun k3 => ?_
  by_cases hc : a = none ∨ on = none ∨ ov = none
  · unfold headers_ReplaceHeaderNameValuePair
    rw [if_pos (by rw [k1, k2, k3]; exact hc)]
    refine Triple.pure (entails_ex_r a (entails_pand_r (entails_refl _) ?_))
    cases a <;> cases on <;> cases ov <;> simp_all [StoreE]
  simp only [not_or] at hc
  obtain ⟨hs, rfl⟩ := Option.ne_none_iff_exists'.1 hc.1
  obtain ⟨n, rfl⟩ := Option.ne_none_iff_exists'.1 hc.2.1
  obtain ⟨v, rfl⟩ := Option.ne_none_iff_exists'.1 hc.2.2
  exact (store_header_opens CStr_opens).conseq (entails_refl _) fun r => entails_ex_l fun hs' => entails_pand_l fun hE =>
    entails_ex_r (some hs') (entails_pand_r (entails_refl _) hE)

/-! ## queries -/

/-- What `HTTPHeaders_FindHeaderValue` lets the caller see: NULL if there is no such header, else a pointer to the text of its
value, inside the headers. -/
def FoundAt (h : Ptr) (a : Option Hdrs) (on : Option Text) (r : Ptr) : HProp :=
  if r = 0 then ((∀ hs n, a = some hs → on = some n → find hs n = none) ⋏ OHdr h a)
  else ∃∃ (v : Text) (F : HProp), (∃ hs n, a = some hs ∧ on = some n ∧ find hs n = some v ∧ (CS r v ∗ F ⊢ₕ HdrR h hs)) ⋏ CS r v ∗ F

theorem FoundAt_back {h : Ptr} {a : Option Hdrs} {on : Option Text} {r : Ptr} : FoundAt h a on r ⊢ₕ OHdr h a := by
  unfold FoundAt
  split
  · exact entails_pand_l fun _ => entails_refl _
  · refine entails_ex_l fun v => entails_ex_l fun F => entails_pand_l ?_
    rintro ⟨m, k, rfl, rfl, h1, h2⟩
    exact h2

/-- C28: `HTTPHeaders_FindHeaderValue`. -/
theorem HTTPHeaders_FindHeaderValue_spec {h : Ptr} {a : Option Hdrs} {name : CharPtr} {on : Option Text} :
    Triple rel (OHdr h a ∗ Arg name on) (HTTPHeaders_FindHeaderValue h name) (fun r => FoundAt h a on r ∗ Arg name on) := by
  unfold HTTPHeaders_FindHeaderValue
  refine Triple.know (know_OHdr (h := h) (a := a) (by pick)) fun k1 => ?_
  refine Triple.know (know_Arg (s := name) (o := on) (by pick)) fun k2 => ?_
  refine Triple.ite (fun hc => ?_) (fun hc => ?_) <;> rw [k1, k2] at hc
  · refine Triple.pure ?_
    rw [FoundAt, if_pos rfl, pand_sep]
    refine entails_pand_r (entails_refl _) ?_
    rintro m k rfl rfl; simp at hc
  simp only [not_or] at hc
  obtain ⟨hs, rfl⟩ := Option.ne_none_iff_exists'.1 hc.1
  obtain ⟨n, rfl⟩ := Option.ne_none_iff_exists'.1 hc.2
  simp only [OHdr, ORep_some]
  rw [HdrR]; hoist; intro m
  step (loadPtr_spec (p := h) ?_)
  refine Triple.know (know_MapR (h := m) (m := ⟨hs, 0⟩) (by pick)) fun hnd => ?_
  rw [show MapR m ⟨hs, 0⟩ = OMap m (some ⟨hs, 0⟩) from rfl]
  last Map_GetValueFromKey_spec
  rename_i r
  unfold ValueAt FoundAt
  by_cases h0 : r = 0
  · rw [if_pos h0, if_pos h0]
    simp only [pand_sep]
    refine entails_pand_l fun h1 => entails_pand_r ?_ ?_
    · refine entails_trans ?_ (sep_mono (HdrR_intro (m := m)) (entails_refl _))
      rw [show MapR m ⟨hs, 0⟩ = OMap m (some ⟨hs, 0⟩) from rfl]
      sep_cancel
    · rintro _ _ e1 e2; cases e1; cases e2
      exact find_none.2 (h1 _ _ rfl rfl)
  · rw [if_neg h0, if_neg h0]
    simp only [hex_sep, pand_sep]
    refine entails_ex_l fun v => entails_ex_l fun F => entails_pand_l ?_
    rintro ⟨_, _, e1, e2, h3, h4⟩
    cases e1; cases e2
    have h4' : CS r v ∗ F ⊢ₕ MapR m ⟨hs, 0⟩ := h4
    refine entails_ex_r v (entails_ex_r (F ∗ h ↦ [.ptr m]) (entails_pand_r ?_ ⟨hs, n, rfl, rfl, find_some hnd.2 h3, ?_⟩))
    · simp only [sep_assoc]; sep_cancel
    · refine entails_trans ?_ (HdrR_intro (m := m))
      refine entails_trans (Q := h ↦ [.ptr m] ∗ CS r v ∗ F) (by sep_cancel) ?_
      exact sep_mono (entails_refl _) h4'

/-- C28: `HTTPHeaders_GetHeaderCount`. -/
theorem HTTPHeaders_GetHeaderCount_spec {h : Ptr} {a : Option Hdrs} {out : Bool} :
    Triple rel (OHdr h a) (HTTPHeaders_GetHeaderCount h out)
      (fun r => (match a, out with
        | some hs, true => r = (.ok, some hs.length)
        | _, _ => r = (.invalidArg, none)) ⋏ OHdr h a) := by
  unfold HTTPHeaders_GetHeaderCount
  refine Triple.know (know_OHdr (h := h) (a := a) (by pick)) fun k1 => ?_
  refine Triple.ite (fun hc => ?_) (fun hc => ?_) <;> rw [k1] at hc
  · refine Triple.pure (entails_pand_r (entails_refl _) ?_)
    cases a <;> cases out <;> simp_all
  simp only [not_or] at hc
  obtain ⟨hs, rfl⟩ := Option.ne_none_iff_exists'.1 hc.1
  have ho : out = true := by simpa using hc.2
  subst ho
  simp only [OHdr, ORep_some]
  rw [HdrR]; hoist; intro m
  step (loadPtr_spec (p := h) ?_)
  rw [show MapR m ⟨hs, 0⟩ = OMap m (some ⟨hs, 0⟩) from rfl]
  step Map_GetInternals_spec into r
  rcases r with ⟨c, o⟩
  cases o with
  | none =>
    cases c <;> (unfold InternalsAt; hoist; intro hh) <;> try exact hh.elim
    simp at hh
  | some x =>
    obtain ⟨kp, vp, n⟩ := x
    cases c <;> (unfold InternalsAt; hoist) <;> try (intro hh; exact hh.elim)
    intro m0 ha _ hn hnd
    cases ha; subst hn
    refine Triple.pure (entails_pand_r ?_ rfl)
    refine entails_trans ?_ (HdrR_intro (m := m))
    refine entails_trans ?_ (sep_mono (entails_refl _) (Map.MapR_close (kp := kp) (vp := vp) (h := m) (m := ⟨hs, 0⟩) rfl rfl rfl rfl hnd (entails_refl _)))
    sep_cancel

/-- What `HTTPHeaders_GetHeader` does with `*destination`: on success it is a new block holding exactly the line and its NUL. -/
def GotHeader (rel : Prop) (a : Option Hdrs) (i : Nat) (out : Bool) (r : Res × Option Ptr) : HProp :=
  match a, out with
  | some hs, true =>
    match line hs i with
    | none => (r = (.invalidArg, none)) ⋏ emp
    | some t => if r = (.error, some 0) then ((¬ rel ∨ maxObj < t.length + 1) ⋏ emp)
      else ∃∃ p : Nat, (p ≠ 0 ∧ r = (.ok, some p) ∧ NoNul t) ⋏ p ↦ bytesV (t ++ [0])
  | _, _ => (r = (.invalidArg, none)) ⋏ emp

/-- C29: `HTTPHeaders_GetHeader`. -/
theorem HTTPHeaders_GetHeader_spec {h : Ptr} {a : Option Hdrs} {i : Nat} {out : Bool} :
    Triple rel (OHdr h a) (HTTPHeaders_GetHeader h i out) (fun r => GotHeader rel a i out r ∗ OHdr h a) := by
  unfold HTTPHeaders_GetHeader
  refine Triple.know (know_OHdr (h := h) (a := a) (by pick)) fun k1 => ?_
  refine Triple.ite (fun hc => ?_) (fun hc => ?_) <;> rw [k1] at hc
  · refine Triple.pure ?_
    have : GotHeader rel a i out (.invalidArg, none) = emp := by
      unfold GotHeader
      cases a <;> cases out <;> simp_all [true_pand]
    rw [this, emp_sep]; exact entails_refl _
  simp only [not_or] at hc
  obtain ⟨hs, rfl⟩ := Option.ne_none_iff_exists'.1 hc.1
  have ho : out = true := by simpa using hc.2
  subst ho
  have hG : ∀ r, GotHeader rel (some hs) i true r = match line hs i with
    | none => (r = (.invalidArg, none)) ⋏ emp
    | some t => if r = (.error, some 0) then ((¬ rel ∨ maxObj < t.length + 1) ⋏ emp)
      else ∃∃ p : Nat, (p ≠ 0 ∧ r = (.ok, some p) ∧ NoNul t) ⋏ p ↦ bytesV (t ++ [0]) := fun _ => rfl
  simp only [OHdr, ORep_some, hG]
  refine Triple.pre_eq (P' := ∃∃ m : Nat, h ↦ [.ptr m] ∗ MapR m ⟨hs, 0⟩) rfl ?_
  hoist; intro m
  step (loadPtr_spec (p := h) ?_)
  rw [show MapR m ⟨hs, 0⟩ = OMap m (some ⟨hs, 0⟩) from rfl]
  step Map_GetInternals_spec into r
  rcases r with ⟨c, o⟩
  cases o with
  | none =>
    cases c <;> (unfold InternalsAt; hoist; intro hh) <;> try exact hh.elim
    simp at hh
  | some x =>
    obtain ⟨kp, vp, n⟩ := x
    cases c <;> (unfold InternalsAt; hoist) <;> try (intro hh; exact hh.elim)
    intro m0 ha _ hn hnd
    cases ha; subst hn
    have close : m ↦ [.ptr kp, .ptr vp, .int hs.length, .int 0] ∗ Arr kp (MapV.keys ⟨hs, 0⟩) ∗ Arr vp (MapV.vals ⟨hs, 0⟩) ∗ h ↦ [.ptr m] ⊢ₕ HdrR h hs := by
      refine entails_trans ?_ (HdrR_intro (m := m))
      refine entails_trans ?_ (sep_mono (entails_refl _) (Map.MapR_close (kp := kp) (vp := vp) (h := m) (m := ⟨hs, 0⟩) rfl rfl rfl rfl hnd (entails_refl _)))
      sep_cancel
    dsimp only
    refine Triple.ite (fun hi => ?_) (fun hi => ?_)
    · have hl : line hs i = none := by
        have : hs[i]? = none := List.getElem?_eq_none hi
        simp [line, this]
      refine Triple.pure ?_
      simp only [hl, eq_self, true_pand, emp_sep]
      refine entails_trans ?_ close
      sep_cancel
    have hi : i < hs.length := by simpa using hi
    obtain ⟨p, hp⟩ := get_of_lt hi
    obtain ⟨k, v⟩ := p
    have hl : line hs i = some (k ++ [58, 32] ++ v) := by simp [line, hp]
    have hk : (MapV.keys ⟨hs, 0⟩)[i]? = some k := by simp [MapV.keys, hp]
    have hv : (MapV.vals ⟨hs, 0⟩)[i]? = some v := by simp [MapV.vals, hp]
    simp only [hl]
    have hks : MapV.keys ⟨hs, 0⟩ ≠ [] := by intro h; rw [h] at hk; simp at hk
    have hvs : MapV.vals ⟨hs, 0⟩ ≠ [] := by intro h; rw [h] at hv; simp at hv
    generalize MapV.keys ⟨hs, 0⟩ = ks at *
    generalize MapV.vals ⟨hs, 0⟩ = vs at *
    rw [Arr_ne hks, Arr_ne hvs] at close ⊢
    simp only [Vec]; hoist; intro vps vx kps kx
    refine Triple.know (Map.know_Own (env := vps) (as := vs) (R := CS) (by pick)) fun hvl => ?_
    refine Triple.know (Map.know_Own (env := kps) (as := ks) (R := CS) (by pick)) fun hkl => ?_
    have hi1 := (List.getElem?_eq_some_iff.1 hk).1
    have hi2 := (List.getElem?_eq_some_iff.1 hv).1
    obtain ⟨q, hq⟩ := get_of_lt (l := kps) (i := i) (by omega)
    obtain ⟨q2, hq2⟩ := get_of_lt (l := vps) (i := i) (by omega)
    have e1 := Own_erase (R := CS) hq hk
    have e2 := Own_erase (R := CS) hq2 hv
    have close2 : m ↦ [.ptr kp, .ptr vp, .int hs.length, .int 0] ∗ kp ↦ (kps.map Val.ptr ++ kx) ∗ CS q k ∗ Own CS (kps.eraseIdx i) (ks.eraseIdx i) ∗
        vp ↦ (vps.map Val.ptr ++ vx) ∗ CS q2 v ∗ Own CS (vps.eraseIdx i) (vs.eraseIdx i) ∗ h ↦ [.ptr m] ⊢ₕ HdrR h hs := by
      refine entails_trans ?_ close
      have a1 : kp ↦ (kps.map Val.ptr ++ kx) ∗ CS q k ∗ Own CS (kps.eraseIdx i) (ks.eraseIdx i) ⊢ₕ Vec kp ks := by
        rw [← e1]; exact entails_ex_r kps (entails_ex_r kx (entails_refl _))
      have a2 : vp ↦ (vps.map Val.ptr ++ vx) ∗ CS q2 v ∗ Own CS (vps.eraseIdx i) (vs.eraseIdx i) ⊢ₕ Vec vp vs := by
        rw [← e2]; exact entails_ex_r vps (entails_ex_r vx (entails_refl _))
      refine entails_trans ?_ (sep_mono (entails_refl _) (sep_mono a1 (sep_mono a2 (entails_refl _))))
      simp only [sep_assoc]
      exact entails_refl _
    step (loadPtr_spec (p := kp) (arr_get hq))
    rw [e1, e2]; simp only [sep_assoc]
    refine Triple.know (know_heap0 (p := q) (t := k) (by pick)) fun hq0 => ?_
    refine Triple.know (know_heap0 (p := q2) (t := v) (by pick)) fun hq20 => ?_
    rw [ofPtr_ne hq0]
    refine Triple.know (know_CStr (s := .heap q 0) (t := k) (by pick)) fun kk => ?_
    refine Triple.know (know_CStr (s := .heap q2 0) (t := v) (by pick)) fun kv => ?_
    step (strlen_spec (s := .heap q 0))
    step (loadPtr_spec (p := vp) (arr_get hq2))
    rw [ofPtr_ne hq20]
    step (strlen_spec (s := .heap q2 0))
    have hmod : (k.length + 2 + v.length + 1) % szMod = k.length + 2 + v.length + 1 := by
      have h1 := kk.2.2; have h2 := kv.2.2
      simp only [szMod, maxObj] at h1 h2 ⊢; omega
    rw [hmod]
    refine Triple.malloc (fun hbad => ?_) (fun d hd hle => ?_)
    · rw [if_pos rfl]
      refine Triple.pure ?_
      rw [if_pos rfl, pand_sep, emp_sep]
      refine entails_pand_r (entails_trans ?_ close2) (hbad.imp id fun h => by simp; omega)
      sep_cancel
    · rw [if_neg hd]
      refine join_spec CStr_reads (t1 := k) (sp := [58, 32]) (t2 := v) (by simp) (by decide) (by decide) (by pick) (by pick) fun hnn => ?_
      refine Triple.pure ?_
      rw [if_neg (by simp), hex_sep]
      refine entails_ex_r d ?_
      rw [pand_sep]
      refine entails_pand_r ?_ ⟨hd, rfl, hnn⟩
      rw [show bytesV (k ++ [58, 32] ++ v ++ [0]) = bytesV (k ++ [58, 32] ++ v) ++ [.byte 0] from bytesV_append _ _]
      refine sep_mono (entails_refl _) (entails_trans ?_ close2)
      sep_cancel

end Verif.Headers
