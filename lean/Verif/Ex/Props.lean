import Verif.Ex.Opts
import Verif.Strings.Props
import Verif.Sas.Props
/-! # C40–C44: creating and destroying a handle, and setting options -/
set_option linter.unusedSimpArgs false
set_option linter.unusedVariables false
namespace Verif.Ex
open Verif.Vec Verif.Crt Verif.Strings Verif.Sock
open Verif.Map (CS free_CS get_of_lt)
variable {rel : Prop} {api : Http} {Net : List Ev → HProp} {Sess : HProp} {Conn : Nat → HProp}

/-! ## the representation of a handle -/

/-- the field `k`: 2 with an open connection, else -1 -/
def kOf : Option Nat → Int
  | none => -1
  | some _ => 2

/-- the block, the host name and the options -/
def Hd (h : Ptr) (k : Int) (http : Nat) (host : Text) (opts : List (Text × Block)) : HProp :=
  ∃∃ hn vec : Nat, h ↦ [.ptr hn, intV k, .ptr http, .ptr vec] ∗ Str hn host ∗ OptsR vec opts

/-- the rights of an open connection -/
def ConnR (Sess : HProp) (Conn : Nat → HProp) : Option Nat → HProp
  | none => emp
  | some c => (c ≠ 0) ⋏ Sess ∗ Conn c

/-- a handle -/
def ExR (Sess : HProp) (Conn : Nat → HProp) (h : Ptr) (o : Obj) : HProp :=
  Hd h (kOf o.conn) (o.conn.getD 0) o.host o.opts ∗ ConnR Sess Conn o.conn

abbrev OEx (Sess : HProp) (Conn : Nat → HProp) (h : Ptr) (a : Option Obj) : HProp := ORep (ExR Sess Conn) h a

theorem Hd_eq {h : Ptr} {k : Int} {http : Nat} {host : Text} {opts : List (Text × Block)} : Hd h k http host opts =
  ∃∃ hn vec : Nat, h ↦ [.ptr hn, intV k, .ptr http, .ptr vec] ∗ Str hn host ∗ OptsR vec opts := rfl
theorem Hd_intro {h hn vec : Ptr} {k : Int} {http : Nat} {host : Text} {opts : List (Text × Block)} :
    h ↦ [.ptr hn, intV k, .ptr http, .ptr vec] ∗ Str hn host ∗ OptsR vec opts ⊢ₕ Hd h k http host opts :=
  entails_ex_r hn (entails_ex_r vec (entails_refl _))
theorem ExR_eq {h : Ptr} {o : Obj} : ExR Sess Conn h o = (Hd h (kOf o.conn) (o.conn.getD 0) o.host o.opts ∗ ConnR Sess Conn o.conn) := rfl
theorem ConnR_none : ConnR Sess Conn none = emp := rfl
theorem ConnR_some {c : Nat} : ConnR Sess Conn (some c) = ((c ≠ 0) ⋏ Sess ∗ Conn c) := rfl

theorem know_Hd {h : Ptr} {k : Int} {http : Nat} {host : Text} {opts : List (Text × Block)} {P F : HProp} (pk : Pick P (Hd h k http host opts) F) :
    ∀ hp, P hp → h ≠ 0 ∧ NoNul host ∧ host.length < maxObj ∧ (opts.map Prod.fst).Nodup := by
  intro hp hP; unfold Pick at pk; rw [pk, Hd_eq, hex_sep] at hP
  obtain ⟨hn, hP⟩ := hP
  rw [hex_sep] at hP
  obtain ⟨vec, hP⟩ := hP
  simp only [sep_assoc] at hP
  have k1 := know_pts (p := h) (b := [.ptr hn, intV k, .ptr http, .ptr vec]) (φ := h ≠ 0) (P := h ↦ [.ptr hn, intV k, .ptr http, .ptr vec] ∗ Str hn host ∗ OptsR vec opts ∗ F) (by pick) (fun h1 _ => h1) hp hP
  have k2 := know_Str (h := hn) (t := host) (P := h ↦ [.ptr hn, intV k, .ptr http, .ptr vec] ∗ Str hn host ∗ OptsR vec opts ∗ F) (by pick) hp hP
  refine ⟨k1, k2.2.1, k2.2.2, ?_⟩
  obtain ⟨_, _, _, _, _, ⟨_, _, _, _, _, ⟨_, _, _, _, h1, _⟩⟩⟩ := hP
  obtain ⟨st, ps, h2, _⟩ := h1
  exact h2

theorem know_ConnR {o : Option Nat} {P F : HProp} (pk : Pick P (ConnR Sess Conn o) F) : ∀ hp, P hp → ∀ c, o = some c → c ≠ 0 := by
  intro hp hP c hc; unfold Pick at pk; rw [pk, hc, ConnR_some, pand_sep] at hP
  exact hP.1

theorem k_i32 (o : Option Nat) : i32 (kOf o) := by cases o <;> simp [kOf, i32]

/-! ## Create -/

theorem HTTPAPIEX_Create_spec {s : CharPtr} {o : Option Text} :
    Triple rel (Arg s o) (HTTPAPIEX_Create s)
      (fun r => ∃∃ a' : Option Obj, (CreateE (¬ rel) o (decide (r ≠ 0)) a') ⋏ OEx Sess Conn r a' ∗ Arg s o) := by
  unfold HTTPAPIEX_Create
  refine Triple.know (Map.know_Arg (s := s) (o := o) (by pick)) fun hn => ?_
  cases o with
  | none =>
    rw [if_pos (hn.2 rfl)]
    refine Triple.pure (entails_ex_r none (entails_pand_r ?_ ⟨by simp, rfl⟩))
    rw [OEx, ORep_null, emp_sep]; exact entails_refl _
  | some t =>
    rw [if_neg (by simp [hn])]
    have bad : ∀ {r : Ptr}, r = 0 → ¬ rel → Arg s (some t) ⊢ₕ ∃∃ a' : Option Obj, (CreateE (¬ rel) (some t) (decide (r ≠ 0)) a') ⋏ OEx Sess Conn r a' ∗ Arg s (some t) := by
      rintro r rfl hr
      refine entails_ex_r none (entails_pand_r ?_ (Or.inl ⟨by simp, rfl, hr⟩))
      rw [OEx, ORep_null, emp_sep]; exact entails_refl _
    refine Triple.mallocS (by decide) (fun hr => ?_) (fun p hp => ?_)
    · rw [if_pos rfl]; exact Triple.pure (bad rfl hr)
    rw [if_neg hp]
    step (STRING_construct_spec (psz := s) (o := some t)) into hs
    step (store_spec (p := p) ?_)
    stepd (loadPtr_spec (p := p) (q := hs) ?_)
    by_cases h0 : hs = 0
    · subst h0
      rw [Made_zero, if_pos rfl]; hoist; intro hb
      step (free_spec (p := p))
      exact Triple.pure (bad rfl (hb.resolve_left (by simp)))
    rw [Made_ne h0, if_neg h0]; hoist; intro t' ht
    cases ht
    step VECTOR_create_opts into v
    step (store_spec (p := p) ?_)
    stepd (loadPtr_spec (p := p) (q := v) ?_)
    by_cases hv : v = 0
    · subst hv
      rw [if_pos rfl, if_pos rfl]; hoist; intro hb
      stepd (loadPtr_spec (p := p) (q := hs) ?_)
      rw [← Sas.OStr_some]
      step (STRING_delete_spec (h := hs) (a := some t))
      step (free_spec (p := p))
      exact Triple.pure (bad rfl hb)
    rw [if_neg hv, if_neg hv]
    step (store_spec (p := p) ?_)
    step (store_spec (p := p) ?_)
    refine Triple.pure (entails_ex_r (some ⟨t, none, []⟩) (entails_pand_r ?_ (Or.inr ⟨by simp [hp], rfl⟩)))
    rw [OEx, ORep_some, ExR_eq, ConnR_none, sep_emp]
    refine entails_trans ?_ (sep_mono (Hd_intro (hn := hs) (vec := v)) (entails_refl _))
    simp only [List.set, List.replicate_succ, List.replicate_zero, kOf, Option.getD]
    sep_cancel

/-! ## Destroy -/

theorem freeLoop_spec {v st : Ptr} {ps : List (Nat × Nat)} {xs : List (Text × Block)} : ∀ (n i : Nat), n + i = ps.length →
    Triple rel (VecO v st ps ∗ OwnO (ps.drop i) (xs.drop i)) (freeLoop v n i) (fun _ => VecO v st ps) := by
  intro n
  induction n with
  | zero =>
    intro i hi
    refine Triple.know (know_OwnO (ps := ps.drop i) (xs := xs.drop i) (by pick)) fun hl => ?_
    rw [List.drop_of_length_le (show ps.length ≤ i by omega)] at hl ⊢
    rw [List.length_eq_zero_iff.1 hl.symm, OwnO_nil, sep_emp]
    exact Triple.pure (entails_refl _)
  | succ n ih =>
    intro i hi
    unfold freeLoop
    refine Triple.know (know_OwnO (ps := ps.drop i) (xs := xs.drop i) (by pick)) fun hl => ?_
    simp only [List.length_drop] at hl
    obtain ⟨p, hp⟩ := get_of_lt (l := ps) (i := i) (by omega)
    obtain ⟨x, hx⟩ := get_of_lt (l := xs) (i := i) (by omega)
    have e1 : ps.drop i = p :: ps.drop (i + 1) := by
      obtain ⟨h1, h2⟩ := List.getElem?_eq_some_iff.1 hp; rw [List.drop_eq_getElem_cons h1, h2]
    have e2 : xs.drop i = x :: xs.drop (i + 1) := by
      obtain ⟨h1, h2⟩ := List.getElem?_eq_some_iff.1 hx; rw [List.drop_eq_getElem_cons h1, h2]
    rw [e1, e2, OwnO_cons]
    step (VECTOR_element_opts (vec := v) (st := st) (ps := ps) (i := i) (by omega))
    step (loadOpt_name hp)
    step (free_CS (p := p.1))
    step (loadOpt_value hp)
    step (free_spec (p := p.2))
    exact ih (i + 1) (by omega)

theorem HTTPAPIEX_Destroy_spec (H : Honours rel api Net Sess Conn) {h : Ptr} {a : Option Obj} {tr : List Ev} :
    Triple rel (Net tr ∗ OEx Sess Conn h a) (HTTPAPIEX_Destroy api h)
      (fun _ => ∃∃ evs : List Ev, (DestroyE a evs) ⋏ Net (tr ++ evs)) := by
  unfold HTTPAPIEX_Destroy
  cases a with
  | none =>
    rw [OEx, ORep_none]; hoist; rintro rfl
    rw [if_neg (by simp)]
    exact Triple.pure (entails_ex_r [] (entails_pand_r (by rw [List.append_nil]; exact entails_refl _) rfl))
  | some o =>
    rw [OEx, ORep_some, ExR_eq]
    refine Triple.know (know_Hd (by pick)) fun hk => ?_
    rw [if_pos hk.1]
    rw [Hd_eq]; hoist; intro hn vec
    have rest : ∀ evs, DestroyE (some o) evs → Triple rel (Net (tr ++ evs) ∗ h ↦ [.ptr hn, intV (kOf o.conn), .ptr (o.conn.getD 0), .ptr vec] ∗ Str hn o.host ∗ OptsR vec o.opts)
        (do
          let hn ← loadPtr h fHost
          STRING_delete hn
          let v ← loadPtr h fOpts
          let vectorSize ← VECTOR_size v
          freeLoop v vectorSize 0
          VECTOR_destroy v
          free h) (fun _ => ∃∃ evs : List Ev, (DestroyE (some o) evs) ⋏ Net (tr ++ evs)) := by
      intro evs hE
      stepd (loadPtr_spec (p := h) (q := hn) ?_)
      rw [← Sas.OStr_some]
      step (STRING_delete_spec (h := hn) (a := some o.host))
      stepd (loadPtr_spec (p := h) (q := vec) ?_)
      rw [OptsR_eq]; hoist; intro st ps hnd
      step (VECTOR_size_opts (vec := vec))
      have t := freeLoop_spec (rel := rel) (v := vec) (st := st) (ps := ps) (xs := o.opts) ps.length 0 (by omega)
      rw [List.drop_zero, List.drop_zero] at t
      step t
      step (VECTOR_destroy_opts (vec := vec))
      last (free_spec (p := h))
      exact entails_ex_r evs (entails_pand_r (by rw [emp_sep]; exact entails_refl _) hE)
    have hki := k_i32 o.conn
    stepd (loadI_spec (p := h) (z := kOf o.conn) (b := [.ptr hn, intV (kOf o.conn), .ptr (o.conn.getD 0), .ptr vec]) rfl hki)
    cases hc : o.conn with
    | none =>
      rw [ConnR_none, if_neg (by simp [kOf])]
      have := rest [] (by simp [DestroyE, hc])
      rw [hc, List.append_nil] at this
      exact Triple.bind_pure (this.pre (by rw [sep_emp]; sep_cancel))
    | some c =>
      rw [ConnR_some, if_pos (by simp [kOf])]; hoist; intro hc0
      simp only [bind_assoc]
      stepd (loadPtr_spec (p := h) (q := c) ?_)
      step (H.close c tr)
      step (H.deinit (tr ++ [.close c]))
      have := rest [.close c, .deinit] (by simp [DestroyE, hc])
      rw [hc] at this
      refine this.pre ?_
      rw [List.append_assoc]
      sep_cancel

/-! ## Options -/

theorem OwnO_get {ps : List (Nat × Nat)} {xs : List (Text × Block)} {i : Nat} {p : Nat × Nat} {x : Text × Block}
    (hl : ps.length = xs.length) (hp : ps[i]? = some p) (hx : xs[i]? = some x) :
    ∃ F, OwnO ps xs = (CS p.1 x.1 ∗ p.2 ↦ x.2 ∗ F) ∧
      ∀ q b, OwnO (ps.set i (p.1, q)) (xs.set i (x.1, b)) = (CS p.1 x.1 ∗ q ↦ b ∗ F) := by
  induction ps generalizing xs i with
  | nil => simp at hp
  | cons y ps ih => cases xs with
    | nil => simp at hl
    | cons z xs => cases i with
      | zero =>
        simp at hp hx; subst hp hx
        exact ⟨OwnO ps xs, rfl, fun q b => rfl⟩
      | succ i =>
        obtain ⟨F, h1, h2⟩ := ih (by simpa using hl) (by simpa using hp) (by simpa using hx)
        refine ⟨CS y.1 z.1 ∗ y.2 ↦ z.2 ∗ F, ?_, fun q b => ?_⟩
        · rw [OwnO_cons, h1]; simp only [sep_assoc, sep_comm, sep_left_comm]
        · rw [List.set_cons_succ, List.set_cons_succ, OwnO_cons, h2]; simp only [sep_assoc, sep_comm, sep_left_comm]

theorem sameName_spec {vec st : Ptr} {ps : List (Nat × Nat)} {xs : List (Text × Block)} {i : Nat} {x : Text × Block} {s : CharPtr} {n : Text}
    (hx : xs[i]? = some x) :
    Triple rel (VecO vec st ps ∗ OwnO ps xs ∗ CStr s n) (sameName s (.at st (16 * i)))
      (fun r => (r = decide (x.1 = n)) ⋏ VecO vec st ps ∗ OwnO ps xs ∗ CStr s n) := by
  unfold sameName
  refine Triple.know (know_OwnO (by pick)) fun hl => ?_
  obtain ⟨p, hp⟩ := get_of_lt (l := ps) (i := i) (by rw [hl]; exact (List.getElem?_eq_some_iff.1 hx).1)
  step (loadOpt_name hp)
  obtain ⟨F, h1, _⟩ := OwnO_get hl hp hx
  rw [h1]
  simp only [sep_assoc]
  refine Triple.know (know_heap0 (p := p.1) (t := x.1) (by pick)) fun h0 => ?_
  rw [ofPtr_ne h0]
  step (strcmp_spec (a := .heap p.1 0) (x := x.1) (b := s) (y := n))
  refine Triple.pure (entails_pand_r (by sep_cancel) ?_)
  simp [strcmpL_eq_zero]

/-- the address of the first option of that name -/
def findPtr (st : Ptr) (xs : List (Text × Block)) (n : Text) : VPtr :=
  match xs.findIdx? (fun x => decide (x.1 = n)) with
  | some i => .at st (16 * i)
  | none => .null

theorem findLoop_opts {vec st : Ptr} {ps : List (Nat × Nat)} {xs : List (Text × Block)} {s : CharPtr} {n : Text} : ∀ (m i : Nat), m + i = ps.length →
    (∀ j, j < i → ∀ x, xs[j]? = some x → x.1 ≠ n) →
    Triple rel (VecO vec st ps ∗ OwnO ps xs ∗ CStr s n) (findLoop vec (sameName s) i)
      (fun r => (r = findPtr st xs n) ⋏ VecO vec st ps ∗ OwnO ps xs ∗ CStr s n) := by
  intro m
  induction m with
  | zero =>
    intro i hi hno
    refine Triple.know (know_OwnO (ps := ps) (xs := xs) (by pick)) fun hl => ?_
    rw [findLoop]
    step (VecO_field (vec := vec) (st := st) (ps := ps) (c := loadInt vec Vec.fCount) (v := ps.length) (loadInt_spec (by simp)))
    rw [if_neg (by omega)]
    refine Triple.pure (entails_pand_r (entails_refl _) ?_)
    have : xs.findIdx? (fun x => decide (x.1 = n)) = none := by
      rw [List.findIdx?_eq_none_iff]
      intro x hx
      obtain ⟨j, hj⟩ := List.getElem?_of_mem hx
      have := hno j (by have := (List.getElem?_eq_some_iff.1 hj).1; omega) x hj
      simp [this]
    rw [findPtr, this]
  | succ m ih =>
    intro i hi hno
    refine Triple.know (know_OwnO (ps := ps) (xs := xs) (by pick)) fun hl => ?_
    refine Triple.know (know_VecO (vec := vec) (st := st) (ps := ps) (by pick)) fun hk => ?_
    obtain ⟨x, hx⟩ := get_of_lt (l := xs) (i := i) (by omega)
    rw [findLoop]
    step (VecO_field (vec := vec) (st := st) (ps := ps) (c := loadInt vec Vec.fCount) (v := ps.length) (loadInt_spec (by simp)))
    rw [if_pos (by omega)]
    step (VecO_field (vec := vec) (st := st) (ps := ps) (c := loadPtr vec fStorage) (v := st) (loadPtr_spec (by simp)))
    step (VecO_field (vec := vec) (st := st) (ps := ps) (c := loadInt vec Vec.fSize) (v := 16) (loadInt_spec (by simp)))
    have hs : st ≠ 0 := hk.2.2 (by rintro rfl; simp at hi)
    rw [mul_mod (by have := hk.2.1; omega), padd, if_neg hs]
    step (sameName_spec (s := s) (n := n) hx)
    refine Triple.ite (fun hb => ?_) (fun hb => ?_) <;> simp only [decide_eq_true_eq] at hb
    · refine Triple.pure (entails_pand_r (entails_refl _) ?_)
      have : xs.findIdx? (fun x => decide (x.1 = n)) = some i := by
        obtain ⟨h1, h2⟩ := List.getElem?_eq_some_iff.1 hx
        rw [List.findIdx?_eq_some_iff_getElem]
        refine ⟨h1, by rw [h2]; simpa using hb, fun j hj => ?_⟩
        have := hno j hj xs[j] (List.getElem?_eq_getElem (by omega))
        simpa using this
      rw [findPtr, this]
    · refine ih (i + 1) (by omega) fun j hj y hy => ?_
      by_cases hj' : j < i
      · exact hno j hj' y hy
      · obtain rfl : j = i := by omega
        rw [hx] at hy; cases hy; exact hb

theorem putOpt_set {xs : List (Text × Block)} {i : Nat} {n : Text} {b b0 : Block} (hn : (xs.map Prod.fst).Nodup) (h : xs[i]? = some (n, b0)) :
    putOpt xs n b = xs.set i (n, b) := by
  have hm : n ∈ xs.map Prod.fst := by rw [List.mem_map]; exact ⟨_, List.mem_of_getElem? h, rfl⟩
  rw [putOpt, if_pos hm]
  clear hm
  induction xs generalizing i with
  | nil => simp at h
  | cons x xs ih =>
    simp only [List.map_cons, List.nodup_cons] at hn
    cases i with
    | zero =>
      simp at h; subst h
      simp only [List.map_cons, if_true, List.set_cons_zero, List.cons.injEq, true_and]
      conv => rhs; rw [← List.map_id xs]
      apply List.map_congr_left
      intro y hy
      rw [if_neg]; · rfl
      intro hy1
      refine hn.1 ?_
      rw [← hy1, List.mem_map]; exact ⟨y, hy, rfl⟩
    | succ i =>
      simp at h
      rw [List.map_cons, List.set_cons_succ, ih hn.2 h, if_neg]
      rintro rfl
      exact hn.1 (by rw [List.mem_map]; exact ⟨_, List.mem_of_getElem? h, rfl⟩)

theorem putOpt_names {xs : List (Text × Block)} {n : Text} {b : Block} (hn : (xs.map Prod.fst).Nodup) : ((putOpt xs n b).map Prod.fst).Nodup := by
  unfold putOpt
  split
  · have : (xs.map fun p => if p.1 = n then (n, b) else p).map Prod.fst = xs.map Prod.fst := by
      rw [List.map_map]; apply List.map_congr_left; intro p _
      simp only [Function.comp]; split
      · next h => exact h.symm
      · rfl
    rwa [this]
  · next h =>
    rw [List.map_append, List.nodup_append]
    refine ⟨hn, by simp, ?_⟩
    rintro a ha c hc rfl
    simp at hc; subst hc; exact h ha

theorem createOrUpdate_spec {h hn vec v : Ptr} {k : Int} {http : Nat} {s : CharPtr} {n : Text} {b : Block} {xs : List (Text × Block)} :
    Triple rel (h ↦ [.ptr hn, intV k, .ptr http, .ptr vec] ∗ OptsR vec xs ∗ CStr s n ∗ v ↦ b) (createOrUpdateOption h s v)
      (fun r => ∃∃ xs' : List (Text × Block), ((r = 0 ∧ xs' = putOpt xs n b) ∨ (r ≠ 0 ∧ xs' = xs ∧ n ∉ xs.map Prod.fst ∧ (¬ rel ∨ maxObj < 16 * (xs.length + 1)))) ⋏
        h ↦ [.ptr hn, intV k, .ptr http, .ptr vec] ∗ OptsR vec xs' ∗ CStr s n) := by
  unfold createOrUpdateOption VECTOR_find_if
  refine Triple.know (know_CStr (s := s) (t := n) (by pick)) fun ks => ?_
  refine Triple.know (know_pts (p := v) (φ := v ≠ 0) (by pick) fun h1 _ => h1) fun hv0 => ?_
  stepd (loadPtr_spec (p := h) (q := vec) ?_)
  rw [OptsR_eq]; hoist; intro st ps hnd
  refine Triple.know (know_OwnO (ps := ps) (xs := xs) (by pick)) fun hl => ?_
  refine Triple.know (know_VecO (vec := vec) (st := st) (ps := ps) (by pick)) fun hk => ?_
  dsimp only
  rw [if_pos ⟨hk.1, by simp [ks.1]⟩]
  step (findLoop_opts (vec := vec) (st := st) (ps := ps) (xs := xs) (s := s) (n := n) ps.length 0 (by omega) (by omega))
  unfold findPtr
  cases hf : xs.findIdx? (fun x => decide (x.1 = n)) with
  | some i =>
    dsimp only
    rw [if_pos (by simp)]
    obtain ⟨hi, hb, _⟩ := List.findIdx?_eq_some_iff_getElem.1 hf
    simp only [decide_eq_true_eq] at hb
    have hx : xs[i]? = some (n, (xs[i]).2) := by rw [List.getElem?_eq_getElem hi, ← hb]
    generalize (xs[i]).2 = b0 at hx
    obtain ⟨p, hp⟩ := get_of_lt (l := ps) (i := i) (by omega)
    obtain ⟨F, h1, h2⟩ := OwnO_get hl hp hx
    step (loadOpt_value hp)
    rw [h1]
    simp only [sep_assoc]
    step (free_spec (p := p.2))
    step (storeOpt_value (q := v) hp)
    refine Triple.pure (entails_ex_r (putOpt xs n b) (entails_pand_r ?_ (Or.inl ⟨rfl, rfl⟩)))
    refine entails_trans ?_ (sep_mono (entails_refl _) (sep_mono (OptsR_intro (st := st) (ps := ps.set i (p.1, v)) (putOpt_names hnd)) (entails_refl _)))
    rw [putOpt_set hnd hx, h2]
    sep_cancel
  | none =>
    dsimp only
    rw [if_neg (by simp)]
    have hno : n ∉ xs.map Prod.fst := by
      rw [List.findIdx?_eq_none_iff] at hf
      rw [List.mem_map]; rintro ⟨x, hx, rfl⟩
      have := hf x hx; simp at this
    have same : VecO vec st ps ∗ OwnO ps xs ⊢ₕ OptsR vec xs := OptsR_intro hnd
    step (mallocAndStrcpy_spec (src := s) (t := n)) into r
    by_cases hr : r.2 = 0
    · rw [if_pos hr]; hoist; intro he hrel
      rw [if_pos (by rw [he]; simp [ENOMEM])]
      step (free_spec (p := v))
      refine Triple.pure (entails_ex_r xs (entails_pand_r ?_ (Or.inr ⟨by simp, rfl, hno, Or.inl hrel⟩)))
      refine entails_trans ?_ (sep_mono (entails_refl _) (sep_mono same (entails_refl _)))
      sep_cancel
    · rw [if_neg hr]; hoist; intro he
      rw [if_neg (by rw [he]; simp)]
      stepd (loadPtr_spec (p := h) (q := vec) ?_)
      step (pushOption_spec (vec := vec) (st := st) (ps := ps) (name := r.2) (value := v)) into e
      intro st'
      by_cases h0 : e = 0
      · subst h0
        rw [if_pos rfl, if_neg (by simp)]
        refine Triple.pure (entails_ex_r (putOpt xs n b) (entails_pand_r ?_ (Or.inl ⟨rfl, rfl⟩)))
        refine entails_trans ?_ (sep_mono (entails_refl _) (sep_mono (OptsR_intro (st := st') (ps := ps ++ [(r.2, v)]) (putOpt_names hnd)) (entails_refl _)))
        rw [putOpt, if_neg hno, OwnO_append hl, OwnO_cons, OwnO_nil, sep_emp, bytesV_append]
        have e1 := CStr_intro (p := r.2) ks.2.1 []
        simp only [CS, sep_assoc]
        refine entails_trans ?_ (sep_mono (entails_refl _) (sep_mono (entails_refl _) (sep_mono (entails_refl _) (sep_mono e1 (entails_refl _)))))
        simp only [bytesV, List.map_cons, List.map_nil]
        sep_cancel
      · rw [if_neg h0, if_pos h0]; hoist; intro hor
        step (free_spec (p := r.2))
        step (free_spec (p := v))
        refine Triple.pure (entails_ex_r xs (entails_pand_r ?_ (Or.inr ⟨by simp, rfl, hno, by rw [← hl]; exact hor⟩)))
        refine entails_trans ?_ (sep_mono (entails_refl _) (sep_mono (OptsR_intro (st := st') (ps := ps) hnd) (entails_refl _)))
        sep_cancel

/-- an optional block -/
def OBlk (p : Ptr) : Option Block → HProp
  | none => (p = 0) ⋏ emp
  | some b => p ↦ b

theorem know_OBlk {p : Ptr} {b : Option Block} {P F : HProp} (pk : Pick P (OBlk p b) F) : ∀ h, P h → (p = 0 ↔ b = none) := by
  intro h hp; unfold Pick at pk; rw [pk] at hp
  obtain ⟨x, y, _, _, h1, _⟩ := hp
  cases b with
  | none => simp [h1.1]
  | some b => simp [h1.1]

theorem know_OEx {h : Ptr} {a : Option Obj} {P F : HProp} (pk : Pick P (OEx Sess Conn h a) F) : ∀ hp, P hp → (h = 0 ↔ a = none) := by
  cases a with
  | none =>
    intro hp hP; unfold Pick at pk; rw [pk] at hP
    obtain ⟨x, y, _, _, h1, _⟩ := hP
    simp [h1.1]
  | some o =>
    intro hp hP; unfold Pick at pk; rw [pk, OEx, ORep_some, ExR_eq] at hP
    rw [sep_assoc] at hP
    have := (know_Hd (h := h) (P := Hd h (kOf o.conn) (o.conn.getD 0) o.host o.opts ∗ ConnR Sess Conn o.conn ∗ F) (by pick) hp hP).1
    simp [this]

/-- C43: setting an option. -/
theorem HTTPAPIEX_SetOption_spec (H : Honours rel api Net Sess Conn) {h v : Ptr} {a : Option Obj} {s : CharPtr} {n : Option Text} {b : Option Block} {tr : List Ev} :
    Triple rel (Net tr ∗ OEx Sess Conn h a ∗ Arg s n ∗ OBlk v b) (HTTPAPIEX_SetOption api h s v)
      (fun r => ∃∃ (a' : Option Obj) (evs : List Ev), (SetE (¬ rel) n b a r a' evs) ⋏ Net (tr ++ evs) ∗ OEx Sess Conn h a' ∗ Arg s n ∗ OBlk v b) := by
  unfold HTTPAPIEX_SetOption
  refine Triple.know (know_OEx (h := h) (a := a) (by pick)) fun k1 => ?_
  refine Triple.know (Map.know_Arg (s := s) (o := n) (by pick)) fun k2 => ?_
  refine Triple.know (know_OBlk (p := v) (b := b) (by pick)) fun k3 => ?_
  refine Triple.ite (fun hc => ?_) (fun hc => ?_) <;> rw [k1, k2, k3] at hc
  · refine Triple.pure (entails_ex_r a (entails_ex_r [] (entails_pand_r (by rw [List.append_nil]; exact entails_refl _) ?_)))
    unfold SetE
    cases a <;> cases n <;> cases b <;> simp_all
  simp only [not_or] at hc
  obtain ⟨o, rfl⟩ := Option.ne_none_iff_exists'.1 hc.1
  obtain ⟨n, rfl⟩ := Option.ne_none_iff_exists'.1 hc.2.1
  obtain ⟨b, rfl⟩ := Option.ne_none_iff_exists'.1 hc.2.2
  rw [Arg_some, show OBlk v (some b) = (v ↦ b) from rfl]
  step (H.clone s n v b tr) into x
  intro copy
  obtain ⟨x1, x2⟩ := x
  dsimp only
  by_cases hx : x1 = .ok
  · subst hx
    rw [if_pos rfl, if_neg (by simp), if_neg (by simp)]
    rw [OEx, ORep_some, ExR_eq, Hd_eq]; hoist; intro hn vec
    step (createOrUpdate_spec (h := h) (hn := hn) (vec := vec) (v := x2) (s := s) (n := n) (b := copy) (xs := o.opts)) into e
    intro xs' he
    have close : h ↦ [.ptr hn, intV (kOf o.conn), .ptr (o.conn.getD 0), .ptr vec] ∗ Str hn o.host ∗ OptsR vec xs' ∗ ConnR Sess Conn o.conn ⊢ₕ
        OEx Sess Conn h (some { o with opts := xs' }) := by
      rw [OEx, ORep_some, ExR_eq]
      refine entails_trans ?_ (sep_mono (Hd_intro (hn := hn) (vec := vec)) (entails_refl _))
      sep_cancel
    refine Triple.ite (fun h0 => ?_) (fun h0 => ?_)
    · rcases he with ⟨he, _⟩ | ⟨_, rfl, hno, hor⟩
      · exact absurd he h0
      refine Triple.pure (entails_ex_r (some o) (entails_ex_r [.clone n b .ok copy] (entails_pand_r ?_ ?_)))
      · refine entails_trans ?_ (sep_mono (entails_refl _) (sep_mono close (entails_refl _)))
        sep_cancel
      · exact Or.inr (Or.inr (Or.inl ⟨copy, rfl, hor, hno, rfl, rfl⟩))
    · rcases he with ⟨_, rfl⟩ | ⟨he, _⟩
      rotate_left
      · exact absurd he h0
      stepd (loadPtr_spec (p := h) (q := o.conn.getD 0) (b := [.ptr hn, intV (kOf o.conn), .ptr (o.conn.getD 0), .ptr vec]) rfl)
      cases hco : o.conn with
      | none =>
        rw [hco] at close
        rw [if_neg (by simp)]
        refine Triple.pure (entails_ex_r (some { o with opts := putOpt o.opts n copy }) (entails_ex_r [.clone n b .ok copy] (entails_pand_r ?_ ?_)))
        · rw [hco]
          refine entails_trans ?_ (sep_mono (entails_refl _) (sep_mono close (entails_refl _)))
          rw [ConnR_none]
          sep_cancel
        · refine Or.inr (Or.inr (Or.inr ⟨copy, rfl, ?_⟩))
          rw [hco]; exact ⟨rfl, rfl⟩
      | some c =>
        rw [hco] at close
        rw [ConnR_some] at close ⊢
        hoist; intro hc0
        rw [if_pos (by simpa using hc0)]
        simp only [Option.getD]
        stepd (loadPtr_spec (p := h) (q := c) (b := [.ptr hn, intV (kOf (some c)), .ptr c, .ptr vec]) rfl)
        step (H.setOption c s n v b (tr ++ [.clone n b .ok copy])) into r
        have fin : ∀ res, res = optResult r → Net (tr ++ [.clone n b .ok copy] ++ [.setOption c n b r]) ∗ Sess ∗ Conn c ∗ CStr s n ∗ v ↦ b ∗
            h ↦ [.ptr hn, intV (kOf (some c)), .ptr c, .ptr vec] ∗ OptsR vec (putOpt o.opts n copy) ∗ Str hn o.host ⊢ₕ
            ∃∃ (a' : Option Obj) (evs : List Ev), (SetE (¬ rel) (some n) (some b) (some o) res a' evs) ⋏ Net (tr ++ evs) ∗ OEx Sess Conn h a' ∗ CStr s n ∗ v ↦ b := by
          intro res hres
          refine entails_ex_r (some { o with opts := putOpt o.opts n copy }) (entails_ex_r [.clone n b .ok copy, .setOption c n b r] (entails_pand_r ?_ ?_))
          · rw [hco]
            refine entails_trans ?_ (sep_mono (entails_refl _) (sep_mono close (entails_refl _)))
            simp only [Option.getD, pand_sep, sep_pand]
            refine entails_pand_r ?_ hc0
            rw [List.append_assoc]
            sep_cancel
          · refine Or.inr (Or.inr (Or.inr ⟨copy, rfl, ?_⟩))
            rw [hco]; exact ⟨r, hres, rfl⟩
        cases r with
        | ok => rw [if_pos rfl]; exact Triple.pure (entails_trans (by sep_cancel) (fin _ rfl))
        | invalidArg => rw [if_neg (by simp), if_pos rfl]; exact Triple.pure (entails_trans (by sep_cancel) (fin _ rfl))
        | other => rw [if_neg (by simp), if_neg (by simp)]; exact Triple.pure (entails_trans (by sep_cancel) (fin _ rfl))
  · rw [if_neg hx]
    have fin : ∀ res, (SetE (¬ rel) (some n) (some b) (some o) res (some o) [.clone n b x1 copy]) →
        Net (tr ++ [.clone n b x1 copy]) ∗ CStr s n ∗ v ↦ b ∗ emp ∗ OEx Sess Conn h (some o) ⊢ₕ
        ∃∃ (a' : Option Obj) (evs : List Ev), (SetE (¬ rel) (some n) (some b) (some o) res a' evs) ⋏ Net (tr ++ evs) ∗ OEx Sess Conn h a' ∗ CStr s n ∗ v ↦ b := by
      intro res hE
      refine entails_ex_r (some o) (entails_ex_r _ (entails_pand_r ?_ hE))
      rw [emp_sep]; sep_cancel
    refine Triple.ite (fun hi => ?_) (fun hi => ?_)
    · subst hi
      exact Triple.pure (entails_trans (by sep_cancel) (fin .invalidArg (Or.inl ⟨copy, rfl, rfl, rfl⟩)))
    · rw [if_pos hx]
      have : x1 = .other := by cases x1 <;> simp_all
      subst this
      exact Triple.pure (entails_trans (by sep_cancel) (fin .error (Or.inr (Or.inl ⟨copy, rfl, rfl, rfl⟩))))

end Verif.Ex
