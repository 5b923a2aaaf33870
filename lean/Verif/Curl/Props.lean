import Verif.Curl.Spec
/-! # Initialisation, connections and options of `httpapi_curl.c` -/
set_option linter.unusedSimpArgs false
set_option linter.unusedVariables false
namespace Verif.Curl
open Verif.Headers Verif.Buffer Verif.Crt
open Verif.Sas (text)
open Verif.Sock (intV)
open Verif.Map (CS free_CS know_Arg)
variable {rel : Prop} {lib : Lib} {Net : List Ev → HProp} {Global : HProp} {Easy : Nat → HProp} {Slist : Nat → List Text → HProp}
  {Busy : Nat → Transfer → Nat → HProp}

/-! ## the representation of a connection -/

/-- the fields -/
def fields (o : Obj) (u : Nat) : Block :=
  [.ptr o.curl, .ptr u, .int o.timeout, .int o.limit, .int o.time, .int o.forbid, .int o.fresh, .int o.verbose]

/-- a connection -/
def ConnR (Easy : Nat → HProp) (p : Ptr) (o : Obj) : HProp :=
  ∃∃ u : Nat, (o.curl ≠ 0) ⋏ p ↦ fields o u ∗ CS u (text "https://" ++ o.host) ∗ Easy o.curl

/-- a handle that is no connection: nothing but the (null) host was stored -/
def Broken (p : Ptr) : HProp := p ↦ [.undef, .ptr 0, .undef, .undef, .undef, .undef, .undef, .undef]

abbrev OConn (Easy : Nat → HProp) (h : Ptr) (a : Option Obj) : HProp := ORep (ConnR Easy) h a

/-- what `HTTPAPI_CreateConnection` gives -/
def Given1 (Easy : Nat → HProp) (p : Ptr) : Conn → HProp
  | .none => (p = 0) ⋏ emp
  | .good o => ConnR Easy p o
  | .broken => Broken p

theorem ConnR_eq {p : Ptr} {o : Obj} : ConnR Easy p o =
  ∃∃ u : Nat, (o.curl ≠ 0) ⋏ p ↦ fields o u ∗ CS u (text "https://" ++ o.host) ∗ Easy o.curl := rfl
theorem ConnR_intro {p u : Ptr} {o : Obj} (h : o.curl ≠ 0) :
    p ↦ fields o u ∗ CS u (text "https://" ++ o.host) ∗ Easy o.curl ⊢ₕ ConnR Easy p o :=
  entails_ex_r u (entails_pand_r (entails_refl _) h)

/-- the counter of users, and what it stands for -/
def Users (Global : HProp) (g : Ptr) (n : Nat) : HProp := g ↦ [.int n] ∗ (if n = 0 then emp else Global)
theorem Users_eq {g : Ptr} {n : Nat} : Users Global g n = (g ↦ [.int n] ∗ (if n = 0 then emp else Global)) := rfl

theorem CStr_lit {t : Text} (h : NoNul t) (hl : t.length < maxObj) : CStr (.str t) t = emp := by
  funext z
  exact propext ⟨fun h => h.2, fun hh => CStr_str h hl z hh⟩

theorem https_lit : CStr (.str (text "https://")) (text "https://") = emp := CStr_lit (by decide) (by decide)

/-! ## Init and Deinit -/

theorem HTTPAPI_Init_spec (H : Honours rel lib Net Global Easy Slist Busy) {g : Ptr} {n : Nat} {tr : List Ev} (hn : n + 1 < szMod) :
    Triple rel (Users Global g n ∗ Net tr) (HTTPAPI_Init lib g)
      (fun r => ∃∃ (n' : Nat) (evs : List Ev), (InitE n r n' evs) ⋏ Users Global g n' ∗ Net (tr ++ evs)) := by
  unfold HTTPAPI_Init
  rw [Users_eq]; simp only [sep_assoc]
  stepd (loadInt_spec (p := g) (n := n) ?_)
  by_cases h : n = 0
  · subst h
    rw [if_pos rfl, if_pos rfl]
    step (H.globalInit tr) into r
    by_cases hr : r = 0
    · subst hr
      rw [if_pos rfl, if_neg (by simp)]
      stepd (loadInt_spec (p := g) (n := 0) ?_)
      step (store_spec (p := g) ?_)
      refine Triple.pure (entails_ex_r 1 (entails_ex_r [.globalInit 0] (entails_pand_r ?_ (Or.inr ⟨rfl, rfl, rfl⟩))))
      rw [Users_eq, if_neg (by simp)]
      rw [show (0 + 1) % szMod = 1 from rfl]
      sep_cancel
    · rw [if_neg hr, if_pos hr]
      refine Triple.pure (entails_ex_r 0 (entails_ex_r [.globalInit r] (entails_pand_r ?_ (Or.inl ⟨r, hr, rfl, rfl, rfl⟩))))
      rw [Users_eq, if_pos rfl]
      sep_cancel
  · rw [if_neg h, if_neg h]
    step (store_spec (p := g) ?_)
    refine Triple.pure (entails_ex_r (n + 1) (entails_ex_r [] (entails_pand_r ?_ (by unfold InitE; rw [if_neg h]; exact ⟨rfl, rfl, rfl⟩))))
    rw [Users_eq, if_neg (by simp), List.append_nil]
    rw [Nat.mod_eq_of_lt hn]
    sep_cancel

theorem HTTPAPI_Deinit_spec (H : Honours rel lib Net Global Easy Slist Busy) {g : Ptr} {n : Nat} {tr : List Ev} :
    Triple rel (Users Global g n ∗ Net tr) (HTTPAPI_Deinit lib g)
      (fun _ => ∃∃ (n' : Nat) (evs : List Ev), (DeinitE n n' evs) ⋏ Users Global g n' ∗ Net (tr ++ evs)) := by
  unfold HTTPAPI_Deinit
  rw [Users_eq]; simp only [sep_assoc]
  stepd (loadInt_spec (p := g) (n := n) ?_)
  by_cases h : n = 0
  · subst h
    rw [if_pos rfl, if_neg (by simp)]
    refine Triple.pure (entails_ex_r 0 (entails_ex_r [] (entails_pand_r ?_ ⟨rfl, rfl⟩)))
    rw [Users_eq, if_pos rfl, List.append_nil]
    sep_cancel
  · rw [if_neg h, if_pos (Nat.pos_of_ne_zero h)]
    step (store_spec (p := g) ?_)
    stepd (loadInt_spec (p := g) (n := n - 1) ?_)
    by_cases h1 : n = 1
    · subst h1
      rw [if_pos rfl]
      last (H.globalCleanup tr)
      refine entails_ex_r 0 (entails_ex_r [.globalCleanup] (entails_pand_r ?_ ⟨rfl, rfl⟩))
      rw [Users_eq, if_pos rfl]
      sep_cancel
    · rw [if_neg (by omega)]
      refine Triple.pure (entails_ex_r (n - 1) (entails_ex_r [] (entails_pand_r ?_ ⟨rfl, by rw [if_neg h1]⟩)))
      rw [Users_eq, if_neg (by omega), List.append_nil]
      sep_cancel

/-! ## Two strings one after the other -/

/-- what `strcpy_s` and `strcat_s` leave when everything fits exactly -/
theorem strcpy_s_fits {dst : Ptr} {size : Nat} {src : CharPtr} {b : Block} {t : Text} (h0 : 0 < size) (hb : b.length = size) (ht : t.length + 1 ≤ size) :
    Triple rel (dst ↦ b ∗ CStr src t) (strcpy_s dst size src)
      (fun r => ∃∃ b' : Block, (b'.length = size ∧ r = 0 ∧ cstrV b' = some t) ⋏ dst ↦ b' ∗ CStr src t) := by
  refine (strcpy_s_spec_partial (o := some t) h0 (by omega)).conseq (entails_refl _) fun r => ?_
  refine entails_ex_l fun b' => entails_pand_l fun ⟨hw, hc⟩ => entails_ex_r b' (entails_pand_r (entails_refl _) ?_)
  rcases hc with ⟨h, _⟩ | ⟨t', h, h2, _⟩ | ⟨t', h, _, h3, h4⟩
  · simp at h
  · cases h; omega
  · cases h; exact ⟨by rw [hw.1, hb], h3, h4⟩

theorem strcat_s_fits {dst : Ptr} {size : Nat} {src : CharPtr} {b : Block} {t u : Text} (h0 : 0 < size) (hb : b.length = size)
    (hu : cstrV b = some u) (ht : u.length + t.length + 1 ≤ size) :
    Triple rel (dst ↦ b ∗ CStr src t) (strcat_s dst size src)
      (fun r => ∃∃ b' : Block, (b'.length = size ∧ r = 0 ∧ cstrV b' = some (u ++ t)) ⋏ dst ↦ b' ∗ CStr src t) := by
  refine (strcat_s_spec_partial (o := some t) (d := some u) h0 (by omega) (by rw [List.take_of_length_le (by omega)]; exact hu)).conseq (entails_refl _) fun r => ?_
  refine entails_ex_l fun b' => entails_pand_l fun ⟨hw, hc⟩ => entails_ex_r b' (entails_pand_r (entails_refl _) ?_)
  rcases hc with ⟨h, _⟩ | ⟨_, h, _⟩ | ⟨t', u', h, h', h2, _⟩ | ⟨t', u', h, h', _, h3, h4⟩
  · simp at h
  · simp at h
  · cases h; cases h'; omega
  · cases h; cases h'; exact ⟨by rw [hw.1, hb], h3, h4⟩

theorem CS_of {p : Ptr} {b : Block} {t : Text} (h : cstrV b = some t) : p ↦ b ⊢ₕ CS p t := by
  simp only [CS, CStr_heap0]; exact entails_ex_r b (entails_pand_r (entails_refl _) h)

/-! ## CreateConnection -/

theorem copyHost_spec {d u : Ptr} {size : Nat} {s : CharPtr} {t : Text} {b c : Block} (hc : c[1]? = some (.ptr u)) (hb : b.length = size) (hs : t.length + 9 = size) :
    Triple rel (d ↦ c ∗ u ↦ b ∗ CStr s t) (copyHost d size s)
      (fun r => (r = true) ⋏ d ↦ c ∗ CS u (text "https://" ++ t) ∗ CStr s t) := by
  unfold copyHost
  have e8 : (text "https://").length = 8 := by decide
  step (loadPtr_spec (p := d) (q := u) hc)
  have hs1 := strcpy_s_fits (rel := rel) (dst := u) (src := .str (text "https://")) (b := b) (t := text "https://") (by omega) hb (by omega)
  rw [https_lit, sep_emp] at hs1
  simp only [sep_emp] at hs1
  step hs1 into r
  intro b1 hb1 hr hc1
  rw [if_pos hr]
  step (loadPtr_spec (p := d) (q := u) hc)
  step (strcat_s_fits (dst := u) (src := s) (b := b1) (t := t) (u := text "https://") (by omega) hb1 hc1 (by omega)) into r2
  intro b2 hb2 hr2 hc2
  refine Triple.pure (entails_pand_r ?_ (by simp [hr2]))
  refine entails_trans (Q := u ↦ b2 ∗ d ↦ c ∗ CStr s t) (by sep_cancel) (entails_trans (sep_mono (CS_of hc2) (entails_refl _)) (entails_of_eq (by rw [sep_left_comm])))

theorem HTTPAPI_CreateConnection_spec (H : Honours rel lib Net Global Easy Slist Busy) {s : CharPtr} {o : Option Text} {tr : List Ev} :
    Triple rel (Net tr ∗ Arg s o) (HTTPAPI_CreateConnection lib s)
      (fun r => ∃∃ (a : Conn) (evs : List Ev), (CreateE (¬ rel) o a evs) ⋏ Given1 Easy r a ∗ Net (tr ++ evs) ∗ Arg s o) := by
  unfold HTTPAPI_CreateConnection
  refine Triple.know (know_Arg (s := s) (o := o) (by pick)) fun hn => ?_
  have nil : ∀ {evs : List Ev} {a : Option Text}, CreateE (¬ rel) a .none evs →
      Net (tr ++ evs) ∗ Arg s a ⊢ₕ ∃∃ (c : Conn) (evs : List Ev), (CreateE (¬ rel) a c evs) ⋏ Given1 Easy 0 c ∗ Net (tr ++ evs) ∗ Arg s a := by
    intro evs a he
    refine entails_ex_r .none (entails_ex_r evs (entails_pand_r ?_ he))
    unfold Given1
    rw [eq_self, true_pand, emp_sep]; exact entails_refl _
  cases o with
  | none =>
    rw [if_neg (by simp [hn.2 rfl])]
    have := nil (evs := []) (a := none) ⟨rfl, rfl⟩
    rw [List.append_nil] at this
    exact Triple.pure this
  | some t =>
    rw [if_pos (by simp [hn])]
    refine Triple.mallocS (by decide) (fun hr => ?_) fun d hd => ?_
    · rw [if_neg (by simp)]
      have := nil (evs := []) (a := some t) (Or.inl ⟨rfl, hr, rfl⟩)
      rw [List.append_nil] at this
      exact Triple.pure this
    rw [if_pos hd]
    have hs1 := strlen_spec (rel := rel) (s := .str (text "https://")) (t := text "https://")
    rw [https_lit] at hs1
    step hs1
    rw [Arg_some]
    refine Triple.know (know_CStr (s := s) (t := t) (by pick)) fun kt => ?_
    step (strlen_spec (s := s) (t := t))
    have e8 : (text "https://").length = 8 := by decide
    have esz : ((text "https://").length + t.length + 1) % szMod = t.length + 9 := by
      rw [e8, Nat.mod_eq_of_lt (by have := kt.2.2; simp only [maxObj, szMod] at *; omega)]; omega
    rw [esz]
    refine Triple.malloc (fun hrr => ?_) fun u hu hm => ?_
    · step (store_spec (p := d) ?_)
      stepd (loadPtr_spec (p := d) (q := 0) ?_)
      rw [if_pos rfl]
      refine Triple.pure (entails_ex_r .broken (entails_ex_r [] (entails_pand_r ?_ (Or.inr (Or.inl ⟨rfl, hrr, rfl⟩)))))
      unfold Given1 Broken
      rw [List.append_nil]
      dsimp only [List.replicate, List.set]
      sep_cancel
    · step (store_spec (p := d) ?_)
      stepd (loadPtr_spec (p := d) (q := u) ?_)
      rw [if_neg hu]
      step (copyHost_spec (d := d) (u := u) (s := s) (t := t) (size := t.length + 9) (c := (List.replicate 8 Val.undef).set fHost (.ptr u)) (b := List.replicate (t.length + 9) .undef) rfl (by simp) rfl) into r
      intro hr; subst hr
      rw [if_pos rfl]
      step (H.easyInit tr) into c
      step (store_spec (p := d) ?_)
      stepd (loadPtr_spec (p := d) (q := c) ?_)
      by_cases hc : c = 0
      · subst hc
        rw [if_pos rfl, if_pos rfl]
        stepd (loadPtr_spec (p := d) (q := u) ?_)
        step (free_CS (p := u))
        step (free_spec (p := d))
        exact Triple.pure (nil (a := some t) (Or.inr (Or.inr (Or.inl ⟨rfl, rfl⟩))))
      · rw [if_neg hc, if_neg hc]
        step (store_spec (p := d) ?_)
        step (store_spec (p := d) ?_)
        step (store_spec (p := d) ?_)
        step (store_spec (p := d) ?_)
        step (store_spec (p := d) ?_)
        step (store_spec (p := d) ?_)
        refine Triple.pure (entails_ex_r (.good (fresh c t)) (entails_ex_r [.easyInit c] (entails_pand_r ?_ (Or.inr (Or.inr (Or.inr ⟨c, hc, rfl, rfl⟩))))))
        refine entails_trans ?_ (sep_mono (ConnR_intro (u := u) (o := fresh c t) hc) (entails_refl _))
        dsimp only [List.replicate, List.set, fields, fresh]
        simp only [Nat.reduceMul]
        sep_cancel

/-! ## CloseConnection -/

theorem HTTPAPI_CloseConnection_spec (H : Honours rel lib Net Global Easy Slist Busy) {h : Ptr} {a : Option Obj} {tr : List Ev} :
    Triple rel (Net tr ∗ OConn Easy h a) (HTTPAPI_CloseConnection lib h)
      (fun _ => ∃∃ evs : List Ev, (CloseE a evs) ⋏ Net (tr ++ evs)) := by
  unfold HTTPAPI_CloseConnection
  cases a with
  | none =>
    rw [OConn, ORep_none]; hoist; rintro rfl
    rw [if_neg (by simp)]
    refine Triple.pure (entails_ex_r [] (entails_pand_r ?_ rfl))
    rw [List.append_nil]; sep_cancel
  | some o =>
    rw [OConn, ORep_some, ConnR_eq]; hoist; intro u hc
    refine Triple.know (know_pts (p := h) (φ := h ≠ 0) (by pick) fun h1 _ => h1) fun hh => ?_
    rw [if_pos hh]
    stepd (loadPtr_spec (p := h) (q := u) ?_)
    step (free_CS (p := u))
    stepd (loadPtr_spec (p := h) (q := o.curl) ?_)
    step (H.easyCleanup o.curl tr)
    last (free_spec (p := h))
    refine entails_ex_r [.easyCleanup o.curl] (entails_pand_r ?_ rfl)
    sep_cancel

/-! ## Options -/

/-- the storage of an option value: `NULL`, or a word -/
def WordR (p : Ptr) : Option Nat → HProp
  | none => (p = 0) ⋏ emp
  | some v => p ↦ [.int v]

theorem know_WordR {p : Ptr} {v : Option Nat} {P F : HProp} (pk : Pick P (WordR p v) F) : ∀ h, P h → (p = 0 ↔ v = none) := by
  intro h hp
  unfold Pick at pk; rw [pk] at hp
  cases v with
  | none =>
    unfold WordR at hp; rw [pand_sep] at hp
    simp [hp.1]
  | some v =>
    have := know_pts (p := p) (b := [.int v]) (φ := p ≠ 0) (P := p ↦ [.int v] ∗ F) (by pick) (fun h1 _ => h1) h hp
    simp [this]

theorem know_OConn {p : Ptr} {a : Option Obj} {P F : HProp} (pk : Pick P (OConn Easy p a) F) : ∀ h, P h → (p = 0 ↔ a = none) := by
  intro h hp
  unfold Pick at pk; rw [pk] at hp
  cases a with
  | none =>
    rw [OConn, ORep_none, pand_sep] at hp
    simp [hp.1]
  | some o =>
    rw [OConn, ORep_some, ConnR_eq, hex_sep] at hp
    obtain ⟨u, hp⟩ := hp
    rw [pand_sep, sep_assoc, sep_assoc] at hp
    have := know_pts (p := p) (b := fields o u) (φ := p ≠ 0) (P := p ↦ fields o u ∗ CS u (text "https://" ++ o.host) ∗ Easy o.curl ∗ F) (by pick) (fun h1 _ => h1) h hp.2
    simp [this]

theorem name_nonul (n : Name) : NoNul n.text ∧ n.text.length < maxObj := by
  cases n <;> exact ⟨by decide, by decide⟩

/-- comparing an argument with the name of an option -/
theorem cmp_name {s : CharPtr} {t : Text} (n : Name) :
    Triple rel (CStr s t) (strcmp (.str n.text) s) (fun r => (r = 0 ↔ n.text = t) ⋏ CStr s t) := by
  have h := strcmp_spec (rel := rel) (a := .str n.text) (b := s) (x := n.text) (y := t)
  simp only [CStr_lit (name_nonul n).1 (name_nonul n).2, emp_sep] at h
  refine h.conseq (entails_refl _) fun r => entails_pand_l fun hr => entails_pand_r (entails_refl _) ?_
  rw [hr, strcmpL_eq_zero]

theorem named_text (n : Name) : named n.text = some n := by cases n <;> decide

theorem named_none {t : Text} (h : ∀ n : Name, n.text ≠ t) : named t = none := by
  unfold named
  rw [List.find?_eq_none]
  intro n _
  simp [h n]

theorem HTTPAPI_SetOption_spec {h value : Ptr} {a : Option Obj} {s : CharPtr} {name : Option Text} {v : Option Nat} :
    Triple rel (OConn Easy h a ∗ Arg s name ∗ WordR value v) (HTTPAPI_SetOption h s value)
      (fun r => ∃∃ a' : Option Obj, (SetE name v a r a') ⋏ OConn Easy h a' ∗ Arg s name ∗ WordR value v) := by
  unfold HTTPAPI_SetOption
  refine Triple.know (know_OConn (p := h) (a := a) (by pick)) fun k1 => ?_
  refine Triple.know (know_Arg (s := s) (o := name) (by pick)) fun k2 => ?_
  refine Triple.know (know_WordR (p := value) (v := v) (by pick)) fun k3 => ?_
  by_cases hb : h = 0 ∨ s = .null ∨ value = 0
  · rw [if_pos hb]
    refine Triple.pure (entails_ex_r a (entails_pand_r (entails_refl _) ?_))
    rw [k1, k2, k3] at hb
    cases a <;> cases name <;> cases v <;> simp_all [SetE]
  · rw [if_neg hb]
    rw [k1, k2, k3] at hb
    cases a with
    | none => simp at hb
    | some o =>
    cases name with
    | none => simp at hb
    | some t =>
    cases v with
    | none => simp at hb
    | some v =>
    rw [OConn, ORep_some, ConnR_eq, Arg_some, show WordR value (some v) = (value ↦ [.int v]) from rfl]; hoist; intro u hc
    have fin : ∀ (n : Name) {b : Block}, n.text = t → b = fields (o.put n v) u →
        h ↦ b ∗ CS u (text "https://" ++ o.host) ∗ Easy o.curl ∗ CStr s t ∗ value ↦ [.int v] ⊢ₕ
        ∃∃ a' : Option Obj, (SetE (some t) (some v) (some o) .ok a') ⋏ OConn Easy h a' ∗ CStr s t ∗ value ↦ [.int v] := by
      intro n b hn hb
      refine entails_ex_r (some (o.put n v)) (entails_pand_r ?_ (by subst hn; simp [SetE, named_text]))
      rw [OConn, ORep_some]
      refine entails_trans ?_ (sep_mono (ConnR_intro (u := u) (by cases n <;> exact hc)) (entails_refl _))
      rw [hb, show (o.put n v).host = o.host by cases n <;> rfl, show (o.put n v).curl = o.curl by cases n <;> rfl]
      sep_cancel
    step (cmp_name (s := s) (t := t) .timeout) into r1; intro h1
    refine Triple.ite (fun hr => ?_) (fun hr => ?_)
    · stepd (loadInt_spec (p := value) (n := v) ?_)
      step (store_spec (p := h) ?_)
      exact Triple.pure (entails_trans (by sep_cancel) (fin .timeout (h1.1 hr) rfl))
    step (cmp_name (s := s) (t := t) .limit) into r2; intro h2
    refine Triple.ite (fun hr => ?_) (fun hr => ?_)
    · stepd (loadInt_spec (p := value) (n := v) ?_)
      step (store_spec (p := h) ?_)
      exact Triple.pure (entails_trans (by sep_cancel) (fin .limit (h2.1 hr) rfl))
    step (cmp_name (s := s) (t := t) .time) into r3; intro h3
    refine Triple.ite (fun hr => ?_) (fun hr => ?_)
    · stepd (loadInt_spec (p := value) (n := v) ?_)
      step (store_spec (p := h) ?_)
      exact Triple.pure (entails_trans (by sep_cancel) (fin .time (h3.1 hr) rfl))
    step (cmp_name (s := s) (t := t) .fresh) into r4; intro h4
    refine Triple.ite (fun hr => ?_) (fun hr => ?_)
    · stepd (loadInt_spec (p := value) (n := v) ?_)
      step (store_spec (p := h) ?_)
      exact Triple.pure (entails_trans (by sep_cancel) (fin .fresh (h4.1 hr) rfl))
    step (cmp_name (s := s) (t := t) .forbid) into r5; intro h5
    refine Triple.ite (fun hr => ?_) (fun hr => ?_)
    · stepd (loadInt_spec (p := value) (n := v) ?_)
      step (store_spec (p := h) ?_)
      exact Triple.pure (entails_trans (by sep_cancel) (fin .forbid (h5.1 hr) rfl))
    step (cmp_name (s := s) (t := t) .verbose) into r6; intro h6
    refine Triple.ite (fun hr => ?_) (fun hr => ?_)
    · stepd (loadInt_spec (p := value) (n := v) ?_)
      step (store_spec (p := h) ?_)
      exact Triple.pure (entails_trans (by sep_cancel) (fin .verbose (h6.1 hr) rfl))
    · refine Triple.pure (entails_ex_r (some o) (entails_pand_r ?_ ?_))
      · rw [OConn, ORep_some]
        refine entails_trans ?_ (sep_mono (ConnR_intro (u := u) hc) (entails_refl _))
        sep_cancel
      · unfold SetE
        dsimp only
        rw [named_none (fun n => by cases n <;> simp_all)]
        exact ⟨rfl, rfl⟩

/-- the slot where the copy is put -/
def OutR (p : Ptr) (out : Bool) (copy : Option Nat) : HProp :=
  if out then (match copy with
    | none => ∃∃ v : Val, p ↦ [v]
    | some w => ∃∃ q : Nat, p ↦ [.ptr q] ∗ q ↦ [.int w])
  else (p = 0) ⋏ emp

theorem isLongOption_spec {s : CharPtr} {t : Text} :
    Triple rel (CStr s t) (isLongOption s) (fun r => (r = true ↔ ∃ n : Name, n ≠ .timeout ∧ n.text = t) ⋏ CStr s t) := by
  unfold isLongOption
  step (cmp_name (s := s) (t := t) .limit) into r2; intro h2
  refine Triple.ite (fun hr => Triple.pure (entails_pand_r (entails_refl _) (by simpa using ⟨.limit, by simp, h2.1 hr⟩))) (fun hr2 => ?_)
  step (cmp_name (s := s) (t := t) .time) into r3; intro h3
  refine Triple.ite (fun hr => Triple.pure (entails_pand_r (entails_refl _) (by simpa using ⟨.time, by simp, h3.1 hr⟩))) (fun hr3 => ?_)
  step (cmp_name (s := s) (t := t) .fresh) into r4; intro h4
  refine Triple.ite (fun hr => Triple.pure (entails_pand_r (entails_refl _) (by simpa using ⟨.fresh, by simp, h4.1 hr⟩))) (fun hr4 => ?_)
  step (cmp_name (s := s) (t := t) .forbid) into r5; intro h5
  refine Triple.ite (fun hr => Triple.pure (entails_pand_r (entails_refl _) (by simpa using ⟨.forbid, by simp, h5.1 hr⟩))) (fun hr5 => ?_)
  step (cmp_name (s := s) (t := t) .verbose) into r6; intro h6
  refine Triple.pure (entails_pand_r (entails_refl _) ?_)
  rw [decide_eq_true_iff, h6]
  constructor
  · exact fun h => ⟨.verbose, by simp, h⟩
  · rintro ⟨n, hn, ht⟩
    cases n <;> simp_all

theorem HTTPAPI_CloneOption_spec {value out : Ptr} {s : CharPtr} {name : Option Text} {v : Option Nat} {b : Bool} :
    Triple rel (Arg s name ∗ WordR value v ∗ OutR out b none) (HTTPAPI_CloneOption s value out)
      (fun r => ∃∃ copy : Option Nat, (CloneE (¬ rel) name v b r copy) ⋏ Arg s name ∗ WordR value v ∗ OutR out b copy) := by
  unfold HTTPAPI_CloneOption
  refine Triple.know (know_Arg (s := s) (o := name) (by pick)) fun k2 => ?_
  refine Triple.know (know_WordR (p := value) (v := v) (by pick)) fun k3 => ?_
  refine Triple.know (φ := out = 0 ↔ b = false) (fun h hp => by
    obtain ⟨_, _, _, _, _, _, _, _, _, _, ho⟩ := hp
    unfold OutR at ho
    cases b with
    | false => simp at ho; simp [ho.1]
    | true =>
      simp only [if_true] at ho
      obtain ⟨w, ho⟩ := ho
      simp [ho.1]) fun k4 => ?_
  by_cases hb : s = .null ∨ value = 0 ∨ out = 0
  · rw [if_pos hb]
    refine Triple.pure (entails_ex_r none (entails_pand_r (entails_refl _) ?_))
    rw [k2, k3, k4] at hb
    cases b <;> cases name <;> cases v <;> simp_all [CloneE]
  · rw [if_neg hb]
    rw [k2, k3, k4] at hb
    cases name with
    | none => simp at hb
    | some t =>
    cases v with
    | none => simp at hb
    | some v =>
    cases b with
    | false => simp at hb
    | true =>
    rw [Arg_some, show WordR value (some v) = (value ↦ [.int v]) from rfl,
      show OutR out true none = ∃∃ v : Val, out ↦ [v] from rfl]; hoist; intro w
    have bad : ∀ {r : Res}, CloneE (¬ rel) (some t) (some v) true r none →
        CStr s t ∗ value ↦ [.int v] ∗ out ↦ [w] ⊢ₕ ∃∃ copy : Option Nat, (CloneE (¬ rel) (some t) (some v) true r copy) ⋏ CStr s t ∗ value ↦ [.int v] ∗ OutR out true copy :=
      fun he => entails_ex_r none (entails_pand_r (sep_mono (entails_refl _) (sep_mono (entails_refl _) (entails_ex_r w (entails_refl _)))) he)
    have fin : ∀ (n : Name) {q : Ptr} {x : Nat}, n.text = t → x = n.value v →
        CStr s t ∗ value ↦ [.int v] ∗ out ↦ [.ptr q] ∗ q ↦ [.int x] ⊢ₕ
        ∃∃ copy : Option Nat, (CloneE (¬ rel) (some t) (some v) true .ok copy) ⋏ CStr s t ∗ value ↦ [.int v] ∗ OutR out true copy := by
      intro n q x hn hx
      refine entails_ex_r (some x) (entails_pand_r (sep_mono (entails_refl _) (sep_mono (entails_refl _) (entails_ex_r q (entails_refl _)))) ?_)
      subst hn hx; simp [CloneE, named_text]
    step (cmp_name (s := s) (t := t) .timeout) into r1; intro h1
    refine Triple.ite (fun hr => ?_) (fun hr => ?_)
    · refine Triple.mallocW (by decide) (fun hrr => ?_) fun q hq _ => ?_
      · rw [if_pos rfl]
        refine Triple.pure (entails_trans (by sep_cancel) (bad ?_))
        have : ¬ rel := hrr.resolve_right (by decide)
        rw [← h1.1 hr]; simp [CloneE, named_text, this]
      · rw [if_neg hq]
        stepd (loadInt_spec (p := value) (n := v) ?_)
        step (store_spec (p := q) ?_)
        step (store_spec (p := out) ?_)
        exact Triple.pure (entails_trans (by (try dsimp only [List.replicate, List.set]); sep_cancel) (fin (q := q) (x := v % 2 ^ 32) .timeout (h1.1 hr) rfl))
    step (isLongOption_spec (s := s) (t := t)) into rl; intro hl
    refine Triple.ite (fun hr2 => ?_) (fun hr2 => ?_)
    · obtain ⟨n, hn, ht⟩ := hl.1 hr2
      refine Triple.mallocW (by decide) (fun hrr => ?_) fun q hq _ => ?_
      · rw [if_pos rfl]
        refine Triple.pure (entails_trans (by sep_cancel) (bad ?_))
        have : ¬ rel := hrr.resolve_right (by decide)
        rw [← ht]; simp [CloneE, named_text, this]
      · rw [if_neg hq]
        stepd (loadInt_spec (p := value) (n := v) ?_)
        step (store_spec (p := q) ?_)
        step (store_spec (p := out) ?_)
        exact Triple.pure (entails_trans (by (try dsimp only [List.replicate, List.set]); sep_cancel) (fin (q := q) (x := v) n ht (by simp [Name.value, hn])))
    · refine Triple.pure (entails_trans (by sep_cancel) (bad ?_))
      unfold CloneE
      dsimp only
      rw [named_none (fun n => ?_)]
      · exact ⟨rfl, rfl⟩
      · intro ht
        by_cases hn : n = .timeout
        · subst hn; exact hr (h1.2 ht)
        · exact hr2 (hl.2 ⟨n, hn, ht⟩)

end Verif.Curl
