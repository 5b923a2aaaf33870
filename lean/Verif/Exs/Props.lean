import Verif.Exs.Spec
import Verif.Ex.Build
import Verif.Sas.Claim
import Verif.Tick.Props
/-! # C45: credentials, refreshing the header, and the request -/
set_option linter.unusedVariables false
namespace Verif.Exs
open Verif.Ex Verif.Strings Verif.Headers Verif.Sas
open Verif.Base64 (Decodes)
open Verif.Crt (decimal IsDecimal)
open Verif.Hmac (Sized)
variable {rel : Prop}

/-- a handle -/
def CredR (h : Ptr) (c : Creds) : HProp :=
  ∃∃ (k u n : Ptr), h ↦ [.ptr k, .ptr u, .ptr n] ∗ Str k c.key ∗ Str u c.uri ∗ Str n c.name
abbrev OCred (h : Ptr) (a : Option Creds) : HProp := ORep CredR h a

theorem CredR_eq {h : Ptr} {c : Creds} : CredR h c =
  ∃∃ (k u n : Ptr), h ↦ [.ptr k, .ptr u, .ptr n] ∗ Str k c.key ∗ Str u c.uri ∗ Str n c.name := rfl

theorem know_OStr {h : Ptr} {a : Option Strings.Text} {P F : HProp} (pk : Pick P (OStr h a) F) : ∀ hp, P hp → (h = 0 ↔ a = none) := by
  intro hp hP
  cases a with
  | none =>
    unfold Pick at pk; rw [pk, OStr, ORep_none, pand_sep] at hP
    simp [hP.1]
  | some t =>
    have := know_Str (h := h) (t := t) (R := F) (by unfold Pick at *; rw [pk, OStr_some]) hp hP
    simp [this.1]

theorem know_OCred {h : Ptr} {a : Option Creds} {P F : HProp} (pk : Pick P (OCred h a) F) : ∀ hp, P hp → (h = 0 ↔ a = none) := by
  intro hp hP
  unfold Pick at pk; rw [pk] at hP
  cases a with
  | none => rw [OCred, ORep_none, pand_sep] at hP; simp [hP.1]
  | some c =>
    rw [OCred, ORep_some, CredR_eq] at hP
    simp only [hex_sep] at hP
    obtain ⟨k, u, n, hP⟩ := hP
    rw [sep_assoc] at hP
    have := know_pts (p := h) (φ := h ≠ 0) (rfl : Pick _ _ _) (fun h1 _ => h1) hp hP
    simp [this]

theorem deleteField_spec {h s : Ptr} {f : Nat} {b : Block} {a : Option Strings.Text} (hf : b[f]? = some (.ptr s)) :
    Triple rel (h ↦ b ∗ OStr s a) (deleteField h f) (fun _ => h ↦ b) := by
  unfold deleteField
  step (loadPtr_spec hf)
  refine Triple.know (know_OStr (h := s) (a := a) (by pick)) fun k => ?_
  refine Triple.ite (fun hs => ?_) fun hs => ?_
  · step (loadPtr_spec hf)
    last STRING_delete_spec
    exact entails_of_eq (by rw [emp_sep])
  · have e : s = 0 := Classical.not_not.1 hs
    obtain rfl := k.1 e
    refine Triple.pure ?_
    rw [OStr, ORep_none, e, eq_self, true_pand, sep_emp]
    exact entails_refl _

theorem destroy_fields {h k u n : Ptr} {a b c : Option Strings.Text} (h0 : h ≠ 0) :
    Triple rel (h ↦ [.ptr k, .ptr u, .ptr n] ∗ OStr k a ∗ OStr u b ∗ OStr n c) (HTTPAPIEX_SAS_Destroy h) (fun _ => emp) := by
  unfold HTTPAPIEX_SAS_Destroy
  rw [if_pos h0]
  step (deleteField_spec (h := h) (s := k) (f := fKey) (b := [.ptr k, .ptr u, .ptr n]) rfl)
  step (deleteField_spec (h := h) (s := u) (f := fUri) (b := [.ptr k, .ptr u, .ptr n]) rfl)
  step (deleteField_spec (h := h) (s := n) (f := fName) (b := [.ptr k, .ptr u, .ptr n]) rfl)
  exact free_spec

/-- C45: `HTTPAPIEX_SAS_Destroy` releases everything. -/
theorem HTTPAPIEX_SAS_Destroy_spec {h : Ptr} {a : Option Creds} : Triple rel (OCred h a) (HTTPAPIEX_SAS_Destroy h) (fun _ => emp) := by
  refine Triple.know (know_OCred (h := h) (a := a) (F := emp) (by unfold Pick; rw [sep_emp])) fun k => ?_
  cases a with
  | none =>
    obtain rfl := k.2 rfl
    unfold HTTPAPIEX_SAS_Destroy
    rw [if_neg (by simp), OCred, ORep_null]
    exact Triple.pure (entails_refl _)
  | some c =>
    rw [OCred, ORep_some, CredR_eq]; hoist; intro k' u n
    rw [← OStr_some, ← OStr_some, ← OStr_some]
    exact destroy_fields (by simpa using k)

theorem clone_access {P : HProp} {h : Ptr} {a : Option Strings.Text} (H : Access P h a) :
    Triple rel P (STRING_clone h) (fun r => Made Str (a = none ∨ ¬ rel) (fun t => a = some t) r ∗ P) := by
  obtain ⟨R, rfl⟩ := H
  exact (STRING_clone_spec.frame R).conseq (entails_refl _) fun r => entails_of_eq (sep_assoc _ _ _)

theorem cloneFails_spec {P : HProp} {state h : Ptr} {f : Nat} {b : Block} {t : Strings.Text} (hf : f < b.length) (H : Access P h (some t)) :
    Triple rel (state ↦ b ∗ P) (cloneFails state f h)
      (fun bad => ∃∃ c : Ptr, (bad = decide (c = 0) ∧ (c = 0 → ¬ rel)) ⋏ state ↦ b.set f (.ptr c) ∗ OStr c (if c = 0 then none else some t) ∗ P) := by
  unfold cloneFails
  step (clone_access H) into c
  step (store_spec hf)
  by_cases hc : c = 0
  · subst hc
    rw [Made_zero]; hoist; intro hr
    refine Triple.pure (entails_ex_r 0 (entails_pand_r ?_ ⟨rfl, fun _ => by simpa using hr⟩))
    rw [if_pos rfl, OStr, ORep_none, eq_self, true_pand, emp_sep]
    sep_cancel
  · rw [Made_ne hc]; hoist; intro t' ht
    obtain rfl := Option.some.inj ht
    refine Triple.pure (entails_ex_r c (entails_pand_r ?_ ⟨rfl, fun h => (hc h).elim⟩))
    rw [if_neg hc, OStr_some]
    sep_cancel

theorem nullStr : OStr 0 none = emp := by rw [OStr, ORep_none, eq_self, true_pand]

theorem clonesFail_spec {P : HProp} {state key uri name : Ptr} {k u n : Strings.Text}
    (hk : Access P key (some k)) (hu : Access P uri (some u)) (hn : Access P name (some n)) :
    Triple rel (state ↦ [.ptr 0, .ptr 0, .ptr 0] ∗ P) (clonesFail state key uri name)
      (fun bad => (∃∃ (p q r : Ptr) (a b c : Option Strings.Text),
        ((bad = true ∧ ¬ rel) ∨ (bad = false ∧ a = some k ∧ b = some u ∧ c = some n)) ⋏
          state ↦ [.ptr p, .ptr q, .ptr r] ∗ OStr p a ∗ OStr q b ∗ OStr r c ∗ P)) := by
  unfold clonesFail Sas.orElse
  step (cloneFails_spec (state := state) (f := fKey) (b := [.ptr 0, .ptr 0, .ptr 0]) (by decide) hk) into x
  intro p hx hp
  subst hx
  try dsimp only [fKey, fUri, fName, List.set]
  refine Triple.ite (fun h => ?_) fun h => ?_
  · simp only [decide_eq_true_eq] at h
    refine Triple.pure (entails_ex_r p (entails_ex_r 0 (entails_ex_r 0 (entails_ex_r (if p = 0 then none else some k) (entails_ex_r none (entails_ex_r none
      (entails_pand_r ?_ (Or.inl ⟨rfl, hp h⟩))))))))
    rw [nullStr, emp_sep, emp_sep]; exact entails_refl _
  simp only [decide_eq_true_eq] at h
  rw [if_neg h]
  step (cloneFails_spec (state := state) (f := fUri) (b := [.ptr p, .ptr 0, .ptr 0]) (by simp [fUri]) hu) into y
  intro q hy hq
  subst hy
  try dsimp only [fKey, fUri, fName, List.set]
  refine Triple.ite (fun h' => ?_) fun h' => ?_
  · simp only [decide_eq_true_eq] at h'
    refine Triple.pure (entails_ex_r p (entails_ex_r q (entails_ex_r 0 (entails_ex_r (some k) (entails_ex_r (if q = 0 then none else some u) (entails_ex_r none
      (entails_pand_r ?_ (Or.inl ⟨rfl, hq h'⟩))))))))
    rw [nullStr, emp_sep]; sep_cancel
  simp only [decide_eq_true_eq] at h'
  rw [if_neg h']
  refine Triple.conseq ((cloneFails_spec (state := state) (f := fName) (b := [.ptr p, .ptr q, .ptr 0]) (by simp [fName]) hn).frame (OStr p (some k) ∗ OStr q (some u)))
    (by sep_cancel) fun z => ?_
  rw [hex_sep]
  refine entails_ex_l fun r => ?_
  rw [pand_sep]
  refine entails_pand_l fun hz => ?_
  try dsimp only [fKey, fUri, fName, List.set]
  refine entails_ex_r p (entails_ex_r q (entails_ex_r r (entails_ex_r (some k) (entails_ex_r (some u) (entails_ex_r (if r = 0 then none else some n)
    (entails_pand_r (by simp only [sep_assoc]; sep_cancel) ?_))))))
  rw [hz.1]
  by_cases hr : r = 0
  · exact Or.inl ⟨by simp [hr], hz.2 hr⟩
  · exact Or.inr ⟨by simp [hr], rfl, rfl, by rw [if_neg hr]⟩

/-- C45: `HTTPAPIEX_SAS_Create` copies the three strings, which may be the same. -/
theorem HTTPAPIEX_SAS_Create_spec {P : HProp} {key uri name : Ptr} {k u n : Option Strings.Text}
    (hk : Access P key k) (hu : Access P uri u) (hn : Access P name n) :
    Triple rel P (HTTPAPIEX_SAS_Create key uri name)
      (fun r => ∃∃ a' : Option Creds, (CreateE (¬ rel) k u n (decide (r ≠ 0)) a') ⋏ OCred r a' ∗ P) := by
  have null : CreateE (¬ rel) k u n (decide ((0 : Ptr) ≠ 0)) none → P ⊢ₕ ∃∃ a' : Option Creds, (CreateE (¬ rel) k u n (decide ((0 : Ptr) ≠ 0)) a') ⋏ OCred 0 a' ∗ P := fun h =>
    entails_ex_r none (entails_pand_r (by rw [OCred, ORep_null, emp_sep]; exact entails_refl _) h)
  have ka : ∀ {h a}, Access P h a → ∀ hp, P hp → (h = 0 ↔ a = none) := fun ⟨R, e⟩ => know_OStr (show Pick _ _ R from e)
  refine Triple.know (ka hk) fun k1 => ?_
  refine Triple.know (ka hu) fun k2 => ?_
  refine Triple.know (ka hn) fun k3 => ?_
  unfold HTTPAPIEX_SAS_Create
  refine Triple.ite (fun h => Triple.pure (null (by rw [k1.1 h]; exact ⟨by simp, rfl⟩))) fun h1 => ?_
  refine Triple.ite (fun h => Triple.pure (null (by rw [k2.1 h]; cases k <;> exact ⟨by simp, rfl⟩))) fun h2 => ?_
  refine Triple.ite (fun h => Triple.pure (null (by rw [k3.1 h]; cases k <;> cases u <;> exact ⟨by simp, rfl⟩))) fun h3 => ?_
  rw [k1] at h1; rw [k2] at h2; rw [k3] at h3
  obtain ⟨kt, rfl⟩ := Option.ne_none_iff_exists'.1 h1
  obtain ⟨ut, rfl⟩ := Option.ne_none_iff_exists'.1 h2
  obtain ⟨nt, rfl⟩ := Option.ne_none_iff_exists'.1 h3
  refine Triple.mallocS (by decide) (fun hr => ?_) fun p hp => ?_
  · rw [if_neg (by simp)]
    exact Triple.pure (null (Or.inl ⟨by simp, rfl, hr⟩))
  · rw [if_pos hp]
    rw [show List.replicate 3 Val.undef = [.undef, .undef, .undef] from rfl]
    step (store_spec (p := p) (off := fKey) (b := [.undef, .undef, .undef]) (by decide))
    try dsimp only [fKey, fUri, fName, List.set]
    step (store_spec (p := p) (off := fUri) (b := [.ptr 0, .undef, .undef]) (by decide))
    try dsimp only [fKey, fUri, fName, List.set]
    step (store_spec (p := p) (off := fName) (b := [.ptr 0, .ptr 0, .undef]) (by decide))
    try dsimp only [fKey, fUri, fName, List.set]
    step (clonesFail_spec (state := p) hk hu hn) into bad
    intro x y z a b c hE
    refine Triple.ite (fun h => ?_) fun h => ?_
    · rcases hE with hE | hE
      · step (destroy_fields hp)
        exact Triple.pure (null (Or.inl ⟨by simp, rfl, hE.2⟩))
      · simp [hE.1] at h
    · rcases hE with hE | ⟨_, rfl, rfl, rfl⟩
      · simp [hE.1] at h
      · refine Triple.pure (entails_ex_r (some ⟨kt, ut, nt⟩) (entails_pand_r ?_ (Or.inr ⟨by simpa using hp, rfl⟩)))
        rw [OCred, ORep_some, CredR_eq, OStr_some, OStr_some, OStr_some]
        simp only [hex_sep]
        exact entails_ex_r x (entails_ex_r y (entails_ex_r z (by sep_cancel)))

/-! ## Refreshing -/

theorem expiry_eq {t : Int} (h : Reading t) (h1 : t ≠ -1) : Tick.toDouble (Tick.difftime t 0 + 3600) = t + 3600 := by
  rcases h with h | ⟨h2, h3⟩
  · exact (h1 h).elim
  have e : Tick.difftime t 0 = t := by
    unfold Tick.difftime Tick.toDouble
    have : (t - 0).natAbs < 2 ^ 53 := by omega
    rw [Tick.roundNat_small this]
    split <;> omega
  rw [e]
  exact Tick.toDouble_small (by omega) (by omega)

theorem okName_auth : okName auth := by decide

theorem tokenOf_trim (sg st nt ex : Ex.Text) : (tokenOf sg st nt ex).dropWhile isLWS = tokenOf sg st nt ex := by
  unfold tokenOf
  rw [show ascii "SharedAccessSignature sr=" = 83 :: ascii "haredAccessSignature sr=" from rfl]
  simp only [List.cons_append]
  rw [List.dropWhile_cons_of_neg (by decide)]

/-- what a call of `SASToken_Create` gives to the caller -/
def TokenAt (rel : Prop) (c : Creds) (t : Int) (r : Ptr) : HProp :=
  Made Str (¬ rel ∨ c.key = [] ∨ maxObj < c.uri.length + c.name.length + 500)
    (fun v => IsToken c t v ∧ v.dropWhile isLWS = v ∧ v.length + 1 ≤ c.uri.length + c.name.length + 500) r

theorem token_spec {l : Hmac.Locals} (ht : Sized l.tctx) (hs : Sized l.ctx.shaContext) {te k u n : Ptr} {c : Creds} {t : Int} {b : Block}
    (hb : b.length = 32) (h0 : 0 ≤ t + 3600) (h1 : t + 3600 < 2 ^ 53) (hd : ∃ kb, Decodes c.key kb) :
    Triple rel (Str k c.key ∗ Str u c.uri ∗ Str n c.name ∗ te ↦ b) (SASToken_Create l te k u n (UInt64.ofNat (t + 3600).toNat))
      (fun r => ∃∃ lost : HProp, (rel → lost = emp) ⋏ TokenAt rel c t r ∗ Str k c.key ∗ Str u c.uri ∗ Str n c.name ∗ lost) := by
  have T := SASToken_Create_spec (rel := rel) ht hs (te := te) (key := k) (scope := u) (keyName := n) (k := some c.key) (s := some c.uri) (n := some c.name)
    (expiry := UInt64.ofNat (t + 3600).toNat) (P := Str k c.key ∗ Str u c.uri ∗ Str n c.name) hb
    ⟨Str u c.uri ∗ Str n c.name, by rw [OStr_some]⟩ ⟨Str k c.key ∗ Str n c.name, by rw [OStr_some, sep_left_comm]⟩
    ⟨Str k c.key ∗ Str u c.uri, by rw [OStr_some]; rw [sep_comm (Str n _), sep_assoc]⟩ (by rintro _ h; obtain rfl := Option.some.inj h; exact hd)
  have ex : (UInt64.ofNat (t + 3600).toNat).toNat = (t + 3600).toNat := by
    rw [UInt64.toNat_ofNat']; omega
  refine T.conseq (by sep_cancel) fun r => ?_
  unfold Created
  refine entails_ex_l fun lost => entails_pand_l fun hlost => entails_ex_r lost (entails_pand_r ?_ ?_)
  · simp only [sep_assoc]
    refine sep_mono (Made_mono ?_ ?_) (entails_refl _)
    · rintro (h | h | h | h | h | ⟨kt, kb, st, nt, ex, -, h2, h3, h4, h5, h⟩)
      · exact Or.inl h
      · simp at h
      · simp at h
      · simp at h
      · exact Or.inr (Or.inl (by simpa using h))
      · obtain rfl := Option.some.inj h2
        obtain rfl := Option.some.inj h3
        have := tokenOf_le kb c.uri c.name ex (isDecimal_le h5)
        exact Or.inr (Or.inr (by omega))
    · rintro v ⟨kt, kb, st, nt, dg, h1, h2, h3, h4, h5, h6, rfl⟩
      obtain rfl := Option.some.inj h1
      obtain rfl := Option.some.inj h2
      obtain rfl := Option.some.inj h3
      have hl := isDecimal_le h6
      refine ⟨⟨kb, h5, h4, fun a b => ?_⟩, tokenOf_trim _ _ _ _, tokenOf_le _ _ _ _ hl⟩
      have h7 : (c.uri ++ ascii "\n" ++ dg).length < 2 ^ 32 := by
        simp only [List.length_append, show (ascii "\n").length = 1 from rfl]; omega
      rw [ex] at h6
      rw [← h6.unique]
      rw [token_eq, signature, sigX, Hmac.effKey_small a, Hmac.effText_small h7]
  · intro hr
    rcases hlost with h | h
    · exact h
    · exact (h.1 hr).elim

theorem useToken_spec {hh r : Ptr} {hs : Hdrs} {c : Creds} {t : Int} {old : Ex.Text} (hf : find hs auth = some old) :
    Triple rel (HdrR hh hs ∗ TokenAt rel c t r) (useToken hh r)
      (fun _ => ∃∃ hs' : Hdrs, ((∃ v, IsToken c t v ∧ hs' = Headers.set hs auth v) ∨
         (hs' = hs ∧ (¬ rel ∨ c.key = [] ∨ maxObj ≤ c.uri.length + c.name.length + 502 + old.length ∨ maxObj < 8 * (hs.length + 1)))) ⋏ HdrR hh hs') := by
  unfold useToken
  unfold TokenAt
  by_cases hr : r = 0
  · subst hr
    rw [if_neg (by simp), Made_zero]; hoist; intro h
    refine Triple.pure (entails_ex_r hs (entails_pand_r (entails_refl _) (Or.inr ⟨rfl, ?_⟩)))
    rcases h with h | h | h
    · exact Or.inl h
    · exact Or.inr (Or.inl h)
    · exact Or.inr (Or.inr (Or.inl (by omega)))
  · rw [if_pos hr, Made_ne hr]; hoist; intro v hv hw hl
    rw [← OStr_some]
    step (STRING_c_str_spec (h := r) (a := some v)) into s
    rw [show StrAt r s (some v) = (r ↦ [.ptr s] ∗ CStr (.heap s 0) v) from rfl]
    simp only [sep_assoc]
    refine Triple.know (know_heap0 (p := s) (t := v) (by pick)) fun h0 => ?_
    rw [ofPtr_ne h0]
    step (put_header (p := hh) (hs := hs) (n := auth) (v := v) (s := .heap s 0) CStr_opens okName_auth (by decide) (by decide)) into r1
    intro hs1 hr1
    refine Triple.pre (P' := OStr r (some v) ∗ HdrR hh hs1) ?_ ?_
    · last STRING_delete_spec
      refine entails_ex_r hs1 (entails_pand_r (entails_of_eq (emp_sep _)) ?_)
      rcases hr1 with ⟨-, h⟩ | ⟨-, h, h1 | h1 | ⟨old', h1, h2⟩⟩
      · rw [hw, stored, hf] at h
        exact Or.inl ⟨v, hv, h⟩
      · exact Or.inr ⟨h, Or.inl h1⟩
      · exact Or.inr ⟨h, Or.inr (Or.inr (Or.inr h1))⟩
      · rw [hf] at h1
        obtain rfl := Option.some.inj h1
        exact Or.inr ⟨h, Or.inr (Or.inr (Or.inl (by omega)))⟩
    · refine entails_trans ?_ (sep_mono (StrAt_OStr (p := s) (a := some v)) (entails_refl _))
      rw [show StrAt r s (some v) = (r ↦ [.ptr s] ∗ CStr (.heap s 0) v) from rfl]
      sep_cancel

variable {get_time : M Int} {Clk : List Int → HProp}

/-- C45: the headers before the request. -/
theorem refresh_spec (HC : Clock rel get_time Clk) {l : Hmac.Locals} (ht : Sized l.tctx) (hs : Sized l.ctx.shaContext) {te sh hh : Ptr} {c : Option Creds}
    {a : Option Hdrs} {tr : List Int} {b : Block} (hb : b.length = 32) (hd : ∀ cc, c = some cc → ∃ kb, Decodes cc.key kb) :
    Triple rel (OCred sh c ∗ OHdr hh a ∗ Clk tr ∗ te ↦ b) (refresh get_time l te sh hh)
      (fun _ => ∃∃ (a' : Option Hdrs) (tr' : List Int) (lost : HProp), (RefreshE (¬ rel) c a tr a' tr' ∧ (rel → lost = emp)) ⋏
        OCred sh c ∗ OHdr hh a' ∗ Clk tr' ∗ lost) := by
  have same : ∀ {tr'}, RefreshE (¬ rel) c a tr a tr' → Triple rel (OCred sh c ∗ OHdr hh a ∗ Clk tr' ∗ te ↦ b) (noCall te)
      (fun _ => ∃∃ (a' : Option Hdrs) (tr' : List Int) (lost : HProp), (RefreshE (¬ rel) c a tr a' tr' ∧ (rel → lost = emp)) ⋏
        OCred sh c ∗ OHdr hh a' ∗ Clk tr' ∗ lost) := fun {tr'} h => by
    unfold noCall
    last (free_spec (p := te))
    exact entails_ex_r a (entails_ex_r tr' (entails_ex_r emp (entails_pand_r (by rw [emp_sep, sep_emp]; exact entails_refl _) ⟨h, fun _ => rfl⟩)))
  unfold refresh
  refine Triple.know (know_OCred (h := sh) (a := c) (by pick)) fun k1 => ?_
  refine Triple.know (know_OHdr (h := hh) (a := a) (by pick)) fun k2 => ?_
  refine Triple.ite (fun h1 => ?_) fun h1 => same (by rw [k1.1 (Classical.not_not.1 h1)]; exact ⟨rfl, rfl⟩)
  refine Triple.ite (fun h2 => ?_) fun h2 => same (by rw [k2.1 (Classical.not_not.1 h2)]; cases c <;> exact ⟨rfl, rfl⟩)
  rw [ne_eq, k1] at h1; rw [ne_eq, k2] at h2
  obtain ⟨c, rfl⟩ := Option.ne_none_iff_exists'.1 h1
  obtain ⟨hs, rfl⟩ := Option.ne_none_iff_exists'.1 h2
  have tf := HTTPHeaders_FindHeaderValue_spec (rel := rel) (h := hh) (a := some hs) (name := .str auth) (on := some auth)
  rw [Strings.Arg_lit ⟨by decide, by decide⟩, sep_emp] at tf
  step tf into v
  by_cases hv : v = 0
  · rw [if_neg (by simpa using hv), FoundAt, if_pos hv]
    hoist; intro hn
    refine (same (tr' := tr) ?_).pre (by sep_cancel)
    have := hn hs auth rfl rfl
    simp only [RefreshE, this]; exact ⟨trivial, trivial⟩
  rw [if_pos hv]
  refine Triple.know (φ := ∃ old, find hs auth = some old) ?_ fun hf => ?_
  · rw [FoundAt, if_neg hv]
    rintro hp hP
    simp only [hex_sep] at hP
    obtain ⟨old, F, hP⟩ := hP
    rw [pand_sep] at hP
    obtain ⟨⟨hs', n', e1, e2, e3, -⟩, -⟩ := hP
    obtain rfl := Option.some.inj e1
    obtain rfl := Option.some.inj e2
    exact ⟨old, e3⟩
  obtain ⟨old, hf⟩ := hf
  refine Triple.pre ?_ (sep_mono FoundAt_back (entails_refl _))
  step (HC tr) into t
  intro hR
  have kept : ∀ hs', ((∃ v, t ≠ -1 ∧ IsToken c t v ∧ hs' = Headers.set hs auth v) ∨
         (hs' = hs ∧ (t = -1 ∨ ¬ rel ∨ c.key = [] ∨ maxObj ≤ c.uri.length + c.name.length + 502 + old.length ∨ maxObj < 8 * (hs.length + 1)))) →
      RefreshE (¬ rel) (some c) (some hs) tr (some hs') (tr ++ [t]) := fun hs' h => by
    simp only [RefreshE, hf]
    refine ⟨t, rfl, ?_⟩
    rcases h with ⟨v, h1, h2, rfl⟩ | ⟨rfl, h⟩
    · exact Or.inl ⟨v, h1, h2, rfl⟩
    · exact Or.inr ⟨rfl, h⟩
  refine Triple.ite (fun h => (same (kept hs (Or.inr ⟨rfl, Or.inl h⟩))).pre (by sep_cancel)) fun h => ?_
  rw [expiry_eq hR h]
  have hR' := hR.resolve_left h
  step (Tick.toUint64_spec (d := t + 3600) (by omega) (by omega)) into e
  rintro rfl
  rw [OCred, ORep_some, CredR_eq]; hoist; intro k u n
  step (loadPtr_spec (p := sh) (off := fKey) (q := k) (b := [.ptr k, .ptr u, .ptr n]) rfl)
  step (loadPtr_spec (p := sh) (off := fUri) (q := u) (b := [.ptr k, .ptr u, .ptr n]) rfl)
  step (loadPtr_spec (p := sh) (off := fName) (q := n) (b := [.ptr k, .ptr u, .ptr n]) rfl)
  step (token_spec (rel := rel) ht ‹Sized l.ctx.shaContext› (te := te) (k := k) (u := u) (n := n) (c := c) (t := t) (b := b) hb (by omega) (by omega) (hd c rfl)) into r
  intro lost hlost
  rw [OHdr, ORep_some]
  last (useToken_spec (rel := rel) (hh := hh) (r := r) (hs := hs) (c := c) (t := t) hf)
  rw [hex_sep]
  refine entails_ex_l fun hs' => ?_
  rw [pand_sep]
  refine entails_pand_l fun hE => entails_ex_r (some hs') (entails_ex_r (tr ++ [t]) (entails_ex_r lost (entails_pand_r ?_ ⟨kept hs' ?_, hlost⟩)))
  · rw [OHdr, ORep_some]
    simp only [hex_sep]
    exact entails_ex_r k (entails_ex_r u (entails_ex_r n (by sep_cancel)))
  · rcases hE with ⟨v, h1, h2⟩ | ⟨h1, h2⟩
    · exact Or.inl ⟨v, h, h1, h2⟩
    · exact Or.inr ⟨h1, Or.inr h2⟩

variable {api : Http} {Net : List Ev → HProp} {Sess : HProp} {Conn : Nat → HProp}

/-- C45 for one call, in any state.  Missing: handles whose key is not a base64 text (C22), readings of the clock more than an hour before 1970 (see
`too_early`), and the block that may be lost when an allocation is refused (C39). -/
theorem HTTPAPIEX_SAS_ExecuteRequest_partial (H : Honours rel api Net Sess Conn) (HC : Clock rel get_time Clk) {l : Hmac.Locals} (ht : Sized l.tctx)
    (hs : Sized l.ctx.shaContext) {te sh h hq cq st hr cr temp dummy : Ptr} {path : CharPtr} {c : Option Creds} {a : Option Obj} {x : Args} {b t : Block} {d : Val}
    {tr : List Ev} {cl : List Int} (hb : b.length = 32) (htl : t.length = 22) (hd : ∀ cc, c = some cc → ∃ kb, Decodes cc.key kb) :
    Triple rel (OCred sh c ∗ Clk cl ∗ te ↦ b ∗ Net tr ∗ OEx Sess Conn h a ∗ ArgsR path hq cq st hr cr x ∗ dummy ↦ [d] ∗ temp ↦ t)
      (HTTPAPIEX_SAS_ExecuteRequest api get_time l te sh h x.type path hq cq st hr cr temp dummy)
      (fun r => ∃∃ (a' : Option Obj) (x' : Args) (d' : Val) (cl' : List Int) (evs : List Ev) (t' : Block) (lost : HProp),
        (ExecE (¬ rel) c a x d cl r a' x' d' cl' evs ∧ t'.length = 22 ∧ (rel → lost = emp)) ⋏
        OCred sh c ∗ Clk cl' ∗ Net (tr ++ evs) ∗ OEx Sess Conn h a' ∗ ArgsR path hq cq st hr cr x' ∗ dummy ↦ [d'] ∗ temp ↦ t' ∗ lost) := by
  unfold HTTPAPIEX_SAS_ExecuteRequest
  rw [ArgsR_eq]
  simp only [sep_assoc]
  step (refresh_spec HC ht hs (te := te) (sh := sh) (hh := hq) (c := c) (a := x.hdrs) (tr := cl) hb hd)
  intro hs' cl' lost hE hl
  have T := HTTPAPIEX_ExecuteRequest_spec H (h := h) (hq := hq) (cq := cq) (st := st) (hr := hr) (cr := cr) (temp := temp) (dummy := dummy)
    (path := path) (a := a) (x := { x with hdrs := hs' }) (t := t) (d := d) (tr := tr) htl
  rw [ArgsR_eq] at T
  dsimp only at T
  refine Triple.conseq (T.frame (OCred sh c ∗ Clk cl' ∗ lost)) (by simp only [sep_assoc]; sep_cancel) fun r => ?_
  simp only [hex_sep, pand_sep]
  refine entails_ex_l fun a' => entails_ex_l fun x' => entails_ex_l fun d' => entails_ex_l fun evs => entails_ex_l fun t' => entails_pand_l fun hX => ?_
  exact entails_ex_r a' (entails_ex_r x' (entails_ex_r d' (entails_ex_r cl' (entails_ex_r evs (entails_ex_r t' (entails_ex_r lost
    (entails_pand_r (by simp only [sep_assoc]; sep_cancel) ⟨⟨hs', hE, hX.1⟩, hX.2, hl⟩)))))))

end Verif.Exs
