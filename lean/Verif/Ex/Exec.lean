import Verif.Ex.Props
/-! # C40–C42: the loop of `HTTPAPIEX_ExecuteRequest` -/
set_option linter.unusedSimpArgs false
set_option linter.unusedVariables false
namespace Verif.Ex
open Verif.Vec Verif.Crt Verif.Strings Verif.Sock Verif.Buffer
open Verif.Headers (HdrR)
open Verif.Map (CS free_CS get_of_lt)
variable {rel : Prop} {api : Http} {Net : List Ev → HProp} {Sess : HProp} {Conn : Nat → HProp}
variable {h : Ptr} {k k' : Int} {http http' : Nat} {host : Text} {opts : List (Text × Block)}

/-! ## fields -/

theorem Hd_k (hk : i32 k) : Triple rel (Hd h k http host opts) (loadI h fK) (fun r => (r = k) ⋏ Hd h k http host opts) := by
  rw [Hd_eq]; hoist; intro hn vec
  last (loadI_spec (p := h) (z := k) (b := [.ptr hn, intV k, .ptr http, .ptr vec]) rfl hk)
  rename_i r
  rw [pand_sep]
  exact entails_pand_l fun e => entails_pand_r Hd_intro e

theorem Hd_setK : Triple rel (Hd h k http host opts) (store h fK (intV k')) (fun _ => Hd h k' http host opts) := by
  rw [Hd_eq]; hoist; intro hn vec
  last (store_spec (p := h) (b := [.ptr hn, intV k, .ptr http, .ptr vec]) (off := fK) (by simp [fK]))
  exact Hd_intro

theorem Hd_http : Triple rel (Hd h k http host opts) (loadPtr h fHttp) (fun r => (r = http) ⋏ Hd h k http host opts) := by
  rw [Hd_eq]; hoist; intro hn vec
  last (loadPtr_spec (p := h) (q := http) (b := [.ptr hn, intV k, .ptr http, .ptr vec]) rfl)
  rename_i r
  rw [pand_sep]
  exact entails_pand_l fun e => entails_pand_r Hd_intro e

theorem Hd_setHttp : Triple rel (Hd h k http host opts) (store h fHttp (.ptr http')) (fun _ => Hd h k http' host opts) := by
  rw [Hd_eq]; hoist; intro hn vec
  last (store_spec (p := h) (b := [.ptr hn, intV k, .ptr http, .ptr vec]) (off := fHttp) (by simp [fHttp]))
  exact Hd_intro

/-! ## the objects of a request -/

/-- the request and response objects -/
def In (u : Used) (q : Req) (g : Resp) : HProp :=
  CStr u.path q.path ∗ HdrR u.hdrs q.hdrs ∗ Buf u.content q.content ∗ u.status ↦ [g.status] ∗ HdrR u.rhdrs g.hdrs ∗ Buf u.rcontent g.content

theorem In_eq {u : Used} {q : Req} {g : Resp} : In u q g =
  (CStr u.path q.path ∗ HdrR u.hdrs q.hdrs ∗ Buf u.content q.content ∗ u.status ↦ [g.status] ∗ HdrR u.rhdrs g.hdrs ∗ Buf u.rcontent g.content) := rfl

theorem BufAt_Body {b p : Ptr} {c : Content} : BufAt b p (some c) = (b ↦ [.ptr p, .int (clen c)] ∗ Body p c) := by
  cases c with
  | none =>
    funext hp
    apply propext
    rw [show BufAt b p (some none) = ((p = 0) ⋏ b ↦ [.ptr 0, .int 0]) from rfl, Body, sep_pand, sep_emp]
    constructor
    · rintro ⟨rfl, h⟩; exact ⟨rfl, h⟩
    · rintro ⟨rfl, h⟩; exact ⟨rfl, h⟩
  | some b => rfl

theorem length_at {b p : Ptr} {c : Content} :
    Triple rel (b ↦ [.ptr p, .int (clen c)]) (BUFFER_length b) (fun r => (r = clen c) ⋏ b ↦ [.ptr p, .int (clen c)]) := by
  unfold BUFFER_length
  refine Triple.know (know_pts (p := b) (φ := b ≠ 0) (by pick) fun h1 _ => h1) fun h0 => ?_
  rw [if_neg h0]
  exact loadInt_spec rfl

theorem exec_step (H : Honours rel api Net Sess Conn) {u : Used} {q : Req} {g : Resp} {tr : List Ev} {c : Nat} :
    Triple rel (Net tr ∗ Hd h 2 c host opts ∗ Sess ∗ Conn c ∗ In u q g) (attempt api h q.type u 2)
      (fun b => ∃∃ (r : Res) (g' : Resp), (b = decide (r = .ok)) ⋏ Net (tr ++ [.execute c q g r g']) ∗ Hd h 2 c host opts ∗ Sess ∗ Conn c ∗ In u q g') := by
  unfold attempt
  rw [if_neg (by decide), if_neg (by decide), if_pos rfl, In_eq]
  step Hd_http
  rw [← show OBuf u.content (some q.content) = Buf u.content q.content from rfl]
  step (BUFFER_u_char_spec (h := u.content) (a := some q.content)) into p
  rw [BufAt_Body]
  simp only [sep_assoc]
  step (length_at (b := u.content) (p := p) (c := q.content))
  step (H.execute c q g u.path u.hdrs p u.status u.rhdrs u.rcontent tr) into r
  intro g'
  refine Triple.pure (entails_ex_r r (entails_ex_r g' (entails_pand_r ?_ rfl)))
  rw [In_eq]
  have e : u.content ↦ [.ptr p, .int (clen q.content)] ∗ Body p q.content ⊢ₕ Buf u.content q.content := by
    rw [← BufAt_Body]; exact BufAt_OBuf
  refine entails_trans (Q := Net (tr ++ [.execute c q g r g']) ∗ Hd h 2 c host opts ∗ Sess ∗ Conn c ∗ CStr u.path q.path ∗ HdrR u.hdrs q.hdrs ∗
    (u.content ↦ [.ptr p, .int (clen q.content)] ∗ Body p q.content) ∗ u.status ↦ [g'.status] ∗ HdrR u.rhdrs g'.hdrs ∗ Buf u.rcontent g'.content) (by sep_cancel) ?_
  exact sep_mono (entails_refl _) (sep_mono (entails_refl _) (sep_mono (entails_refl _) (sep_mono (entails_refl _) (sep_mono (entails_refl _)
    (sep_mono (entails_refl _) (sep_mono e (entails_refl _)))))))

/-! ## options of a new connection -/

theorem Hd_fields {hn vec st : Ptr} {ps : List (Nat × Nat)} (hnd : (opts.map Prod.fst).Nodup) :
    h ↦ [.ptr hn, intV k, .ptr http, .ptr vec] ∗ Str hn host ∗ VecO vec st ps ∗ OwnO ps opts ⊢ₕ Hd h k http host opts :=
  entails_trans (sep_mono (entails_refl _) (sep_mono (entails_refl _) (OptsR_intro hnd))) Hd_intro

theorem applyLoop_spec (H : Honours rel api Net Sess Conn) {hn vec st : Ptr} {ps : List (Nat × Nat)} {c : Nat} : ∀ (n i : Nat) (tr : List Ev), n + i = ps.length →
    Triple rel (Net tr ∗ Sess ∗ Conn c ∗ h ↦ [.ptr hn, intV k, .ptr c, .ptr vec] ∗ VecO vec st ps ∗ OwnO ps opts) (applyLoop api h n i)
      (fun _ => ∃∃ evs : List Ev, (Applied c (opts.drop i) evs) ⋏ Net (tr ++ evs) ∗ Sess ∗ Conn c ∗ h ↦ [.ptr hn, intV k, .ptr c, .ptr vec] ∗
        VecO vec st ps ∗ OwnO ps opts) := by
  intro n
  induction n with
  | zero =>
    intro i tr hi
    refine Triple.know (know_OwnO (ps := ps) (xs := opts) (by pick)) fun hl => ?_
    refine Triple.pure (entails_ex_r [] (entails_pand_r (by rw [List.append_nil]; exact entails_refl _) ⟨[], ?_, ?_⟩)) <;>
      rw [List.drop_of_length_le (by omega)] <;> rfl
  | succ n ih =>
    intro i tr hi
    unfold applyLoop
    refine Triple.know (know_OwnO (ps := ps) (xs := opts) (by pick)) fun hl => ?_
    obtain ⟨p, hp⟩ := get_of_lt (l := ps) (i := i) (by omega)
    obtain ⟨x, hx⟩ := get_of_lt (l := opts) (i := i) (by omega)
    obtain ⟨F, h1, _⟩ := OwnO_get hl hp hx
    step (loadPtr_spec (p := h) (q := vec) (b := [.ptr hn, intV k, .ptr c, .ptr vec]) rfl)
    step (VECTOR_element_opts (vec := vec) (st := st) (ps := ps) (i := i) (by omega))
    step (loadPtr_spec (p := h) (q := c) (b := [.ptr hn, intV k, .ptr c, .ptr vec]) rfl)
    step (loadOpt_name hp)
    step (loadOpt_value hp)
    rw [h1]
    refine Triple.know (know_heap0 (p := p.1) (t := x.1) (by pick)) fun h0 => ?_
    rw [ofPtr_ne h0]
    step (H.setOption c (.heap p.1 0) x.1 p.2 x.2 tr) into r
    rw [h1] at ih
    refine ((ih (i + 1) (tr ++ [.setOption c x.1 x.2 r]) (by omega)).pre (by sep_cancel)).conseq (entails_refl _) fun _ => ?_
    refine entails_ex_l fun evs => entails_pand_l fun ha => entails_ex_r (.setOption c x.1 x.2 r :: evs) (entails_pand_r ?_ ?_)
    · rw [List.append_assoc]; exact entails_refl _
    · obtain ⟨rs, h2, rfl⟩ := ha
      obtain ⟨h3, h4⟩ := List.getElem?_eq_some_iff.1 hx
      refine ⟨r :: rs, ?_, ?_⟩
      · simp [h2]; omega
      · rw [List.drop_eq_getElem_cons h3, h4]; rfl

theorem create_step (H : Honours rel api Net Sess Conn) {u : Used} {t : Nat} {tr : List Ev} {c0 : Nat} :
    Triple rel (Net tr ∗ Hd h 1 c0 host opts ∗ Sess) (attempt api h t u 1)
      (fun b => ∃∃ (c : Nat) (opt : List Ev), (b = decide (c ≠ 0) ∧ (if c = 0 then opt = [] else Applied c opts opt)) ⋏
        Net (tr ++ .create host c :: opt) ∗ Hd h 1 c host opts ∗ Sess ∗ if c = 0 then emp else Conn c) := by
  unfold attempt
  rw [if_neg (by decide), if_pos rfl]
  refine Triple.know (know_Hd (h := h) (by pick)) fun hk => ?_
  rw [Hd_eq]; hoist; intro hn vec
  step (loadPtr_spec (p := h) (q := hn) (b := [.ptr hn, intV 1, .ptr c0, .ptr vec]) rfl)
  rw [← Sas.OStr_some]
  step (STRING_c_str_spec (h := hn) (a := some host)) into s
  rw [show StrAt hn s (some host) = (hn ↦ [.ptr s] ∗ CStr (.heap s 0) host) from rfl]
  simp only [sep_assoc]
  refine Triple.know (know_heap0 (p := s) (t := host) (by pick)) fun h0 => ?_
  rw [ofPtr_ne h0]
  step (H.create (.heap s 0) host tr) into c
  step (store_spec (p := h) (b := [.ptr hn, intV 1, .ptr c0, .ptr vec]) (off := fHttp) (by simp [fHttp]))
  step (loadPtr_spec (p := h) (q := c) (b := [.ptr hn, intV 1, .ptr c, .ptr vec]) rfl)
  by_cases hc : c = 0
  · rw [if_pos hc, if_pos hc]
    refine Triple.pure (entails_ex_r c (entails_ex_r [] (entails_pand_r ?_ (by simp [hc]))))
    rw [if_pos hc]
    refine entails_trans ?_ (sep_mono (entails_refl _) (sep_mono (entails_trans (sep_mono (entails_refl _) (sep_mono (StrAt_OStr (p := s) (a := some host)) (entails_refl _))) (Hd_intro (hn := hn) (vec := vec))) (entails_refl _)))
    rw [StrAt]; simp only [sep_assoc]
    sep_cancel
  · rw [if_neg hc, if_neg hc]
    step (loadPtr_spec (p := h) (q := vec) (b := [.ptr hn, intV 1, .ptr c, .ptr vec]) rfl)
    rw [OptsR_eq]; hoist; intro st ps hnd
    step (VECTOR_size_opts (vec := vec))
    step (applyLoop_spec H (vec := vec) (hn := hn) (st := st) (ps := ps) (c := c) (opts := opts) ps.length 0 _ (by omega)) into r
    intro opt happ
    rw [List.drop_zero] at happ
    refine Triple.pure (entails_ex_r c (entails_ex_r opt (entails_pand_r ?_ (by simp [hc, happ]))))
    rw [if_neg hc]
    refine entails_trans ?_ (sep_mono (entails_refl _) (sep_mono (entails_trans (sep_mono (entails_refl _) (sep_mono (StrAt_OStr (p := s) (a := some host)) (entails_refl _))) (Hd_fields (hn := hn) (vec := vec) (st := st) (ps := ps) hnd)) (entails_refl _)))
    rw [StrAt, List.append_assoc]; simp only [sep_assoc, List.cons_append, List.nil_append]
    sep_cancel

theorem init_step (H : Honours rel api Net Sess Conn) {u : Used} {t : Nat} {tr : List Ev} :
    Triple rel (Net tr) (attempt api h t u 0)
      (fun b => ∃∃ r : Res, (b = decide (r = .ok)) ⋏ Net (tr ++ [.init r]) ∗ if r = .ok then Sess else emp) := by
  unfold attempt
  rw [if_pos rfl]
  step (H.init tr) into r
  exact Triple.pure (entails_ex_r r (entails_pand_r (entails_refl _) rfl))

/-! ## one round of the loop -/

/-- what follows an attempt -/
def after (api : Http) (h : Ptr) (t : Nat) (u : Used) (st : List Bool) (k : Int) (goOn : Bool) : M Result := do
  if goOn = true then do
    let k ← loadI h fK
    if k = 2 then pure .ok
    else do
      store h fK (intV (k + 1))
      let st := (st.set k.toNat true).set (k + 1).toNat false
      let k ← loadI h fK
      if k ≥ 0 then loop api h t u st else pure .recoveryFailed
  else do
    let st := st.set k.toNat false
    store h fK (intV (k - 1))
    let k ← loadI h fK
    if k = 0 then api.deinit
    else if k = 1 then do
      let c ← loadPtr h fHttp
      api.closeConnection c
      store h fHttp (.ptr 0)
    else pure ()
    let k ← loadI h fK
    if k ≥ 0 then loop api h t u st else pure .recoveryFailed

theorem loop_eq {t : Nat} {u : Used} {st : List Bool} : loop api h t u st = (do
    let k ← loadI h fK
    if k > 2 then pure .recoveryFailed
    else if k < 0 then ub "index out of bounds"
    else do
    let goOn ← if st[k.toNat]? = some true then pure false else attempt api h t u k
    after api h t u st k goOn) := by
  rw [loop]; rfl

variable {u : Used} {t : Nat} {st : List Bool} {P R : HProp} {Q : Result → HProp}

theorem loop_try {A : Bool → HProp} (h0 : 0 ≤ k) (h2 : k ≤ 2) (hst : st[k.toNat]? = some false)
    (ha : Triple rel (Hd h k http host opts ∗ P) (attempt api h t u k) A)
    (hb : ∀ b, Triple rel (A b) (after api h t u st k b) Q) : Triple rel (Hd h k http host opts ∗ P) (loop api h t u st) Q := by
  rw [loop_eq]
  step (Hd_k (h := h) (k := k) ⟨by omega, by omega⟩)
  rw [if_neg (by omega), if_neg (by omega), hst, if_neg (by simp)]
  exact Triple.bind' ha hb

theorem loop_skip (h0 : 0 ≤ k) (h2 : k ≤ 2) (hst : st[k.toNat]? = some true)
    (hb : Triple rel (Hd h k http host opts ∗ P) (after api h t u st k false) Q) : Triple rel (Hd h k http host opts ∗ P) (loop api h t u st) Q := by
  rw [loop_eq]
  step (Hd_k (h := h) (k := k) ⟨by omega, by omega⟩)
  rw [if_neg (by omega), if_neg (by omega), hst, if_pos rfl]
  exact Triple.bind_pure hb

theorem after_go (h0 : 0 ≤ k) (h2 : k < 2)
    (hb : Triple rel (Hd h (k + 1) http host opts ∗ P) (loop api h t u ((st.set k.toNat true).set (k + 1).toNat false)) Q) :
    Triple rel (Hd h k http host opts ∗ P) (after api h t u st k true) Q := by
  unfold after
  rw [if_pos rfl]
  step (Hd_k (h := h) (k := k) ⟨by omega, by omega⟩)
  rw [if_neg (by omega)]
  step (Hd_setK (h := h) (k' := k + 1))
  step (Hd_k (h := h) (k := k + 1) ⟨by omega, by omega⟩)
  rw [if_pos (by omega)]
  exact hb

theorem after_done (hQ : Hd h 2 http host opts ∗ P ⊢ₕ Q .ok) : Triple rel (Hd h 2 http host opts ∗ P) (after api h t u st 2 true) Q := by
  unfold after
  rw [if_pos rfl]
  step (Hd_k (h := h) (k := 2) ⟨by omega, by omega⟩)
  rw [if_pos rfl]
  exact Triple.pure hQ

theorem after_back2 (H : Honours rel api Net Sess Conn) {tr : List Ev} {c : Nat}
    (hb : Triple rel (Hd h 1 0 host opts ∗ Net (tr ++ [.close c]) ∗ Sess ∗ P) (loop api h t u (st.set 2 false)) Q) :
    Triple rel (Hd h 2 c host opts ∗ Net tr ∗ Sess ∗ Conn c ∗ P) (after api h t u st 2 false) Q := by
  unfold after
  rw [if_neg (by simp)]
  dsimp only
  step (Hd_setK (h := h) (k' := 2 - 1))
  step (Hd_k (h := h) (k := 2 - 1) ⟨by omega, by omega⟩)
  rw [if_neg (by decide), if_pos (by decide)]
  step (Hd_http (h := h))
  step (H.close c tr)
  step (Hd_setHttp (h := h) (http' := 0))
  step (Hd_k (h := h) (k := 2 - 1) ⟨by omega, by omega⟩)
  rw [if_pos (by omega)]
  exact hb.pre (by sep_cancel)

theorem after_back1 (H : Honours rel api Net Sess Conn) {tr : List Ev}
    (hb : Triple rel (Hd h 0 http host opts ∗ Net (tr ++ [.deinit]) ∗ P) (loop api h t u (st.set 1 false)) Q) :
    Triple rel (Hd h 1 http host opts ∗ Net tr ∗ Sess ∗ P) (after api h t u st 1 false) Q := by
  unfold after
  rw [if_neg (by simp)]
  dsimp only
  step (Hd_setK (h := h) (k' := 1 - 1))
  step (Hd_k (h := h) (k := 1 - 1) ⟨by omega, by omega⟩)
  rw [if_pos (by decide)]
  step (H.deinit tr)
  step (Hd_k (h := h) (k := 1 - 1) ⟨by omega, by omega⟩)
  rw [if_pos (by omega)]
  exact hb.pre (by sep_cancel)

theorem after_back0 (hQ : Hd h (-1) http host opts ∗ P ⊢ₕ Q .recoveryFailed) :
    Triple rel (Hd h 0 http host opts ∗ P) (after api h t u st 0 false) Q := by
  unfold after
  rw [if_neg (by simp)]
  dsimp only
  step (Hd_setK (h := h) (k' := 0 - 1))
  step (Hd_k (h := h) (k := 0 - 1) ⟨by omega, by omega⟩)
  rw [if_neg (by decide), if_neg (by decide)]
  step (Hd_k (h := h) (k := 0 - 1) ⟨by omega, by omega⟩)
  rw [if_neg (by omega)]
  exact Triple.pure hQ

end Verif.Ex
