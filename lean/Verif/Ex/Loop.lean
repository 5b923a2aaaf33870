import Verif.Ex.Exec
/-! # C40–C42: the loop from every state it can be in -/
set_option linter.unusedSimpArgs false
set_option linter.unusedVariables false
namespace Verif.Ex
open Verif.Sock
variable {rel : Prop} {api : Http} {Net : List Ev → HProp} {Sess : HProp} {Conn : Nat → HProp} {h : Ptr} {u : Used} {q : Req} {o : Obj}

/-- the end of the loop: the calls after `tr`, success, the connection, the response objects -/
def Fin (Net : List Ev → HProp) (Sess : HProp) (Conn : Nat → HProp) (h : Ptr) (u : Used) (q : Req) (o : Obj) (tr : List Ev)
    (φ : List Ev → Bool → Option Nat → Resp → Prop) (r : Result) : HProp :=
  ∃∃ (evs : List Ev) (ok : Bool) (c' : Option Nat) (g' : Resp), (φ evs ok c' g' ∧ r = if ok then .ok else .recoveryFailed) ⋏
    Net (tr ++ evs) ∗ Hd h (kOf c') (c'.getD 0) o.host o.opts ∗ ConnR Sess Conn c' ∗ In u q g'

theorem Fin_intro {tr evs : List Ev} {φ : List Ev → Bool → Option Nat → Resp → Prop} {ok : Bool} {c' : Option Nat} {g' : Resp} {r : Result}
    (h1 : φ evs ok c' g') (h2 : r = if ok then .ok else .recoveryFailed) :
    Net (tr ++ evs) ∗ Hd h (kOf c') (c'.getD 0) o.host o.opts ∗ ConnR Sess Conn c' ∗ In u q g' ⊢ₕ Fin Net Sess Conn h u q o tr φ r :=
  entails_ex_r evs (entails_ex_r ok (entails_ex_r c' (entails_ex_r g' (entails_pand_r (entails_refl _) ⟨h1, h2⟩))))

theorem Fin_mono {tr pre : List Ev} {φ ψ : List Ev → Bool → Option Nat → Resp → Prop} {r : Result}
    (hm : ∀ evs ok c' g', φ evs ok c' g' → ψ (pre ++ evs) ok c' g') :
    Fin Net Sess Conn h u q o (tr ++ pre) φ r ⊢ₕ Fin Net Sess Conn h u q o tr ψ r := by
  refine entails_ex_l fun evs => entails_ex_l fun ok => entails_ex_l fun c' => entails_ex_l fun g' => entails_pand_l fun hh => ?_
  rw [List.append_assoc]
  exact Fin_intro (hm _ _ _ _ hh.1) hh.2

/-- succeeding -/
theorem fin_ok {tr evs : List Ev} {φ : List Ev → Bool → Option Nat → Resp → Prop} {c : Nat} {g' : Resp} (h1 : φ evs true (some c) g') (hc : c ≠ 0) :
    Hd h 2 c o.host o.opts ∗ Net (tr ++ evs) ∗ Sess ∗ Conn c ∗ In u q g' ⊢ₕ Fin Net Sess Conn h u q o tr φ .ok := by
  refine entails_trans ?_ (Fin_intro h1 rfl)
  rw [ConnR_some]; simp only [pand_sep, sep_pand, kOf, Option.getD]
  refine entails_pand_r ?_ hc
  sep_cancel

/-- giving up -/
theorem fin_no {tr evs : List Ev} {φ : List Ev → Bool → Option Nat → Resp → Prop} {g' : Resp} (h1 : φ evs false none g') :
    Hd h (-1) 0 o.host o.opts ∗ Net (tr ++ evs) ∗ In u q g' ⊢ₕ Fin Net Sess Conn h u q o tr φ .recoveryFailed := by
  refine entails_trans ?_ (Fin_intro h1 rfl)
  rw [ConnR_none]; simp only [kOf, Option.getD]
  sep_cancel

/-- k = 0, `HTTPAPI_Init` was called in this round: give up -/
theorem loop_T0 {tr : List Ev} {g : Resp} : Triple rel (Hd h 0 0 o.host o.opts ∗ Net tr ∗ In u q g) (loop api h q.type u [true, false, false])
    (Fin Net Sess Conn h u q o tr fun evs ok c' g' => evs = [] ∧ ok = false ∧ c' = none ∧ g' = g) := by
  refine loop_skip (by decide) (by decide) rfl (after_back0 ?_)
  have := fin_no (Net := Net) (Sess := Sess) (Conn := Conn) (h := h) (u := u) (q := q) (o := o) (tr := tr) (evs := []) (g' := g)
    (φ := fun evs ok c' g' => evs = [] ∧ ok = false ∧ c' = none ∧ g' = g) ⟨rfl, rfl, rfl, rfl⟩
  rwa [List.append_nil] at this

/-- k = 1 after the connection of this round was closed -/
theorem loop_TT1 (H : Honours rel api Net Sess Conn) {tr : List Ev} {g : Resp} :
    Triple rel (Hd h 1 0 o.host o.opts ∗ Net tr ∗ Sess ∗ In u q g) (loop api h q.type u [true, true, false])
      (Fin Net Sess Conn h u q o tr fun evs ok c' g' => evs = [.deinit] ∧ ok = false ∧ c' = none ∧ g' = g) := by
  refine loop_skip (by decide) (by decide) rfl (after_back1 H ?_)
  refine (loop_T0 (Conn := Conn) (Sess := Sess)).conseq (entails_refl _) fun r => Fin_mono ?_
  rintro evs ok c' g' ⟨rfl, h2⟩
  exact ⟨rfl, h2⟩

/-- k = 2, everything was done in this round -/
theorem loop_TT2 (H : Honours rel api Net Sess Conn) {tr : List Ev} {g : Resp} {c : Nat} (hc : c ≠ 0) :
    Triple rel (Hd h 2 c o.host o.opts ∗ Net tr ∗ Sess ∗ Conn c ∗ In u q g) (loop api h q.type u [true, true, false])
      (Fin Net Sess Conn h u q o tr fun evs ok c' g' => (evs = [.execute c q g .ok g'] ∧ ok = true ∧ c' = some c) ∨
        (∃ r, r ≠ .ok ∧ evs = [.execute c q g r g', .close c, .deinit] ∧ ok = false ∧ c' = none)) := by
  refine loop_try (by decide) (by decide) rfl ((exec_step H).pre (by sep_cancel)) fun b => ?_
  hoist; intro r g' hb
  subst hb
  by_cases hr : r = .ok
  · subst hr
    refine (after_done (P := Net (tr ++ [.execute c q g .ok g']) ∗ Sess ∗ Conn c ∗ In u q g') ?_).pre (by sep_cancel)
    exact fin_ok (Or.inl ⟨rfl, rfl, rfl⟩) hc
  · rw [decide_eq_false hr]
    refine (after_back2 H (P := In u q g') (tr := tr ++ [.execute c q g r g']) ?_).pre (by sep_cancel)
    rw [List.append_assoc]
    refine (loop_TT1 H).conseq (entails_refl _) fun r' => Fin_mono ?_
    rintro evs ok c' g'' ⟨rfl, rfl, rfl, rfl⟩
    exact Or.inr ⟨r, hr, rfl, rfl, rfl⟩

/-- k = 1, `HTTPAPI_Init` was called in this round -/
theorem loop_T1 (H : Honours rel api Net Sess Conn) {tr : List Ev} {g : Resp} {c0 : Nat} :
    Triple rel (Hd h 1 c0 o.host o.opts ∗ Net tr ∗ Sess ∗ In u q g) (loop api h q.type u [true, false, false])
      (Fin Net Sess Conn h u q o tr fun evs ok c' g' => Fresh o q g (.init .ok :: evs) ok c' g') := by
  refine loop_try (by decide) (by decide) rfl (((create_step H (tr := tr)).frame (In u q g)).pre (by sep_cancel)) fun b => ?_
  hoist; intro c opt hb hopt
  subst hb
  by_cases hc : c = 0
  · subst hc
    rw [if_pos rfl] at hopt; subst hopt
    rw [if_pos rfl, decide_eq_false (by simp)]
    refine (after_back1 H (P := In u q g) (tr := tr ++ [.create o.host 0]) ?_).pre (by rw [emp_sep]; sep_cancel)
    rw [List.append_assoc]
    refine (loop_T0 (Conn := Conn) (Sess := Sess)).conseq (entails_refl _) fun r => Fin_mono ?_
    rintro evs ok c' g' ⟨rfl, rfl, rfl, rfl⟩
    exact Fresh.noConnection
  · rw [if_neg hc] at hopt
    rw [if_neg hc, decide_eq_true hc]
    refine (after_go (by decide) (by decide) (P := Net (tr ++ .create o.host c :: opt) ∗ Sess ∗ Conn c ∗ In u q g) ?_).pre (by sep_cancel)
    refine (loop_TT2 H hc).conseq (entails_refl _) fun r => Fin_mono ?_
    rintro evs ok c' g' (⟨rfl, rfl, rfl⟩ | ⟨r, hr, rfl, rfl, rfl⟩)
    · exact Fresh.done hc hopt
    · exact Fresh.failed hc hopt hr

/-- k = 0 at the beginning -/
theorem loop_F0 (H : Honours rel api Net Sess Conn) {tr : List Ev} {g : Resp} :
    Triple rel (Hd h 0 0 o.host o.opts ∗ Net tr ∗ In u q g) (loop api h q.type u [false, false, false])
      (Fin Net Sess Conn h u q o tr (Fresh o q g)) := by
  refine loop_try (by decide) (by decide) rfl (((init_step H (tr := tr)).frame (Hd h 0 0 o.host o.opts ∗ In u q g)).pre (by sep_cancel)) fun b => ?_
  hoist; intro r hb
  subst hb
  by_cases hr : r = .ok
  · subst hr
    rw [if_pos rfl, decide_eq_true rfl]
    refine (after_go (by decide) (by decide) (P := Net (tr ++ [.init .ok]) ∗ Sess ∗ In u q g) ?_).pre (by sep_cancel)
    refine (loop_T1 H).conseq (entails_refl _) fun r => Fin_mono ?_
    exact fun evs ok c' g' hf => hf
  · rw [if_neg hr, decide_eq_false hr]
    refine (after_back0 (P := Net (tr ++ [.init r]) ∗ In u q g) ?_).pre (by rw [emp_sep]; sep_cancel)
    exact fin_no (Fresh.noInit hr)

/-- k = 1, the second connection of the handle was closed -/
theorem loop_FT1 (H : Honours rel api Net Sess Conn) {tr : List Ev} {g : Resp} :
    Triple rel (Hd h 1 0 o.host o.opts ∗ Net tr ∗ Sess ∗ In u q g) (loop api h q.type u [false, true, false])
      (Fin Net Sess Conn h u q o tr fun evs ok c' g' => ∃ e, evs = .deinit :: e ∧ Fresh o q g e ok c' g') := by
  refine loop_skip (by decide) (by decide) rfl (after_back1 H ?_)
  refine (loop_F0 H).conseq (entails_refl _) fun r => Fin_mono ?_
  exact fun evs ok c' g' hf => ⟨evs, rfl, hf⟩

/-- k = 2 with the second connection -/
theorem loop_FT2 (H : Honours rel api Net Sess Conn) {tr : List Ev} {g : Resp} {c : Nat} (hc : c ≠ 0) :
    Triple rel (Hd h 2 c o.host o.opts ∗ Net tr ∗ Sess ∗ Conn c ∗ In u q g) (loop api h q.type u [false, true, false])
      (Fin Net Sess Conn h u q o tr fun evs ok c' g' => (evs = [.execute c q g .ok g'] ∧ ok = true ∧ c' = some c) ∨
        (∃ r g1 e, r ≠ .ok ∧ evs = [.execute c q g r g1, .close c, .deinit] ++ e ∧ Fresh o q g1 e ok c' g')) := by
  refine loop_try (by decide) (by decide) rfl ((exec_step H).pre (by sep_cancel)) fun b => ?_
  hoist; intro r g' hb
  subst hb
  by_cases hr : r = .ok
  · subst hr
    refine (after_done (P := Net (tr ++ [.execute c q g .ok g']) ∗ Sess ∗ Conn c ∗ In u q g') ?_).pre (by sep_cancel)
    exact fin_ok (Or.inl ⟨rfl, rfl, rfl⟩) hc
  · rw [decide_eq_false hr]
    refine (after_back2 H (P := In u q g') (tr := tr ++ [.execute c q g r g']) ?_).pre (by sep_cancel)
    rw [List.append_assoc]
    refine (loop_FT1 H).conseq (entails_refl _) fun r' => Fin_mono ?_
    rintro evs ok c' g'' ⟨e, rfl, hf⟩
    exact Or.inr ⟨r, g', e, hr, rfl, hf⟩

/-- k = 1, the connection of the handle was closed -/
theorem loop_F1 (H : Honours rel api Net Sess Conn) {tr : List Ev} {g : Resp} {c : Nat} {g0 : Resp} {r0 : Res} (hr0 : r0 ≠ .ok) :
    Triple rel (Hd h 1 0 o.host o.opts ∗ Net tr ∗ Sess ∗ In u q g) (loop api h q.type u [false, false, false])
      (Fin Net Sess Conn h u q o tr fun evs ok c' g' => Retry o q c g0 ([.execute c q g0 r0 g, .close c] ++ evs) ok c' g') := by
  refine loop_try (by decide) (by decide) rfl (((create_step H (tr := tr)).frame (In u q g)).pre (by sep_cancel)) fun b => ?_
  hoist; intro d opt hb hopt
  subst hb
  by_cases hd : d = 0
  · subst hd
    rw [if_pos rfl] at hopt; subst hopt
    rw [if_pos rfl, decide_eq_false (by simp)]
    refine (after_back1 H (P := In u q g) (tr := tr ++ [.create o.host 0]) ?_).pre (by rw [emp_sep]; sep_cancel)
    rw [List.append_assoc]
    refine (loop_F0 H).conseq (entails_refl _) fun r => Fin_mono ?_
    exact fun evs ok c' g' hf => Retry.noConnection hr0 hf
  · rw [if_neg hd] at hopt
    rw [if_neg hd, decide_eq_true hd]
    refine (after_go (by decide) (by decide) (P := Net (tr ++ .create o.host d :: opt) ∗ Sess ∗ Conn d ∗ In u q g) ?_).pre (by sep_cancel)
    refine (loop_FT2 H hd).conseq (entails_refl _) fun r => Fin_mono ?_
    rintro evs ok c' g' (⟨rfl, rfl, rfl⟩ | ⟨r, g1, e, hr, rfl, hf⟩)
    · exact Retry.again hr0 hd hopt
    · have := Retry.failed (c := c) (g := g0) (g1 := g) hr0 hd hopt hr hf
      simp only [List.append_assoc, List.cons_append, List.nil_append] at this ⊢
      exact this

/-- k = 2 at the beginning -/
theorem loop_F2 (H : Honours rel api Net Sess Conn) {tr : List Ev} {g : Resp} {c : Nat} (hc : c ≠ 0) :
    Triple rel (Hd h 2 c o.host o.opts ∗ Net tr ∗ Sess ∗ Conn c ∗ In u q g) (loop api h q.type u [false, false, false])
      (Fin Net Sess Conn h u q o tr (Retry o q c g)) := by
  refine loop_try (by decide) (by decide) rfl ((exec_step H).pre (by sep_cancel)) fun b => ?_
  hoist; intro r g' hb
  subst hb
  by_cases hr : r = .ok
  · subst hr
    refine (after_done (P := Net (tr ++ [.execute c q g .ok g']) ∗ Sess ∗ Conn c ∗ In u q g') ?_).pre (by sep_cancel)
    exact fin_ok Retry.done hc
  · rw [decide_eq_false hr]
    refine (after_back2 H (P := In u q g') (tr := tr ++ [.execute c q g r g']) ?_).pre (by sep_cancel)
    rw [List.append_assoc]
    exact (loop_F1 H hr).conseq (entails_refl _) fun r' => Fin_mono fun evs ok c' g'' hf => hf

/-- the loop as `HTTPAPIEX_ExecuteRequest` starts it -/
theorem loop_spec (H : Honours rel api Net Sess Conn) {tr : List Ev} {g : Resp} :
    Triple rel (Hd h (if kOf o.conn = -1 then 0 else kOf o.conn) (o.conn.getD 0) o.host o.opts ∗ ConnR Sess Conn o.conn ∗ Net tr ∗ In u q g)
      (loop api h q.type u [false, false, false]) (Fin Net Sess Conn h u q o tr (Attempts o q g)) := by
  unfold Attempts
  cases hc : o.conn with
  | none =>
    rw [ConnR_none, emp_sep, if_pos (show kOf none = -1 from rfl)]
    exact loop_F0 H
  | some c =>
    rw [ConnR_some]; hoist; intro h0
    rw [show kOf (some c) = 2 from rfl]
    rw [if_neg (show ¬ (2 : Int) = -1 by decide)]
    exact (loop_F2 H h0).pre (by simp only [kOf, Option.getD]; sep_cancel)

end Verif.Ex
