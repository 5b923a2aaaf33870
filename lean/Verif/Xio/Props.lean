import Verif.Xio.Spec
import Verif.Tac
/-! # C46: xio forwards faithfully to the concrete IO -/
namespace Verif.Xio
variable {rel : Prop} {ro : Nat → Option Iface} {code : Code} {Net : List Ev → HProp} {Tok : Iface → Nat → HProp}

/-- An xio instance in memory. -/
def XioR (ro : Nat → Option Iface) (Tok : Iface → Nat → HProp) (p : Ptr) (o : Obj) : HProp :=
  ∃∃ d : Nat, (ro d = some o.iface ∧ o.iface.complete) ⋏ p ↦ [.ptr d, .ptr o.con] ∗ Tok o.iface o.con

theorem deref_spec {d : Nat} {i : Iface} (h : ro d = some i) :
    Triple rel emp (deref ro d) (fun r => (r = i) ⋏ emp) := by
  unfold deref; rw [h]; exact Triple.ret

theorem xio_create_spec (H : Honours rel code Net Tok) (d prm lg : Nat) (hd : d = 0 ∨ ro d ≠ none) (tr : List Ev) :
    Triple rel (Net tr) (xio_create ro code d prm lg)
      (fun r => ∃∃ a' tr', (CreateE ro (¬ rel) d prm lg tr (if r = 0 then 0 else 1) a' tr') ⋏ ORep (XioR ro Tok) r a' ∗ Net tr') := by
  have fail : ∀ tr', CreateE ro (¬ rel) d prm lg tr 0 none tr' → Net tr' ⊢ₕ
      ∃∃ a' tr', (CreateE ro (¬ rel) d prm lg tr (if (0 : Nat) = 0 then 0 else 1) a' tr') ⋏ ORep (XioR ro Tok) 0 a' ∗ Net tr' := by
    intro tr' h
    refine entails_ex_r none (entails_ex_r tr' (entails_pand_r ?_ (by simpa using h)))
    rw [ORep_null, emp_sep]; exact entails_refl _
  unfold xio_create
  refine Triple.ite (fun h => Triple.pure (fail tr (Or.inl ⟨rfl, rfl, rfl, Or.inl h⟩))) fun h0 => ?_
  obtain ⟨i, hi⟩ := Option.ne_none_iff_exists'.1 (hd.resolve_left h0)
  step (deref_spec hi)
  refine Triple.ite (fun h => Triple.pure (fail tr (Or.inl ⟨rfl, rfl, rfl, Or.inr (Or.inl ⟨i, hi, ?_⟩)⟩))) fun h1 => ?_
  · rintro ⟨a, b, c, d, e, f, g⟩; simp_all
  have hc : i.complete := by
    simp only [not_or] at h1; exact h1
  refine Triple.mallocS (by decide) (fun hr => ?_) fun p hp => ?_
  · rw [if_pos rfl]
    exact Triple.pure (fail tr (Or.inl ⟨rfl, rfl, rfl, Or.inr (Or.inr hr)⟩))
  rw [if_neg hp]
  hoist
  stepd (store_spec ?_)
  stepd (loadPtr_spec (q := d) ?_)
  step (deref_spec hi)
  step (H.create i prm lg tr hc) into h
  stepd (store_spec ?_)
  stepd (loadPtr_spec (q := h) ?_)
  refine Triple.ite (fun h2 => ?_) fun h2 => ?_
  · subst h2
    rw [if_pos rfl]
    hoist
    step (free_spec)
    exact Triple.pure (fail _ (Or.inr ⟨i, 0, h0, hi, hc, rfl, Or.inl ⟨rfl, rfl, rfl⟩⟩))
  · rw [if_neg h2]
    refine Triple.pure (entails_ex_r (some ⟨i, h⟩) (entails_ex_r _ (entails_pand_r ?_
      (Or.inr ⟨i, h, h0, hi, hc, rfl, Or.inr ⟨h2, by simp [hp], rfl⟩⟩))))
    rw [ORep_some]
    unfold XioR
    simp only [hex_sep, pand_sep]
    refine entails_ex_r d (entails_pand_r ?_ ⟨hi, hc⟩)
    simp only [sep_assoc]
    sep_cancel

theorem xio_destroy_spec (H : Honours rel code Net Tok) (p : Ptr) (a : Option Obj) (tr : List Ev) :
    Triple rel (ORep (XioR ro Tok) p a ∗ Net tr) (xio_destroy ro code p)
      (fun _ => ∃∃ tr', (DestroyE a tr none tr') ⋏ Net tr') := by
  unfold xio_destroy
  cases a with
  | none =>
    rw [ORep_none]; hoist; intro h
    rw [if_pos h]
    exact Triple.pure (entails_ex_r tr (entails_pand_r (entails_refl _) ⟨rfl, by simp⟩))
  | some o =>
    rw [ORep_some]; unfold XioR; hoist; intro d hd hc
    refine Triple.know (know_pts (p := p) (φ := p ≠ 0) (by pick) fun h1 _ => h1) fun hp => ?_
    rw [if_neg hp]
    stepd (loadPtr_spec (q := d) ?_)
    step (deref_spec hd)
    stepd (loadPtr_spec (q := o.con) ?_)
    step (H.destroy o.iface o.con tr hc)
    last free_spec
    rw [emp_sep]
    exact entails_ex_r _ (entails_pand_r (entails_refl _) ⟨rfl, rfl⟩)

/-- all calls on a handle have this shape -/
theorem call_spec {p : Ptr} {a : Option Obj} {tr : List Ev} {c : M Int} {ev : Obj → Int → Ev} {bad : Int → Prop} {ok : Int → Int → Prop}
    (hn : p = 0 → ∃ r, c = pure r ∧ bad r)
    (hs : ∀ o d, p ≠ 0 → ro d = some o.iface → o.iface.complete →
      Triple rel (p ↦ [.ptr d, .ptr o.con] ∗ Net tr ∗ Tok o.iface o.con) c
        (fun r => ∃∃ v, (ok v r) ⋏ p ↦ [.ptr d, .ptr o.con] ∗ Net (tr ++ [ev o v]) ∗ Tok o.iface o.con)) :
    Triple rel (ORep (XioR ro Tok) p a ∗ Net tr) c
      (fun r => ∃∃ a' tr', (CallE ev bad ok a tr r a' tr') ⋏ ORep (XioR ro Tok) p a' ∗ Net tr') := by
  cases a with
  | none =>
    rw [ORep_none]; hoist; intro h
    obtain ⟨r, rfl, hr⟩ := hn h
    refine Triple.pure (entails_ex_r none (entails_ex_r tr (entails_pand_r ?_ ⟨hr, rfl, rfl⟩)))
    subst h
    rw [ORep_null, emp_sep]; exact entails_refl _
  | some o =>
    rw [ORep_some]; unfold XioR; hoist; intro d hd hc
    refine Triple.know (know_pts (p := p) (φ := p ≠ 0) (by pick) fun h1 _ => h1) fun hp => ?_
    have hs := hs o d hp hd hc
    refine (hs.pre ?_).conseq (entails_refl _) fun r => entails_ex_l fun v => entails_pand_l fun hv => ?_
    · sep_cancel
    refine entails_ex_r (some o) (entails_ex_r _ (entails_pand_r ?_ ⟨v, hv, rfl, rfl⟩))
    rw [ORep_some]
    simp only [hex_sep, pand_sep]
    refine entails_ex_r d (entails_pand_r ?_ ⟨hd, hc⟩)
    simp only [sep_assoc]
    sep_cancel

theorem xio_open_spec (H : Honours rel code Net Tok) (p : Ptr) (x : Option Obj) (tr : List Ev) (a b c d e f : Nat) :
    Triple rel (ORep (XioR ro Tok) p x ∗ Net tr) (xio_open ro code p a b c d e f)
      (fun r => ∃∃ x' tr', (CallE (fun o v => .opn o.iface.concrete_io_open o.con a b c d e f v) (· ≠ 0) sameSuccess x tr r x' tr') ⋏
        ORep (XioR ro Tok) p x' ∗ Net tr') := by
  refine call_spec (fun h => ⟨80, by unfold xio_open; rw [if_pos h], by decide⟩) fun o dd hp hd hc => ?_
  unfold xio_open
  rw [if_neg hp]
  stepd (loadPtr_spec (q := dd) ?_)
  step (deref_spec hd)
  stepd (loadPtr_spec (q := o.con) ?_)
  step (H.opn o.iface o.con a b c d e f tr hc) into v
  refine Triple.ite (fun hv => Triple.pure ?_) fun hv => Triple.pure ?_
  · refine entails_ex_r v (entails_pand_r (by sep_cancel) (by simp [sameSuccess, hv]))
  · refine entails_ex_r v (entails_pand_r (by sep_cancel) (by simpa [sameSuccess] using hv))

theorem xio_close_spec (H : Honours rel code Net Tok) (p : Ptr) (x : Option Obj) (tr : List Ev) (a b : Nat) :
    Triple rel (ORep (XioR ro Tok) p x ∗ Net tr) (xio_close ro code p a b)
      (fun r => ∃∃ x' tr', (CallE (fun o v => .close o.iface.concrete_io_close o.con a b v) (· ≠ 0) sameSuccess x tr r x' tr') ⋏
        ORep (XioR ro Tok) p x' ∗ Net tr') := by
  refine call_spec (fun h => ⟨109, by unfold xio_close; rw [if_pos h], by decide⟩) fun o dd hp hd hc => ?_
  unfold xio_close
  rw [if_neg hp]
  stepd (loadPtr_spec (q := dd) ?_)
  step (deref_spec hd)
  stepd (loadPtr_spec (q := o.con) ?_)
  step (H.close o.iface o.con a b tr hc) into v
  refine Triple.ite (fun hv => Triple.pure ?_) fun hv => Triple.pure ?_
  · refine entails_ex_r v (entails_pand_r (by sep_cancel) (by simp [sameSuccess, hv]))
  · refine entails_ex_r v (entails_pand_r (by sep_cancel) (by simpa [sameSuccess] using hv))

theorem xio_send_spec (H : Honours rel code Net Tok) (p : Ptr) (x : Option Obj) (tr : List Ev) (a b c d : Nat) :
    Triple rel (ORep (XioR ro Tok) p x ∗ Net tr) (xio_send ro code p a b c d)
      (fun r => ∃∃ x' tr', (CallE (fun o v => .send o.iface.concrete_io_send o.con a b c d v) (· ≠ 0) (fun v r => r = v) x tr r x' tr') ⋏
        ORep (XioR ro Tok) p x' ∗ Net tr') := by
  refine call_spec (fun h => ⟨139, by unfold xio_send; rw [if_pos h], by decide⟩) fun o dd hp hd hc => ?_
  unfold xio_send
  rw [if_neg hp]
  stepd (loadPtr_spec (q := dd) ?_)
  step (deref_spec hd)
  stepd (loadPtr_spec (q := o.con) ?_)
  last (H.send o.iface o.con a b c d tr hc)
  rename_i v
  exact entails_ex_r v (entails_pand_r (by simp only [sep_assoc]; sep_cancel) rfl)

theorem xio_setoption_spec (H : Honours rel code Net Tok) (p : Ptr) (x : Option Obj) (tr : List Ev) (a b : Nat) :
    Triple rel (ORep (XioR ro Tok) p x ∗ Net tr) (xio_setoption ro code p a b)
      (fun r => ∃∃ x' tr', (if a = 0 then r ≠ 0 ∧ x' = x ∧ tr' = tr
          else CallE (fun o v => .setoption o.iface.concrete_io_setoption o.con a b v) (· ≠ 0) (fun v r => r = v) x tr r x' tr') ⋏
        ORep (XioR ro Tok) p x' ∗ Net tr') := by
  by_cases ha : a = 0
  · unfold xio_setoption
    rw [if_pos (Or.inr ha)]
    exact Triple.pure (entails_ex_r x (entails_ex_r tr (entails_pand_r (entails_refl _) (by simp [ha]))))
  · simp only [if_neg ha]
    refine call_spec (fun h => ⟨174, by unfold xio_setoption; rw [if_pos (Or.inl h)], by decide⟩) fun o dd hp hd hc => ?_
    unfold xio_setoption
    rw [if_neg (by simp [hp, ha])]
    stepd (loadPtr_spec (q := dd) ?_)
    step (deref_spec hd)
    stepd (loadPtr_spec (q := o.con) ?_)
    last (H.setoption o.iface o.con a b tr hc)
    rename_i v
    exact entails_ex_r v (entails_pand_r (by simp only [sep_assoc]; sep_cancel) rfl)

theorem xio_dowork_spec (H : Honours rel code Net Tok) (p : Ptr) (x : Option Obj) (tr : List Ev) :
    Triple rel (ORep (XioR ro Tok) p x ∗ Net tr) (do xio_dowork ro code p; pure (0 : Int))
      (fun r => ∃∃ x' tr', (CallE (fun o _ => .dowork o.iface.concrete_io_dowork o.con) (fun _ => True) (fun _ _ => True) x tr r x' tr') ⋏
        ORep (XioR ro Tok) p x' ∗ Net tr') := by
  refine call_spec (fun h => ⟨0, by unfold xio_dowork; rw [if_pos h]; rfl, trivial⟩) fun o dd hp hd hc => ?_
  unfold xio_dowork
  rw [if_neg hp]
  simp only [bind_assoc]
  stepd (loadPtr_spec (q := dd) ?_)
  step (deref_spec hd)
  stepd (loadPtr_spec (q := o.con) ?_)
  step (H.dowork o.iface o.con tr hc)
  exact Triple.pure (entails_ex_r (0 : Int) (entails_pand_r (by sep_cancel) trivial))

/-! ## Histories -/

/-- the client: a table of handles -/
def exec (ro : Nat → Option Iface) (code : Code) (op : Op) (env : List Nat) : M (Option Int × List Nat) :=
  match op with
  | .create d prm lg => do let h ← xio_create ro code d prm lg; pure (some (if h = 0 then 0 else 1), env ++ [h])
  | .destroy i => on1 env i fun h => do xio_destroy ro code h; pure (some 0, env.set i 0)
  | .opn i a b c d e f => on1 env i fun h => do let r ← xio_open ro code h a b c d e f; pure (some r, env)
  | .close i a b => on1 env i fun h => do let r ← xio_close ro code h a b; pure (some r, env)
  | .send i a b c d => on1 env i fun h => do let r ← xio_send ro code h a b c d; pure (some r, env)
  | .dowork i => on1 env i fun h => do let r ← (do xio_dowork ro code h; pure (0 : Int)); pure (some r, env)
  | .setoption i a b => on1 env i fun h => do let r ← xio_setoption ro code h a b; pure (some r, env)

/-- descriptions passed to `xio_create` exist (or are `NULL`) -/
def good (ro : Nat → Option Iface) : Op → Prop
  | .create d _ _ => d = 0 ∨ ro d ≠ none
  | _ => True

theorem exec_spec (H : Honours rel code Net Tok) (op : Op) (hop : good ro op) (env : List Nat) (x : List (Option Obj) × List Ev) :
    Triple rel (OwnW (ORep (XioR ro Tok)) Net env x) (exec ro code op env)
      (fun r => ∃∃ x', (step ro (¬ rel) x op r.1 x') ⋏ OwnW (ORep (XioR ro Tok)) Net r.2 x') := by
  cases op with
  | create d prm lg => exact liftW_new (f := fun h => if h = 0 then 0 else 1) (xio_create_spec H d prm lg hop)
  | destroy i => exact liftW_del (E := fun a tr _ a' tr' => DestroyE a tr a' tr') (xio_destroy_spec H)
  | opn i a b c d e f => exact liftW_op1 (f := id) fun h x tr => xio_open_spec H h x tr a b c d e f
  | close i a b => exact liftW_op1 (f := id) fun h x tr => xio_close_spec H h x tr a b
  | send i a b c d => exact liftW_op1 (f := id) fun h x tr => xio_send_spec H h x tr a b c d
  | dowork i => exact liftW_op1 (f := id) fun h x tr => xio_dowork_spec H h x tr
  | setoption i a b => exact liftW_op1 (f := id) (E := fun ob tr r ob' tr' =>
      if a = 0 then r ≠ 0 ∧ ob' = ob ∧ tr' = tr
      else CallE (fun o v => .setoption o.iface.concrete_io_setoption o.con a b v) (· ≠ 0) (fun v r => r = v) ob tr r ob' tr') fun h x tr => xio_setoption_spec H h x tr a b

/-- C46, for every history of calls on any number of handles over any set of IO implementations: the calls the
implementations receive are exactly those the specification gives for the history, and every xio result is the
one it gives. -/
theorem forwards (H : Honours rel code Net Tok) (ops : List Op) (hops : ∀ op ∈ ops, good ro op) (env : List Nat)
    (x : List (Option Obj) × List Ev) :
    Triple rel (OwnW (ORep (XioR ro Tok)) Net env x) (runOps (exec ro code) ops env)
      (fun r => ∃∃ x', (Runs (step ro (¬ rel)) x ops r.1 x') ⋏ OwnW (ORep (XioR ro Tok)) Net r.2 x') :=
  runOps_spec (fun op hop env x => exec_spec H op hop env x) ops hops env x

/-- From a state in which only the implementations own memory: the history runs to its end without undefined
behaviour, and the calls received are those of the specification. -/
theorem forwards_run (H : Honours False code Net Tok) (ops : List Op) (hops : ∀ op ∈ ops, good ro op) (s : St)
    (hf : s.heap.fin) (h0 : Net [] s.heap) :
    ∃ outs env as tr s', runOps (exec ro code) ops [] s = some (.ok ((outs, env), s')) ∧
      Runs (step ro True) ([], []) ops outs (as, tr) ∧ (Own (ORep (XioR ro Tok)) env as ∗ Net tr) s'.heap := by
  have t := forwards (ro := ro) H ops hops [] ([], [])
  have t : Triple False (Net []) _ _ := t.pre (entails_of_eq (by rw [OwnW, Own_nil, emp_sep]))
  obtain ⟨r, s', h1, ⟨x', hx, hh⟩⟩ := t.run s hf (fun h => h.elim) h0
  refine ⟨r.1, r.2, x'.1, x'.2, s', h1, ?_, hh⟩
  simpa using hx

end Verif.Xio
