import Verif.Plat.Spec
/-! # Theorems about `platform_init` and `platform_deinit` -/
namespace Verif.Plat
variable {rel : Prop} {lib : Lib} {Net : List Ev → HProp}

/-- a platform does what `D` says -/
structure Meets (rel : Prop) (Net : List Ev → HProp) (p : Platform) (D : Does) : Prop where
  init : ∀ tr, Triple rel (Net tr) p.init (fun r => ∃∃ evs, (D.init r evs) ⋏ Net (tr ++ evs))
  deinit : ∀ tr, Triple rel (Net tr) p.deinit (fun _ => ∃∃ evs, (D.deinit evs) ⋏ Net (tr ++ evs))

/-- C116: `platform_win32.c` -/
theorem win32_meets (H : Honours rel lib Net) : Meets rel Net (win32 lib) win32D where
  init tr := by
    unfold win32
    step (H.startup tr) into r
    refine Triple.ite (fun h => ?_) fun h => ?_
    · exact Triple.pure (entails_ex_r [.startup r] (entails_pand_r (entails_refl _) ⟨r, rfl, by rw [if_neg h]⟩))
    · exact Triple.pure (entails_ex_r [.startup r] (entails_pand_r (entails_refl _) ⟨r, rfl, by rw [if_pos (by simpa using h)]⟩))
  deinit tr := (H.cleanup tr).conseq (entails_refl _) fun _ => entails_ex_r [.cleanup] (entails_pand_r (entails_refl _) rfl)

/-- C116: `platform_mbed.cpp` -/
theorem mbed_meets (H : Honours rel lib Net) : Meets rel Net (mbed lib) mbedD where
  init tr := by
    unfold mbed setupRealTime
    have app : ∀ a b : List Ev, tr ++ a ++ b = tr ++ (a ++ b) := fun a b => List.append_assoc ..
    step (H.ethInit tr) into r
    refine Triple.ite (fun h => ?_) fun h => ?_
    · exact Triple.pure (entails_ex_r _ (entails_pand_r (entails_refl _) (.noDevice h)))
    obtain rfl : r = 0 := by simpa using h
    simp only [bind_assoc]
    step (H.connect (tr ++ [.ethInit 0])) into r
    by_cases h : r = 0
    · subst h
      simp only [ne_eq, not_true_eq_false, if_false, bind_assoc]
      step (H.setTime (tr ++ [.ethInit 0] ++ [.connect 0])) into r
      step (H.disconnect (tr ++ [.ethInit 0] ++ [.connect 0] ++ [.setTime r]))
      simp only [pure_bind]
      by_cases h : r = 0
      · subst h
        simp only [not_true_eq_false, if_false]
        step (H.connect (tr ++ [.ethInit 0] ++ [.connect 0] ++ [.setTime 0] ++ [.disconnect])) into r
        refine Triple.ite (fun h => ?_) fun h => ?_
        · exact Triple.pure (entails_ex_r [.ethInit 0, .connect 0, .setTime 0, .disconnect, .connect r] (entails_pand_r (by simp only [app]; exact entails_refl _) (.noNetwork2 h)))
        · obtain rfl : r = 0 := by simpa using h
          exact Triple.pure (entails_ex_r [.ethInit 0, .connect 0, .setTime 0, .disconnect, .connect 0] (entails_pand_r (by simp only [app]; exact entails_refl _) .done))
      · rw [if_pos h, if_pos (by decide)]
        exact Triple.pure (entails_ex_r [.ethInit 0, .connect 0, .setTime r, .disconnect] (entails_pand_r (by simp only [app]; exact entails_refl _) (.noTime h)))
    · simp only [ne_eq, h, not_false_eq_true, if_true, pure_bind]
      rw [if_pos (by decide)]
      exact Triple.pure (entails_ex_r [.ethInit 0, .connect r] (entails_pand_r (by simp only [app]; exact entails_refl _) (.noNetwork h)))
  deinit tr := (H.disconnect tr).conseq (entails_refl _) fun _ => entails_ex_r [.disconnect] (entails_pand_r (entails_refl _) rfl)

/-- C116: `platform_linux.c` -/
theorem linux_meets (H : Honours rel lib Net) : Meets rel Net (linux lib) linuxD where
  init tr := by
    unfold linux
    step (H.ssl tr)
    exact Triple.pure (entails_ex_r [.ssl] (entails_pand_r (entails_refl _) ⟨rfl, rfl⟩))
  deinit tr := Triple.pure (entails_ex_r [] (entails_pand_r (by rw [List.append_nil]; exact entails_refl _) rfl))

/-- C116: `platform_stub.c` -/
theorem stub_meets : Meets rel Net stub stubD where
  init tr := Triple.pure (entails_ex_r [] (entails_pand_r (by rw [List.append_nil]; exact entails_refl _) ⟨rfl, rfl⟩))
  deinit tr := Triple.pure (entails_ex_r [] (entails_pand_r (by rw [List.append_nil]; exact entails_refl _) rfl))

/-- one call -/
def exec (p : Platform) (op : Op) (e : Unit) : M (Option Int × Unit) :=
  match op with
  | .init => do let r ← p.init; pure (some r, e)
  | .deinit => do p.deinit; pure (none, e)

/-- C116: every history -/
theorem histories {p : Platform} {D : Does} (H : Meets rel Net p D) (ops : List Op) (tr : List Ev) :
    Triple rel (Net tr) (runOps (exec p) ops ()) (fun r => ∃∃ tr', (Runs (step D) tr ops r.1 tr') ⋏ Net tr') := by
  refine runOps_spec (Inv := fun _ tr => Net tr) (good := fun _ => True) (fun op _ e tr => ?_) ops (by simp) () tr
  cases op with
  | init =>
    unfold exec
    refine Triple.bind' (H.init tr) fun r => ?_
    hoist; intro evs h
    exact Triple.pure (entails_ex_r _ (entails_pand_r (entails_refl _) ⟨evs, rfl, r, rfl, h⟩))
  | deinit =>
    unfold exec
    refine Triple.bind' (H.deinit tr) fun r => ?_
    hoist; intro evs h
    exact Triple.pure (entails_ex_r _ (entails_pand_r (entails_refl _) ⟨evs, rfl, rfl, h⟩))

/-! ## Windows: Winsock -/

theorem winsock_append : ∀ {a b : List Ev}, winsock (a ++ b) = winsock a + winsock b
  | [], b => by simp [winsock]
  | e :: a, b => by
    have ih := winsock_append (a := a) (b := b)
    cases e <;> simp only [List.cons_append, winsock, ih] <;> omega

/-- C116: On Windows, Winsock is started exactly as often as there are users of the platform, however they are nested: it is usable as long as there is one, and a call that failed holds nothing. -/
theorem winsock_counts {tr tr' : List Ev} {ops : List Op} {outs : List (Option Int)} (h : Runs (step win32D) tr ops outs tr') : winsock tr' = winsock tr + users ops outs := by
  induction h with
  | nil => simp [users]
  | @cons x op o x1 ops outs x2 h1 _ ih =>
    obtain ⟨evs, rfl, h1⟩ := h1
    rw [ih, winsock_append]
    cases op with
    | init =>
      obtain ⟨r, rfl, e, rfl, rfl⟩ := h1
      simp only [users, winsock]
      by_cases h : e = 0 <;> simp [h] <;> omega
    | deinit =>
      obtain ⟨rfl, rfl⟩ := h1
      simp only [users, winsock]
      omega

/-! ## mbed: the network -/

theorem link_append : ∀ {a b : List Ev} {up : Bool}, link up (a ++ b) = link (link up a) b
  | [], b, up => rfl
  | e :: a, b, up => by
    cases e <;> simp only [List.cons_append, link] <;> exact link_append

/-- C116: On mbed, `platform_init` that returns 0 has set the clock, after it was connected, and left the network connected.  Otherwise what it connected it disconnected again: the network is connected only if it was before. -/
theorem mbed_init_result {r : Int} {evs : List Ev} (h : mbedD.init r evs) : (r = 0 → .setTime 0 ∈ evs ∧ ∀ up, link up evs = true) ∧
    (r ≠ 0 → ∀ up, link up evs = true → up = true) := by
  cases h <;> simp_all [link]

/-- C116: On mbed, if the platform is not initialised twice, the network is connected exactly while it is initialised. -/
theorem mbed_link_partial {tr tr' : List Ev} {ops : List Op} {outs : List (Option Int)} (h : Runs (step mbedD) tr ops outs tr') {on : Bool} (hA : Alternate on ops outs) (hl : link false tr = on) :
    link false tr' = decide (0 < (if on then 1 else 0) + users ops outs) := by
  induction h generalizing on with
  | nil => cases on <;> simp [users, hl]
  | @cons x op o x1 ops outs x2 h1 _ ih =>
    obtain ⟨evs, rfl, h1⟩ := h1
    cases op with
    | init =>
      obtain ⟨r, rfl, h1⟩ := h1
      obtain ⟨rfl, hA⟩ := hA
      rw [ih hA]
      · by_cases h : r = 0 <;> simp [users, h]
      · rw [link_append, hl]
        cases h1 <;> simp_all [link]
    | deinit =>
      obtain ⟨rfl, rfl⟩ := h1
      obtain ⟨rfl, hA⟩ := hA
      rw [ih hA (by rw [link_append, hl]; rfl)]
      simp [users]
      omega

/-! ## Runs -/

/-- a system where each call gives 0 -/
def works : Lib where
  startup := pure 0
  cleanup := pure ()
  ethInit := pure 0
  connect := pure 0
  disconnect := pure ()
  setTime := pure 0
  ssl := pure ()

theorem works_honours : Honours rel works (fun _ => emp) :=
  ⟨fun _ => Triple.pure (entails_refl _), fun _ => Triple.pure (entails_refl _), fun _ => Triple.pure (entails_refl _), fun _ => Triple.pure (entails_refl _), fun _ => Triple.pure (entails_refl _),
    fun _ => Triple.pure (entails_refl _), fun _ => Triple.pure (entails_refl _)⟩

/-- C116: On mbed, the network is shared but its users are not counted: two users initialise the platform, successfully; when the first deinitialises it, the second is without network. -/
theorem shared_link {s : St} : ∃ s', runOps (exec (mbed works)) [.init, .init, .deinit] () s = some (.ok (([some 0, some 0, none], ()), s')) ∧
    ∃ tr, Runs (step mbedD) [] [.init, .init, .deinit] [some 0, some 0, none] tr ∧ link false tr = false ∧ users [.init, .init, .deinit] [some 0, some 0, none] = 1 :=
  ⟨s, rfl, _, .cons ⟨_, rfl, 0, rfl, .done⟩ (.cons ⟨_, rfl, 0, rfl, .done⟩ (.cons ⟨_, rfl, rfl, rfl⟩ (.nil _))), rfl, rfl⟩

/-- C116: the hypotheses of `winsock_counts` are met by a run of the code -/
theorem nested_winsock {s : St} : ∃ s', runOps (exec (win32 works)) [.init, .init, .deinit] () s = some (.ok (([some 0, some 0, none], ()), s')) ∧
    ∃ tr, Runs (step win32D) [] [.init, .init, .deinit] [some 0, some 0, none] tr ∧ winsock tr = 1 :=
  ⟨s, rfl, _, .cons ⟨_, rfl, 0, rfl, 0, rfl, rfl⟩ (.cons ⟨_, rfl, 0, rfl, 0, rfl, rfl⟩ (.cons ⟨_, rfl, rfl, rfl⟩ (.nil _))), rfl⟩

/-- C116: the hypotheses of `mbed_link_partial` are met -/
theorem alternate_demo : Alternate false [.init, .deinit, .init] [some 0, none, some 53] ∧
    ∃ tr, Runs (step mbedD) [] [.init, .deinit, .init] [some 0, none, some 53] tr ∧ link false tr = false :=
  ⟨by simp [Alternate], _, .cons ⟨_, rfl, 0, rfl, .done⟩ (.cons ⟨_, rfl, rfl, rfl⟩ (.cons ⟨_, rfl, 53, rfl, .noNetwork2 (e := 1) (by decide)⟩ (.nil _))), rfl⟩

end Verif.Plat
