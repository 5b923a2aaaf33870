import Verif.Schan.Funcs

/-
`tlsio_schannel_create` and `_destroy`: what is made is released.
-/
namespace Verif.Schan
open Verif.Game

theorem isPtr_nat {n : Int} (h : isPtr n = true) : ∃ m : Nat, n = m := by
  simp only [isPtr, decide_eq_true_eq] at h
  exact ⟨n.toNat, by omega⟩

theorem one_zero (x : Res) (y : Nat → Res) : one x y 0 = 0 := by simp [one]

theorem not_works_create {s : S} {cfg : Option Config} {lg : Nat} :
    ¬ Works (s.add (.enter (.create cfg lg))) := by
  rintro ⟨c, hc, hw⟩
  have hc : some (Call.create cfg lg) = some c := hc
  injection hc with hc
  subst hc
  cases hw

theorem not_works_destroy {s : S} {h : Nat} : ¬ Works (s.add (.enter (.destroy h))) := by
  rintro ⟨c, hc, hw⟩
  have hc : some (Call.destroy h) = some c := hc
  injection hc with hc
  subst hc
  cases hw

section
variable {s s' : S} {p : Nat} {i : Inst} {l : List Event} {cfg : Option Config} {lg : Nat} {b : Bool}

theorem create_keep (hi : Inv s) (a : At (s.add (.enter (.create cfg lg))) p i l s')
    {h' : Nat} (hne : h' ≠ p) (hh : (s.heap h').isSome = true) :
    Keeps (view h' s.log) (view h' l) := by
  have := a.keep h' hne hh
  rw [show (s.add (.enter (.create cfg lg))).log = .enter (.create cfg lg) :: s.log from rfl,
    view_other] at this
  · exact this
  · show 0 ≠ h'
    obtain ⟨i, h2⟩ := Option.isSome_iff_exists.1 hh
    exact (hi.says h' i h2).1.symm

theorem create_ok (hinv : Inv s) (a : At (s.add (.enter (.create cfg lg))) p i l s')
    (hd : s.heap p = none)
    (hi : i = inst ((view p l).next (.leave (.create cfg lg) p)) [])
    (hna : p ∉ alives l)
    (hc : Reacts l (.leave (.create cfg lg) p) ∧ Leaves l (.create cfg lg) p) :
    Fin s (.create cfg lg) b p s' := by
  have hsub : subject (.leave (.create cfg lg) p) = p := by simp [subject, Call.handle]
  have hrun : running l = .create cfg lg :: running s.log := a.run
  have hrest : (frames l).tail = frames s.log := a.rest
  refine ⟨by rw [a.log]; exact ⟨by rw [hrun]; rfl, hc⟩, ⟨?_, ?_⟩, fun _ => ⟨?_, ?_, ?_, ?_⟩⟩
  · intro h' i' hh
    show Says h' (_ :: s'.log) i'
    rw [a.log]
    by_cases hne : h' = p
    · subst hne
      have hh' : s'.heap h' = some i' := hh
      rw [a.here] at hh'
      injection hh' with hh'
      exact says_of a.nz (view_same hsub) ⟨rfl, Nat.le_refl 0, (show 0 < 2 ^ 32 by decide), by simp [View.next],
        by simp [View.next], by simp [View.next], fun _ _ => rfl⟩ (hh' ▸ hi) rfl
    · exact (a.others h' i' hne hh).other (by rw [hsub]; exact fun e => hne e.symm)
  · intro h'
    show h' ∈ alives (.leave (.create cfg lg) p :: s'.log) ↔ (s'.heap h').isSome = true
    have hp0 : (p : Int) ≠ 0 := by have := a.nz; omega
    rw [a.log]
    simp only [alives, if_neg hp0, Int.toNat_natCast, List.mem_cons]
    by_cases hne : h' = p
    · subst hne
      rw [a.here]
      simp
    · simp only [hne, false_or]
      exact a.alv h' hne
  · show s.log <:+ _ :: s'.log
    rw [a.log]
    exact ((List.suffix_cons _ _).trans a.suf).trans (List.suffix_cons _ _)
  · show (frames s'.log).tail = _
    rw [a.log, hrest]
  · intro h' hh
    have hne : h' ≠ p := by
      rintro rfl
      rw [hd] at hh; cases hh
    exact a.rely h' hne hh
  · intro h' hh
    have hne : h' ≠ p := by
      rintro rfl
      rw [hd] at hh; cases hh
    show Keeps (view h' s.log) (view h' (_ :: s'.log))
    rw [a.log, view_other (by rw [hsub]; exact fun e => hne e.symm)]
    exact create_keep hinv a hne hh

theorem create_bad (hinv : Inv s) (a : At (s.add (.enter (.create cfg lg))) p i l s')
    (hd : s.heap p = none) (hna : p ∉ alives l)
    (hc : Reacts l (.leave (.create cfg lg) 0) ∧ Leaves l (.create cfg lg) 0) :
    Fin s (.create cfg lg) b 0 { s' with heap := s'.heap.set p none } := by
  have hsub : subject (.leave (.create cfg lg) 0) = 0 := rfl
  have hrun : running l = .create cfg lg :: running s.log := a.run
  have hrest : (frames l).tail = frames s.log := a.rest
  refine ⟨?_, ⟨?_, ?_⟩, fun _ => ⟨?_, ?_, ?_, ?_⟩⟩
  · show Claim s'.log _; rw [a.log]; exact ⟨by rw [hrun]; rfl, hc⟩
  · intro h' i' hh
    show Says h' (_ :: s'.log) i'
    rw [a.log]
    by_cases hne : h' = p
    · subst hne
      simp [St.add, Heap.set] at hh
    · simp only [St.add, Heap.set, if_neg hne] at hh
      have h3 := a.others h' i' hne hh
      exact h3.other (by rw [hsub]; exact fun e => h3.1 e.symm)
  · intro h'
    show h' ∈ alives (.leave (.create cfg lg) 0 :: s'.log) ↔ (s'.heap.set p none h').isSome = true
    rw [a.log]
    simp only [alives, if_true]
    by_cases hne : h' = p
    · subst hne
      simp [Heap.set, hna]
    · simp only [Heap.set, if_neg hne]
      exact a.alv h' hne
  · show s.log <:+ _ :: s'.log
    rw [a.log]
    exact ((List.suffix_cons _ _).trans a.suf).trans (List.suffix_cons _ _)
  · show (frames s'.log).tail = _
    rw [a.log, hrest]
  · intro h' hh
    have hne : h' ≠ p := by
      rintro rfl
      rw [hd] at hh; cases hh
    simpa [St.add, Heap.set, hne] using a.rely h' hne hh
  · intro h' hh
    have hne : h' ≠ p := by
      rintro rfl
      rw [hd] at hh; cases hh
    have h0 : h' ≠ 0 := by
      obtain ⟨i, h2⟩ := Option.isSome_iff_exists.1 hh
      exact (hinv.says h' i h2).1
    show Keeps (view h' s.log) (view h' (_ :: s'.log))
    rw [a.log, view_other (by rw [hsub]; exact h0.symm)]
    exact create_keep hinv a hne hh

/-- A failure: the host name and the memory are released. -/
theorem drop1_spec (hinv : Inv s) (a : At (s.add (.enter (.create cfg lg))) p i l s')
    (hd : s.heap p = none) (hna : p ∉ alives l)
    {host : Nat} (hhost : i.host_name = some host) (hv : (view p l).host = host)
    (hr : ∀ o, Reacts l (.call p o))
    (hh : ∀ x, held x l = held x (beforeEnter l) + one x .mem p + one x .host host) :
    wp (sys std) pf (Fin s (.create cfg lg) b) (drop1 p) s' := by
  refine wp_rd a hhost ?_
  refine wp_call a rfl (Or.inl rfl) ⟨hr _, hv.symm⟩ ?_
  intro n bs s1 _ a1
  refine wp_call a1 rfl (Or.inl rfl) ⟨trivial, trivial⟩ ?_
  intro n2 bs2 s2 _ a2
  refine ⟨⟨_, a2.here⟩, ?_⟩
  refine create_bad hinv a2 hd hna ⟨trivial, ?_⟩
  simp only [Leaves, if_true, beforeEnter]
  intro x
  simp only [held, held1, hh x]
  omega

/-- The callbacks and the logger are initialised. -/
def base (lg : Nat) : Inst where
  on_bytes_received := some 0
  on_bytes_received_context := some 0
  on_io_open_complete := some 0
  on_io_open_complete_context := some 0
  on_io_close_complete := some 0
  on_io_close_complete_context := some 0
  on_io_error := some 0
  on_io_error_context := some 0
  logger_log := some lg
  credential_handle_allocated := some false

theorem create_io_spec (hinv : Inv s) {host : Nat} {c : Config}
    (a : At (s.add (.enter (.create cfg lg))) p { base lg with host_name := some host } l s')
    (hd : s.heap p = none) (hna : p ∉ alives l) (hcfg : cfg ≠ none)
    (hle : (running l).head? = some (.create (some c) lg))
    (h1 : (view p l).host = host) (h0 : host ≠ 0)
    (hr : ∀ o, Reacts l (.call p o))
    (hh : ∀ x, held x l = held x (beforeEnter l) + one x .mem p + one x .host host) :
    wp (sys std) pf (Fin s (.create cfg lg) b) (create_io p c lg) s' := by
  unfold create_io
  refine wp_rd a rfl ?_
  refine wp_call a rfl (Or.inl rfl) ⟨hr _, h1.symm, h0, c, lg, hle, rfl⟩ ?_
  intro n1 bs1 s1 _ a1
  refine wp_callP a1 rfl (Or.inl rfl) ⟨trivial, trivial⟩ ?_
  intro n2 bs2 s2 _ a2
  split
  next h0 =>
    refine drop1_spec hinv a2 hd hna rfl ?_ (fun _ => trivial) fun x => ?_
    · simp [view, subject, View.next, h1]
    · have := hh x
      simp only [held, held1, beforeEnter]
      omega
  next hif =>
    refine wp_callP a2 rfl (Or.inl rfl) ⟨trivial, hle, hna⟩ ?_
    intro n3 bs3 s3 hv a3
    obtain ⟨io, rfl⟩ := isPtr_nat hv
    have hpn : ((io : Int)).toNat = io := Int.toNat_natCast io
    rw [hpn]
    refine wp_wr a3 fun s4 a4 => ?_
    split
    next h0 =>
      subst h0
      refine drop1_spec hinv a4 hd hna rfl ?_ (fun _ => trivial) fun x => ?_
      · simp [view, subject, View.next, h1]
      · have := hh x
        simp only [held, held1, beforeEnter, Int.natCast_zero, one_zero]
        omega
    next hio =>
      refine wp_wr a4 fun _ a5 => ?_
      refine wp_wr a5 fun _ a6 => ?_
      refine wp_wr a6 fun _ a7 => ?_
      refine wp_wr a7 fun s8 a8 => ?_
      clear a1 a2 a3 a4 a5 a6 a7
      have hp0 : (p : Int) ≠ 0 := by have := a.nz; omega
      refine create_ok hinv a8 hd ?_ hna ⟨trivial, ?_⟩
      · simp [view, subject, View.next, inst, base, Phase.state, h1]
      · simp only [Leaves, if_neg hp0, Int.toNat_natCast]
        refine ⟨hcfg, ?_, by omega, by simpa only [alives] using hna, fun x => ?_, c.text,
          [_, _, _, _, _], l, by
            rw [show (view p _).host = host by simp [view, subject, View.next, h1]]; rfl, rfl⟩
        · simp [view, subject, View.next]
        · have := hh x
          simp [view, subject, View.next, own, held, held1, beforeEnter, h1]
          omega

end

theorem Inv.add0 {s : S} (hi : Inv s) {e : Event} (he : subject e = 0)
    (hal : alives (e :: s.log) = alives s.log) : Inv (s.add e) := by
  refine ⟨fun h i hh => ?_, fun h => ?_⟩
  · have := hi.says h i hh
    exact this.other (by rw [he]; exact this.1.symm)
  · show h ∈ alives (e :: s.log) ↔ _
    rw [hal]
    exact hi.alive h

theorem create_fin {s : S} {cfg : Option Config} {lg : Nat} {b : Bool} (hi : Inv s) :
    wp (sys std) pf (Fin s (.create cfg lg) b) (body (.create cfg lg))
      (s.add (.enter (.create cfg lg))) := by
  show wp _ _ _ (tlsio_schannel_create cfg lg) _
  cases cfg with
  | none =>
    refine fin_null hi rfl rfl (fun _ _ _ => rfl) ⟨?_, ?_⟩
    · simp only [Reacts]
      rw [if_pos trivial]
      exact ends_leave _
    · exact fun x => by simp [held, held1, beforeEnter]
  | some cfg =>
    refine ⟨⟨by simp [Reacts, St.add], trivial⟩, ?_⟩
    have : (sys std).reenters (.malloc 168) = false := rfl
    rw [if_neg (by rw [this]; decide)]
    intro n bs hv
    refine ⟨⟨fun hm => (by cases hm), fun _ _ _ h => (by cases h), fun h => (by cases h),
      fun _ => rfl, trivial⟩, ?_⟩
    simp only [sys, valid, Bool.and_eq_true, Bool.or_eq_true, beq_iff_eq] at hv
    obtain ⟨p, rfl⟩ := isPtr_nat hv.1
    have hpn : ((p : Int)).toNat = p := Int.toNat_natCast p
    show wp _ _ _ (if ((p : Int)).toNat = 0 then _ else _) _
    rw [hpn]
    have i1 := hi.add0 (e := .enter (.create (some cfg) lg)) rfl rfl
    have i2 := i1.add0 (e := .call 0 (.malloc 168)) rfl rfl
    have i3 := i2.add0 (e := .ret 0 (.malloc 168) p bs) rfl rfl
    have hview : ∀ h', (s.heap h').isSome = true → view h' (.ret 0 (.malloc 168) (p : Int) bs ::
        .call 0 (.malloc 168) :: .enter (.create (some cfg) lg) :: s.log) = view h' s.log ∧
        view h' (.enter (.create (some cfg) lg) :: s.log) = view h' s.log := by
      intro h' hh
      obtain ⟨i, h2⟩ := Option.isSome_iff_exists.1 hh
      have h0 := (hi.says h' i h2).1
      refine ⟨?_, ?_⟩
      · rw [view_other (by exact h0.symm), view_other (by exact h0.symm),
          view_other (by exact h0.symm)]
      · rw [view_other (by exact h0.symm)]
    split
    next h0 =>
      subst h0
      have i4 := i3.add0 (e := .leave (.create (some cfg) lg) 0) rfl rfl
      refine ⟨⟨rfl, trivial, ?_⟩, i4, fun _ => ⟨?_, rfl, fun _ h => h, ?_⟩⟩
      · exact fun x => by simp [held, held1, beforeEnter, St.add, one_zero]
      · exact (((List.suffix_cons _ _).trans (List.suffix_cons _ _)).trans (List.suffix_cons _ _)).trans
          (List.suffix_cons _ _)
      · intro h' hh
        show Keeps (view h' s.log) (view h' (.leave (.create (some cfg) lg) 0 :: _))
        obtain ⟨i, h2⟩ := Option.isSome_iff_exists.1 hh
        have h0 := (hi.says h' i h2).1
        rw [view_other (by exact h0.symm)]
        have := (hview h' hh).1
        exact this ▸ Keeps.refl _
    next h0 =>
      have hd : s.heap p = none := by
        rcases hv.2 with h | h
        · omega
        · rw [hpn] at h; simpa [St.add] using h
      have a0 : At (s.add (.enter (.create (some cfg) lg))) p {}
          (.ret 0 (.malloc 168) p bs :: .call 0 (.malloc 168) ::
            .enter (.create (some cfg) lg) :: s.log)
          { heap := s.heap.set p (some {}), log := .ret 0 (.malloc 168) p bs :: .call 0 (.malloc 168) ::
            .enter (.create (some cfg) lg) :: s.log } := by
        refine ⟨rfl, by simp [Heap.set], h0, ?_, ?_, rfl, rfl, ?_, fun h' hne => ?_, fun h => h, ?_,
          fun hw => absurd hw not_works_create⟩
        · intro h' i' hne hh
          simp only [Heap.set, if_neg hne] at hh
          exact i3.says h' i' hh
        · intro h' hne hh
          simpa [Heap.set, hne, St.add] using hh
        · exact (List.suffix_cons _ _).trans (List.suffix_cons _ _)
        · simp only [Heap.set, if_neg hne]
          exact hi.alive h'
        · intro h' hne hh
          show Keeps (view h' (.enter (.create (some cfg) lg) :: s.log)) _
          have := hview h' hh
          rw [this.1, this.2]
          exact Keeps.refl _
      have hna : p ∉ alives s.log := by
        rw [hi.alive, hd]; simp
      show wp _ _ _ (wr p _ >>= _) _
      refine wp_wr a0 fun _ a1 => ?_
      refine wp_wr a1 fun _ a2 => ?_
      refine wp_wr a2 fun _ a3 => ?_
      refine wp_wr a3 fun _ a4 => ?_
      refine wp_wr a4 fun _ a5 => ?_
      refine wp_wr a5 fun _ a6 => ?_
      refine wp_wr a6 fun _ a7 => ?_
      refine wp_wr a7 fun _ a8 => ?_
      refine wp_wr a8 fun _ a9 => ?_
      refine wp_wr a9 fun s10 a10 => ?_
      replace a10 : At _ p (base lg) _ s10 := a10
      clear a0 a1 a2 a3 a4 a5 a6 a7 a8 a9
      refine wp_callP a10 rfl (Or.inl rfl) ⟨trivial, hna, cfg, lg, rfl, rfl⟩ ?_
      intro n2 bs2 s2 hv a2
      obtain ⟨host, rfl⟩ := isPtr_nat hv
      have hpn2 : ((host : Int)).toNat = host := Int.toNat_natCast host
      rw [hpn2]
      refine wp_wr a2 fun s4 a4 => ?_
      split
      next hc0 =>
        subst hc0
        refine wp_call a4 rfl (Or.inl rfl) ⟨trivial, trivial⟩ ?_
        intro n5 bs5 s5 _ a5
        refine ⟨⟨_, a5.here⟩, create_bad hi a5 hd hna ⟨trivial, ?_⟩⟩
        exact fun x => by simp [held, held1, beforeEnter, one_zero]; omega
      next hc0 =>
        refine create_io_spec hi a4 hd hna (by simp) rfl ?_ hc0 (fun _ => trivial) fun x => ?_
        · simp [view, subject, View.next]
        · simp [held, held1, beforeEnter]; omega

/-- The end of destroy. -/
theorem destroy_end {s s' : S} {h : Nat} {i : Inst} {l : List Event}
    (a : At (s.add (.enter (.destroy h))) h i l s')
    (hc : Reacts l (.leave (.destroy h) 0) ∧ Leaves l (.destroy h) 0) :
    Fin s (.destroy h) true 0 { s' with heap := s'.heap.set h none } := by
  have hrun : running l = .destroy h :: running s.log := a.run
  refine ⟨?_, ⟨?_, fun h' => ?_⟩, fun h => by cases h⟩
  · show Claim s'.log _
    rw [a.log]
    exact ⟨by rw [hrun]; rfl, hc⟩
  · intro h' i' hh
    show Says h' (_ :: s'.log) i'
    rw [a.log]
    by_cases hne : h' = h
    · subst hne
      simp [St.add, Heap.set] at hh
    · simp only [St.add, Heap.set, if_neg hne] at hh
      exact (a.others h' i' hne hh).other (fun e => hne e.symm)
  · show h' ∈ alives (.leave (.destroy h) 0 :: s'.log) ↔ (s'.heap.set h none h').isSome = true
    rw [a.log]
    by_cases hne : h' = h
    · subst hne
      simp [alives, Heap.set]
    · simp only [Heap.set, if_neg hne]
      rw [← a.alv h' hne]
      simp [alives, hne]

/-- What has been released so far does not matter for the rest. -/
def Freed (x : Res) : Prop := (∀ p, x ≠ .buf p) ∧ (∀ p, x ≠ .cred p)

section
variable {s s' : S} {h : Nat} {i : Inst} {l : List Event} {v : View}

theorem destroy_rest (a : At (s.add (.enter (.destroy h))) h i l s')
    (ha : h ∈ alives (s.add (.enter (.destroy h))).log)
    (hio : i.socket_io = some v.io) (hhost : i.host_name = some v.host)
    (hv : view h l = v) (hb : v.buf = 0) (hc : v.cred = none)
    (hr : ∀ o, Reacts l (.call h o))
    (hh : ∀ x, Freed x → held x l = held x (beforeEnter l)) :
    wp (sys std) pf (fun (_ : Unit) s' => Fin s (.destroy h) true 0 s') (do
      let _ ← call h (.xioDestroy (← rd h (·.socket_io)))
      let _ ← call h (.freeHost (← rd h (·.host_name)))
      let _ ← call h (.free h)
      Prog.dispose h (.ret ())) s' := by
  have hz := a.nz
  refine wp_rd a hio ?_
  refine wp_call a rfl (Or.inl rfl) ⟨hr _, by simp [Calls, hv]⟩ ?_
  intro n1 bs1 s1 _ a1
  refine wp_rd a1 hhost ?_
  refine wp_call a1 rfl (Or.inl rfl) ⟨trivial, by simp [Calls, view, subject, View.next, hv]⟩ ?_
  intro n2 bs2 s2 _ a2
  refine wp_call a2 rfl (Or.inl rfl) ⟨trivial, trivial⟩ ?_
  intro n3 bs3 s3 _ a3
  refine ⟨⟨_, a3.here⟩, destroy_end a3 ⟨trivial, Or.inr ⟨a3.self ha, ?_, ?_⟩, fun x h1 h2 => ?_⟩⟩
  · simp [view, subject, View.next, hv, hb]
  · simp [view, subject, View.next, hv, hc]
  · rw [if_neg hz]
    have := hh x ⟨h1, h2⟩
    simp [own, held, held1, beforeEnter, view, subject, View.next, hv]
    omega

theorem destroy_block (a : At (s.add (.enter (.destroy h))) h i l s')
    (ha : h ∈ alives (s.add (.enter (.destroy h))).log)
    (hio : i.socket_io = some v.io) (hhost : i.host_name = some v.host)
    (hbuf : i.received_bytes = some v.buf)
    (hv : view h l = v) (hc : v.cred = none)
    (hr : ∀ o, Reacts l (.call h o))
    (hh : ∀ x, Freed x → held x l = held x (beforeEnter l)) :
    wp (sys std) pf (fun (_ : Unit) s' => Fin s (.destroy h) true 0 s') (do
      free_block h
      let _ ← call h (.xioDestroy (← rd h (·.socket_io)))
      let _ ← call h (.freeHost (← rd h (·.host_name)))
      let _ ← call h (.free h)
      Prog.dispose h (.ret ())) s' := by
  refine wp_bind _ _ _ ?_
  unfold free_block
  refine wp_rd a hbuf ?_
  split
  next hb =>
    exact destroy_rest a ha hio hhost hv hb hc hr hh
  next hb =>
    have hb : v.buf ≠ 0 := hb
    have hrun : running l = .destroy h :: running s.log := a.run
    refine wp_call a rfl (Or.inl rfl) ⟨hr _, by rw [hv], hb, a.self ha, by rw [hrun]; rfl⟩ ?_
    intro n bs s1 _ a1
    refine destroy_rest (v := { v with buf := 0 }) a1 ha hio hhost ?_ rfl hc (fun _ => trivial) fun x hx => ?_
    · rw [view_ret, view_call, hv]; rfl
    · have := hh x hx
      have h1 : ∀ n, one x .buf n = 0 := by
        intro n; unfold one; rw [if_neg fun h => hx.1 _ h.2]
      simp [held, held1, beforeEnter, h1, this]

end

theorem destroy_fin {s : S} {h : Nat} (hi : Inv s) (hl : h = 0 ∨ (s.heap h).isSome = true) :
    wp (sys std) pf (Fin s (.destroy h) true) (body (.destroy h)) (s.add (.enter (.destroy h))) := by
  show wp _ _ _ (Prog.bind (tlsio_schannel_destroy h) fun _ => .ret 0) _
  unfold tlsio_schannel_destroy
  by_cases hz : h = 0
  · rw [if_pos hz]
    subst hz
    refine fin_null hi rfl rfl (fun _ _ h => (by cases h)) ⟨?_, Or.inl rfl, fun x _ _ => ?_⟩
    · simp only [Reacts]; exact fun _ => ends_leave _
    · simp [held, held1, beforeEnter]
  · rw [if_neg hz]
    have hl := hl.resolve_left hz
    obtain ⟨ht, junk, hj, a⟩ := hi.at hl (.destroy h) rfl
    have ha : h ∈ alives (s.add (.enter (.destroy h))).log := (hi.alive h).2 hl
    have ha' : h ∈ alives s.log := ha
    have hv : view h (.enter (.destroy h) :: s.log) = view h s.log := by vw
    have hr : ∀ o, Reacts (.enter (.destroy h) :: s.log) (.call h o) := by
      intro o
      simp only [Reacts]
      exact fun h => absurd h hz
    refine wp_bind _ _ _ ?_
    refine wp_bind _ _ _ ?_
    have key : ∀ i l s', At (s.add (.enter (.destroy h))) h i l s' → i = inst (view h s.log) junk →
        view h l = { view h s.log with cred := none } → (∀ o, Reacts l (.call h o)) →
        (∀ x, Freed x → held x l = held x (beforeEnter l)) →
        wp (sys std) pf (fun (_ : Unit) s' => wp (sys std) pf (Fin s (.destroy h) true) (.ret (0 : Int)) s')
          (do
            free_block h
            let _ ← call h (.xioDestroy (← rd h (·.socket_io)))
            let _ ← call h (.freeHost (← rd h (·.host_name)))
            let _ ← call h (.free h)
            Prog.dispose h (.ret ())) s' := by
      rintro i l s' a' rfl hv' hr' hh'
      exact destroy_block (v := { view h s.log with cred := none }) a' ha rfl rfl rfl hv' rfl hr' hh'
    unfold free_cred
    refine wp_rd a rfl ?_
    cases hc : (view h s.log).cred with
    | none =>
      refine key _ _ _ a rfl ?_ hr ?_
      · rw [hv, ← hc]
      · intro x _; simp [held, held1, beforeEnter]
    | some cr =>
      refine wp_rd a (x := cr) hc ?_
      refine wp_call a rfl (Or.inr (Or.inl not_works_destroy)) ⟨hr _, by rw [hv]; exact hc, ha', rfl⟩ ?_
      intro n bs s1 _ a1
      refine key _ _ _ a1 rfl ?_ (fun _ => trivial) fun x hx => ?_
      · rw [view_ret, view_call, hv]; rfl
      · have h1 : ∀ n, one x .cred n = 0 := by
          intro n; unfold one; rw [if_neg fun h => hx.2 _ h.2]
        simp [held, held1, beforeEnter, h1]

theorem null_or {s : S} {h : Nat} (hl : (h == 0 || (s.heap h).isSome) = true) :
    h = 0 ∨ (s.heap h).isSome = true := by
  simpa using hl

/-- The module keeps to its specification in the standard environment. -/
theorem sound : Sound (sys std) pf where
  init := ⟨fun h i hh => (by cases hh), fun h => by simp [alives]⟩
  refl := Rely.refl
  trans := fun _ _ _ => Rely.trans
  body := by
    intro s c b hi hl
    refine ⟨trivial, ?_⟩
    cases c with
    | create cfg lg => exact create_fin hi
    | destroy h =>
      simp only [sys, legal, std, Bool.and_eq_true, Bool.or_false] at hl
      obtain ⟨rfl, hl⟩ := hl
      exact destroy_fin hi (null_or hl)
    | «open» h cbs => exact open_fin hi (null_or hl)
    | close h fn ctx => exact close_fin hi (null_or hl)
    | send h null bs fn ctx => exact send_fin hi (null_or hl)
    | dowork h => exact dowork_fin hi (null_or hl)
    | setoption h name value => exact setoption_fin hi (null_or hl)
    | uOpen h r => exact uOpen_fin hi hl
    | uClose h => exact uClose_fin hi hl
    | uError h => exact uError_fin hi hl
    | uBytes h bs =>
      simp only [sys, legal, std, Bool.and_eq_true, decide_eq_true_eq, Bool.false_or] at hl
      obtain ⟨h1, h2⟩ := hl
      cases hh : s.heap h with
      | none => rw [hh] at h2; cases h2
      | some i =>
        rw [hh] at h2
        obtain ⟨-, -, junk, rfl, -⟩ := hi.says h i hh
        simp only [inst, Bool.and_eq_true, Bool.not_eq_true'] at h2
        exact uBytes_fin hi (by rw [hh]; rfl) h1 h2.1 h2.2
  loop := by
    intro s j hi hl
    exact absurd hl id

end Verif.Schan
