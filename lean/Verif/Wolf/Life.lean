import Verif.Wolf.Funcs

/-
`tlsio_wolfssl_create` and `_destroy`: what is made is released.
-/
namespace Verif.Wolf
open Verif.Game

theorem isPtr_nat {n : Int} (h : isPtr n = true) : ∃ m : Nat, n = m := by
  simp only [isPtr, decide_eq_true_eq] at h
  exact ⟨n.toNat, by omega⟩

theorem one_zero (x : Res) (y : Nat → Res) : one x y 0 = 0 := by simp [one]

section
variable {s s' : S} {p : Nat} {i : Inst} {l : List Event} {cfg : Option Config} {lg : Nat} {b : Bool}

theorem create_ok (a : At (s.add (.enter (.create cfg lg))) p i l s') (hd : s.heap p = none)
    (hi : i = inst ((view p l).next (.leave (.create cfg lg) p)) [])
    (hna : p ∉ alives l)
    (hc : Reacts l (.leave (.create cfg lg) p) ∧ Leaves l (.create cfg lg) p) :
    Fin s (.create cfg lg) b p s' := by
  have hsub : subject (.leave (.create cfg lg) p) = p := by simp [subject, Call.handle]
  have hrun : running l = .create cfg lg :: running s.log := a.run
  refine ⟨by rw [a.log]; exact ⟨by rw [hrun]; rfl, hc⟩, ⟨?_, ?_⟩, fun _ => ⟨?_, ?_, ?_⟩⟩
  · intro h' i' hh
    show Says h' (_ :: s'.log) i'
    rw [a.log]
    by_cases hne : h' = p
    · subst hne
      have hh' : s'.heap h' = some i' := hh
      rw [a.here] at hh'
      injection hh' with hh'
      refine says_of a.nz (view_same hsub) ⟨rfl, ?_, fun h => absurd rfl h⟩ (hh' ▸ hi)
      show ([] : Bytes).length < 2 ^ 56
      decide
    · exact (a.others h' i' hne hh).other (by rw [hsub]; exact fun e => hne e.symm)
  · intro h'
    show h' ∈ alives (.leave (.create cfg lg) p :: s'.log) ↔ (s'.heap h').isSome = true
    have hp0 : (p : Int) ≠ 0 := by have := a.nz; omega
    rw [a.log]
    simp only [alives, if_neg hp0, Int.toNat_natCast, List.mem_cons]
    by_cases hne : h' = p
    · subst hne
      rw [a.here]
      simp
    · simp only [hne, false_or]
      exact a.alv h' hne
  · show s.log <:+ _ :: s'.log
    rw [a.log]
    exact ((List.suffix_cons _ _).trans a.suf).trans (List.suffix_cons _ _)
  · show (running s'.log).tail = _
    rw [a.log, hrun]; rfl
  · intro h' hh
    have hne : h' ≠ p := by
      rintro rfl
      rw [hd] at hh; cases hh
    exact a.rely h' hne hh

theorem create_bad (a : At (s.add (.enter (.create cfg lg))) p i l s') (hd : s.heap p = none)
    (hna : p ∉ alives l)
    (hc : Reacts l (.leave (.create cfg lg) 0) ∧ Leaves l (.create cfg lg) 0) :
    Fin s (.create cfg lg) b 0 { s' with heap := s'.heap.set p none } := by
  have hsub : subject (.leave (.create cfg lg) 0) = 0 := rfl
  have hrun : running l = .create cfg lg :: running s.log := a.run
  refine ⟨?_, ⟨?_, ?_⟩, fun _ => ⟨?_, ?_, ?_⟩⟩
  · show Claim s'.log _; rw [a.log]; exact ⟨by rw [hrun]; rfl, hc⟩
  · intro h' i' hh
    show Says h' (_ :: s'.log) i'
    rw [a.log]
    by_cases hne : h' = p
    · subst hne
      simp [St.add, Heap.set] at hh
    · simp only [St.add, Heap.set, if_neg hne] at hh
      have h3 := a.others h' i' hne hh
      exact h3.other (by rw [hsub]; exact fun e => h3.1 e.symm)
  · intro h'
    show h' ∈ alives (.leave (.create cfg lg) 0 :: s'.log) ↔ (s'.heap.set p none h').isSome = true
    rw [a.log]
    simp only [alives, if_true]
    by_cases hne : h' = p
    · subst hne
      simp [Heap.set, hna]
    · simp only [Heap.set, if_neg hne]
      exact a.alv h' hne
  · show s.log <:+ _ :: s'.log
    rw [a.log]
    exact ((List.suffix_cons _ _).trans a.suf).trans (List.suffix_cons _ _)
  · show (running s'.log).tail = _
    rw [a.log, hrun]; rfl
  · intro h' hh
    have hne : h' ≠ p := by
      rintro rfl
      rw [hd] at hh; cases hh
    simpa [St.add, Heap.set, hne] using a.rely h' hne hh

/-- A failure: the context and the memory are released. -/
theorem drop1_spec (a : At (s.add (.enter (.create cfg lg))) p i l s') (hd : s.heap p = none)
    (hna : p ∉ alives l)
    {ctx : Nat} (hctx : i.ssl_context = some ctx) (hv : (view p l).ctx = ctx)
    (hr : ∀ o, Reacts l (.call p o))
    (hh : ∀ x, held x l = held x (beforeEnter l) + one x .io (newIo l) + one x .mem p +
      one x .ctx ctx) :
    wp (sys std) pf (Fin s (.create cfg lg) b) (drop1 p) s' := by
  refine wp_rd a hctx ?_
  refine wp_call a rfl ⟨hr _, hv.symm⟩ ?_
  intro n bs s1 _ a1
  refine wp_call a1 rfl ⟨trivial, trivial⟩ ?_
  intro n2 bs2 s2 _ a2
  refine ⟨⟨_, a2.here⟩, ?_⟩
  refine create_bad a2 hd hna ⟨trivial, ?_⟩
  simp only [Leaves, if_true, beforeEnter]
  intro x
  simp only [held, held1, newIo, hh x]
  omega

/-- The callbacks and the logger are initialised. -/
def base (lg : Nat) : Inst where
  on_bytes_received := some 0
  on_bytes_received_context := some 0
  on_io_open_complete := some 0
  on_io_open_complete_context := some 0
  on_io_close_complete := some 0
  on_io_close_complete_context := some 0
  on_io_error := some 0
  on_io_error_context := some 0
  logger_log := some lg

theorem create_set_spec {ctx io ssl : Nat}
    (a : At (s.add (.enter (.create cfg lg))) p { base lg with
      ssl_context := some ctx, socket_io := some io, ssl := some ssl } l s')
    (hd : s.heap p = none) (hna : p ∉ alives l) (hcfg : cfg ≠ none)
    (h1 : (view p l).ctx = ctx) (h2 : (view p l).io = io) (h3 : (view p l).ssl = ssl)
    (h4 : (view p l).logger = lg)
    (hr : ∀ o, Reacts l (.call p o))
    (hh : ∀ x, held x l = held x (beforeEnter l) + one x .io io + one x .mem p +
      one x .ctx ctx + one x .ssl ssl) :
    wp (sys std) pf (Fin s (.create cfg lg) b) (create_set p) s' := by
  refine wp_wr a fun _ a1 => ?_
  refine wp_wr a1 fun _ a2 => ?_
  refine wp_wr a2 fun _ a3 => ?_
  refine wp_wr a3 fun _ a4 => ?_
  clear a1 a2 a3
  refine wp_rd a4 rfl ?_
  refine wp_call a4 rfl ⟨hr _, h3.symm⟩ ?_
  intro n1 bs1 s1 _ a5
  refine wp_rd a5 rfl ?_
  refine wp_call a5 rfl ⟨trivial, by simp [Calls, view, subject, View.next, h1]⟩ ?_
  intro n2 bs2 s2 _ a6
  refine wp_rd a6 rfl ?_
  refine wp_call a6 rfl ⟨trivial, by simp [Calls, view, subject, View.next, h1]⟩ ?_
  intro n3 bs3 s3 _ a7
  refine wp_rd a7 rfl ?_
  refine wp_call a7 rfl ⟨trivial, by simp [Calls, view, subject, View.next, h3]⟩ ?_
  intro n4 bs4 s4 _ a8
  refine wp_rd a8 rfl ?_
  refine wp_call a8 rfl ⟨trivial, by simp [Calls, view, subject, View.next, h3]⟩ ?_
  intro n5 bs5 s5 _ a9
  refine wp_rd a9 rfl ?_
  refine wp_call a9 rfl ⟨trivial, by simp [Calls, view, subject, View.next, h3]⟩ ?_
  intro n6 bs6 s6 _ a10
  refine wp_wr a10 fun s7 a11 => ?_
  clear a4 a5 a6 a7 a8 a9 a10
  have hp0 : (p : Int) ≠ 0 := by have := a.nz; omega
  refine create_ok a11 hd ?_ hna ⟨trivial, ?_⟩
  · simp [view, subject, View.next, inst, base, Phase.state, h1, h2, h3, h4]
  · simp only [Leaves, if_neg hp0, Int.toNat_natCast]
    refine ⟨hcfg, ?_, by omega, by simpa only [alives] using hna, fun x => ?_, ?_⟩
    · simp [view, subject, View.next, h4]
    · have := hh x
      simp [view, subject, View.next, own, held, held1, beforeEnter, h1, h2, h3]
      omega
    · intro c hc
      simp [view, subject, View.next, h1, h3] at hc
      rcases hc with rfl | rfl | rfl | rfl | rfl | rfl
      · exact ⟨[_, _, _, _, _, _, _, _, _, _, _], _, rfl, rfl⟩
      · exact ⟨[_, _, _, _, _, _, _, _, _], _, rfl, rfl⟩
      · exact ⟨[_, _, _, _, _, _, _], _, rfl, rfl⟩
      · exact ⟨[_, _, _, _, _], _, rfl, rfl⟩
      · exact ⟨[_, _, _], _, rfl, rfl⟩
      · exact ⟨[_], _, rfl, rfl⟩

theorem create_io_spec {ctx : Nat} {c : Config}
    (a : At (s.add (.enter (.create cfg lg))) p { base lg with ssl_context := some ctx } l s')
    (hd : s.heap p = none) (hna : p ∉ alives l) (hcfg : cfg ≠ none) (hio : newIo l = 0)
    (hle : (running l).head? = some (.create (some c) lg))
    (h1 : (view p l).ctx = ctx)
    (hr : ∀ o, Reacts l (.call p o))
    (hh : ∀ x, held x l = held x (beforeEnter l) + one x .mem p + one x .ctx ctx) :
    wp (sys std) pf (Fin s (.create cfg lg) b) (create_io p c lg) s' := by
  refine wp_callP a rfl ⟨hr _, trivial⟩ ?_
  intro n1 bs1 s1 _ a1
  split
  next h0 =>
    refine drop1_spec a1 hd hna rfl ?_ (fun _ => trivial) fun x => ?_
    · simp [view, subject, View.next, h1]
    · have := hh x
      simp only [held, held1, newIo, beforeEnter, Int.natCast_zero, one_zero, hio]
      omega
  next h0 =>
    refine wp_callP a1 rfl ⟨trivial, hle, hna⟩ ?_
    intro n3 bs3 s3 hv a3
    obtain ⟨io, rfl⟩ := isPtr_nat hv
    have hpn : ((io : Int)).toNat = io := Int.toNat_natCast io
    rw [hpn]
    refine wp_wr a3 fun s4 a4 => ?_
    split
    next h0 =>
      subst h0
      refine drop1_spec a4 hd hna rfl ?_ (fun _ => trivial) fun x => ?_
      · simp [view, subject, View.next, h1]
      · have := hh x
        simp only [held, held1, newIo, beforeEnter, Int.natCast_zero, one_zero]
        omega
    next h0 =>
      refine wp_rd a4 rfl ?_
      refine wp_callP a4 rfl ⟨trivial, by simp [view, subject, View.next, h1],
        by simpa only [alives] using hna⟩ ?_
      intro n5 bs5 s5 hv a5
      obtain ⟨ssl, rfl⟩ := isPtr_nat hv
      have hpn : ((ssl : Int)).toNat = ssl := Int.toNat_natCast ssl
      rw [hpn]
      refine wp_wr a5 fun s6 a6 => ?_
      split
      next hz =>
        subst hz
        refine drop1_spec a6 hd hna rfl ?_ (fun _ => trivial) fun x => ?_
        · simp [view, subject, View.next, h1]
        · have := hh x
          simp only [held, held1, newIo, beforeEnter, Int.natCast_zero, one_zero]
          omega
      next hz =>
        refine create_set_spec a6 hd hna hcfg ?_ ?_ ?_ ?_ (fun _ => trivial) fun x => ?_
        · simp [view, subject, View.next, h1]
        · simp [view, subject, View.next]
        · simp [view, subject, View.next]
        · simp [view, subject, View.next]
        · have := hh x
          simp only [held, held1, beforeEnter]
          omega

end

theorem Inv.add0 {s : S} (hi : Inv s) {e : Event} (he : subject e = 0)
    (hal : alives (e :: s.log) = alives s.log) : Inv (s.add e) := by
  refine ⟨fun h i hh => ?_, fun h => ?_⟩
  · have := hi.says h i hh
    exact this.other (by rw [he]; exact this.1.symm)
  · show h ∈ alives (e :: s.log) ↔ _
    rw [hal]
    exact hi.alive h

theorem create_fin {s : S} {cfg : Option Config} {lg : Nat} {b : Bool} (hi : Inv s) :
    wp (sys std) pf (Fin s (.create cfg lg) b) (body (.create cfg lg))
      (s.add (.enter (.create cfg lg))) := by
  show wp _ _ _ (tlsio_wolfssl_create cfg lg) _
  cases cfg with
  | none =>
    refine fin_null hi rfl rfl (fun _ _ _ => rfl) ⟨rfl, ?_⟩
    exact fun x => by simp [held, held1, newIo, beforeEnter, one_zero]
  | some cfg =>
    refine ⟨⟨by simp [Reacts, St.add], trivial⟩, ?_⟩
    have : (sys std).reenters (.malloc 136) = false := rfl
    rw [if_neg (by rw [this]; decide)]
    intro n bs hv
    refine ⟨⟨fun hm => (by cases hm), fun _ _ h => (by cases h), fun _ => rfl⟩, ?_⟩
    simp only [sys, valid, Bool.and_eq_true, Bool.or_eq_true, beq_iff_eq] at hv
    obtain ⟨p, rfl⟩ := isPtr_nat hv.1
    have hpn : ((p : Int)).toNat = p := Int.toNat_natCast p
    show wp _ _ _ (if ((p : Int)).toNat = 0 then _ else _) _
    rw [hpn]
    have i1 := hi.add0 (e := .enter (.create (some cfg) lg)) rfl rfl
    have i2 := i1.add0 (e := .call 0 (.malloc 136)) rfl rfl
    have i3 := i2.add0 (e := .ret 0 (.malloc 136) p bs) rfl rfl
    split
    next h0 =>
      subst h0
      have i4 := i3.add0 (e := .leave (.create (some cfg) lg) 0) rfl rfl
      refine ⟨⟨rfl, trivial, ?_⟩, i4, fun _ => ⟨?_, rfl, fun _ h => h⟩⟩
      · exact fun x => by simp [held, held1, newIo, beforeEnter, St.add, one_zero]
      · exact (((List.suffix_cons _ _).trans (List.suffix_cons _ _)).trans (List.suffix_cons _ _)).trans
          (List.suffix_cons _ _)
    next h0 =>
      have hd : s.heap p = none := by
        rcases hv.2 with h | h
        · omega
        · rw [hpn] at h; simpa [St.add] using h
      have a0 : At (s.add (.enter (.create (some cfg) lg))) p {}
          (.ret 0 (.malloc 136) p bs :: .call 0 (.malloc 136) ::
            .enter (.create (some cfg) lg) :: s.log)
          { heap := s.heap.set p (some {}), log := .ret 0 (.malloc 136) p bs :: .call 0 (.malloc 136) ::
            .enter (.create (some cfg) lg) :: s.log } := by
        refine ⟨rfl, by simp [Heap.set], h0, ?_, ?_, rfl, ?_, fun h' hne => ?_, fun h => h⟩
        · intro h' i' hne hh
          simp only [Heap.set, if_neg hne] at hh
          exact i3.says h' i' hh
        · intro h' hne hh
          simpa [Heap.set, hne, St.add] using hh
        · exact (List.suffix_cons _ _).trans (List.suffix_cons _ _)
        · simp only [Heap.set, if_neg hne]
          exact hi.alive h'
      have hna : p ∉ alives s.log := by
        rw [hi.alive, hd]; simp
      show wp _ _ _ (wr p _ >>= _) _
      refine wp_wr a0 fun _ a1 => ?_
      refine wp_wr a1 fun _ a2 => ?_
      refine wp_wr a2 fun _ a3 => ?_
      refine wp_wr a3 fun _ a4 => ?_
      refine wp_wr a4 fun _ a5 => ?_
      refine wp_wr a5 fun _ a6 => ?_
      refine wp_wr a6 fun _ a7 => ?_
      refine wp_wr a7 fun _ a8 => ?_
      refine wp_wr a8 fun s10 a10 => ?_
      replace a10 : At _ p (base lg) _ s10 := a10
      clear a0 a1 a2 a3 a4 a5 a6 a7 a8
      refine wp_callP a10 rfl ⟨trivial, hna⟩ ?_
      intro n2 bs2 s2 hv a2
      obtain ⟨ctx, rfl⟩ := isPtr_nat hv
      have hpn2 : ((ctx : Int)).toNat = ctx := Int.toNat_natCast ctx
      rw [hpn2]
      refine wp_wr a2 fun s4 a4 => ?_
      split
      next hc0 =>
        subst hc0
        refine wp_call a4 rfl ⟨trivial, trivial⟩ ?_
        intro n5 bs5 s5 _ a5
        refine ⟨⟨_, a5.here⟩, create_bad a5 hd hna ⟨trivial, ?_⟩⟩
        exact fun x => by simp [held, held1, newIo, beforeEnter, one_zero]; omega
      next hc0 =>
        refine create_io_spec a4 hd hna (by simp) rfl rfl ?_ (fun _ => trivial) fun x => ?_
        · simp [view, subject, View.next]
        · simp [held, held1, beforeEnter]; omega

/-- The end of destroy. -/
theorem destroy_end {s s' : S} {h : Nat} {i : Inst} {l : List Event}
    (a : At (s.add (.enter (.destroy h))) h i l s')
    (hc : Reacts l (.leave (.destroy h) 0) ∧ Leaves l (.destroy h) 0) :
    Fin s (.destroy h) true 0 { s' with heap := s'.heap.set h none } := by
  have hrun : running l = .destroy h :: running s.log := a.run
  refine ⟨?_, ⟨?_, fun h' => ?_⟩, fun h => by cases h⟩
  · show Claim s'.log _
    rw [a.log]
    exact ⟨by rw [hrun]; rfl, hc⟩
  · intro h' i' hh
    show Says h' (_ :: s'.log) i'
    rw [a.log]
    by_cases hne : h' = h
    · subst hne
      simp [St.add, Heap.set] at hh
    · simp only [St.add, Heap.set, if_neg hne] at hh
      exact (a.others h' i' hne hh).other (fun e => hne e.symm)
  · show h' ∈ alives (.leave (.destroy h) 0 :: s'.log) ↔ (s'.heap.set h none h').isSome = true
    rw [a.log]
    by_cases hne : h' = h
    · subst hne
      simp [alives, Heap.set]
    · simp only [Heap.set, if_neg hne]
      rw [← a.alv h' hne]
      simp [alives, hne]

theorem destroy_fin {s : S} {h : Nat} (hi : Inv s) (hl : h = 0 ∨ (s.heap h).isSome = true) :
    wp (sys std) pf (Fin s (.destroy h) true) (body (.destroy h)) (s.add (.enter (.destroy h))) := by
  refine wp_bind _ _ _ ?_
  unfold tlsio_wolfssl_destroy
  by_cases hz : h = 0
  · rw [if_pos hz]
    subst hz
    refine fin_null hi rfl rfl (fun _ _ h => (by cases h)) ⟨rfl, Or.inl rfl, fun x _ => ?_⟩
    simp [held, held1, beforeEnter]
  · rw [if_neg hz]
    have hl := hl.resolve_left hz
    obtain ⟨ht, junk, a⟩ := hi.at hl (.destroy h) rfl
    have ha : h ∈ alives (s.add (.enter (.destroy h))).log := (hi.alive h).2 hl
    have ha' : h ∈ alives s.log := ha
    refine wp_rd a rfl ?_
    refine wp_call a rfl (by spec) ?_
    intro n1 bs1 s1 _ a1
    refine wp_rd a1 rfl ?_
    refine wp_call a1 rfl (by spec) ?_
    intro n2 bs2 s2 _ a2
    refine wp_bind _ _ _ ?_
    unfold free_block
    refine wp_rd a2 rfl ?_
    split
    next hb =>
      have hb : (view h s.log).buf = 0 := hb
      refine wp_rd a2 rfl ?_
      refine wp_call a2 rfl (by spec) ?_
      intro n3 bs3 s3 _ a3
      refine wp_call a3 rfl (by spec) ?_
      intro n4 bs4 s4 _ a4
      refine ⟨⟨_, a4.here⟩, destroy_end a4 ⟨trivial, Or.inr ⟨a4.self ha, ?_⟩, fun x hx => ?_⟩⟩
      · simp [view, subject, View.next, Call.handle, hb]
      · rw [if_neg hz]
        simp [own, held, held1, beforeEnter, view, subject, View.next, Call.handle]
        omega
    next hb =>
      have hb : (view h s.log).buf ≠ 0 := hb
      refine wp_call a2 rfl ⟨trivial, ?_, hb, ha', Or.inr rfl⟩ ?_
      · simp [view, subject, View.next, Call.handle]
      intro n3 bs3 s3 _ a3
      refine wp_rd a3 rfl ?_
      refine wp_call a3 rfl ⟨trivial, ?_⟩ ?_
      · simp [Calls, view, subject, View.next, Call.handle]
      intro n4 bs4 s4 _ a4
      refine wp_call a4 rfl ⟨trivial, trivial⟩ ?_
      intro n5 bs5 s5 _ a5
      refine ⟨⟨_, a5.here⟩, destroy_end a5 ⟨trivial, Or.inr ⟨a5.self ha, ?_⟩, fun x hx => ?_⟩⟩
      · simp [view, subject, View.next, Call.handle]
      · rw [if_neg hz]
        have : ∀ n, one x .buf n = 0 := by
          intro n
          unfold one
          rw [if_neg fun h => hx _ h.2]
        simp [own, held, held1, beforeEnter, view, subject, View.next, Call.handle, this]
        omega

theorem null_or {s : S} {h : Nat} (hl : (h == 0 || (s.heap h).isSome) = true) :
    h = 0 ∨ (s.heap h).isSome = true := by
  simpa using hl

/-- The module keeps to its specification in the standard environment. -/
theorem sound : Sound (sys std) pf where
  init := ⟨fun h i hh => (by cases hh), fun h => by simp [alives]⟩
  refl := Rely.refl
  trans := fun _ _ _ => Rely.trans
  body := by
    intro s c b hi hl
    refine ⟨trivial, ?_⟩
    cases c with
    | create cfg lg => exact create_fin hi
    | destroy h =>
      simp only [sys, legal, std, Bool.and_eq_true, Bool.or_false] at hl
      obtain ⟨rfl, hl⟩ := hl
      exact destroy_fin hi (null_or hl)
    | «open» h cbs => exact open_fin hi (null_or hl)
    | close h fn ctx => exact close_fin hi (null_or hl)
    | send h bs fn ctx =>
      simp only [sys, legal, Bool.and_eq_true] at hl
      exact send_fin hi (null_or hl.1)
    | dowork h => exact dowork_fin hi (null_or hl)
    | setoption h name value text =>
      simp only [sys, legal, Bool.and_eq_true, Bool.or_eq_true, bne_iff_ne] at hl
      exact setoption_fin hi (by simpa using hl.1) (fun h => hl.2.resolve_left (fun h2 => h2 h))
    | uOpen h r => exact uOpen_fin hi hl
    | uClose h => exact uClose_fin hi hl
    | uError h => exact uError_fin hi hl
    | uBytes h bs =>
      simp only [sys, legal, std, Bool.and_eq_true, decide_eq_true_eq, Bool.false_or] at hl
      exact uBytes_fin hi hl.1.1 hl.1.2 (by simpa using hl.2)
    | wRecv h buf sz =>
      simp only [sys, legal, Bool.and_eq_true] at hl
      exact wRecv_fin hi hl.1
    | wSend h bs =>
      simp only [sys, legal, Bool.and_eq_true] at hl
      exact wSend_fin hi hl.1
    | wDone h => exact wDone_fin hi hl
  loop := by
    intro s j hi hl
    show wp _ _ _ (loop j) s
    replace hl : Loop j true s := hl
    unfold Loop at hl
    unfold loop
    split at hl
    next h0 =>
      rw [if_pos h0]
      refine wp_mono (fun more s' h => ?_) _ s (decode_round_spec hi hl)
      refine ⟨h.1, ?_, h.2.2⟩
      show Loop j more s'
      unfold Loop; rw [if_pos h0]; exact h.2.1
    next h0 =>
      rw [if_neg h0]
      refine wp_mono (fun more s' h => ?_) _ s (recv_round_spec hi hl)
      refine ⟨h.1, ?_, h.2.2⟩
      show Loop j more s'
      unfold Loop; rw [if_neg h0]; exact h.2.1

end Verif.Wolf
