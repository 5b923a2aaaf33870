import Verif.Tls.Funcs

/-
`tlsio_openssl_create`, `_destroy` and `_setoption`: what is made is released.
-/
namespace Verif.Tls
open Verif.Game

theorem isPtr_nat {n : Int} (h : isPtr n = true) : ∃ m : Nat, n = m := by
  simp only [isPtr, decide_eq_true_eq] at h
  exact ⟨n.toNat, by omega⟩

/-- Unfold the ledger. -/
macro "ledger" : tactic => `(tactic| simp [Claim, Reacts, Calls, Leaves, held, held1, view, View.next,
  subject, Call.handle, lastEnter, beforeEnter, *])

theorem one_zero (x : Res) (y : Nat → Res) : one x y 0 = 0 := by simp [one]

section
variable {s s' : S} {p : Nat} {i : Inst} {l : List Event} {cfg : Option Config} {lg : Nat} {b : Bool}

theorem create_ok (a : At (s.add (.enter (.create cfg lg))) p i l s') (hd : s.heap p = none)
    (hi : i = inst ((view p l).next (.leave (.create cfg lg) p)))
    (hna : p ∉ alives l)
    (hc : Claim l (.leave (.create cfg lg) p)) : Fin s (.create cfg lg) b p s' := by
  have hsub : subject (.leave (.create cfg lg) p) = p := by simp [subject, Call.handle]
  refine ⟨by rw [a.log]; exact hc, ⟨?_, ?_⟩, fun _ => ⟨?_, ?_⟩⟩
  rotate_left
  · intro h'
    show h' ∈ alives (.leave (.create cfg lg) p :: s'.log) ↔ (s'.heap h').isSome = true
    have hp0 : (p : Int) ≠ 0 := by have := a.nz; omega
    rw [a.log]
    simp only [alives, if_neg hp0, Int.toNat_natCast, List.mem_cons]
    by_cases hne : h' = p
    · subst hne
      rw [a.here]
      simp
    · simp only [hne, false_or]
      exact a.alv h' hne
  rotate_right
  · intro h' i' hh
    by_cases hne : h' = p
    · subst hne
      have hh' : s'.heap h' = some i' := hh
      rw [a.here] at hh'
      injection hh' with hh'
      refine ⟨a.nz, ?_⟩
      show i' = inst (view h' (_ :: s'.log))
      rw [a.log, view_same hsub, ← hh']
      exact hi
    · show _ ∧ i' = inst (view h' (_ :: s'.log))
      rw [a.log, view_other (by rw [hsub]; exact fun e => hne e.symm)]
      exact a.others h' i' hne hh
  · show s.log <:+ _ :: s'.log
    rw [a.log]
    exact ((List.suffix_cons _ _).trans a.suf).trans (List.suffix_cons _ _)
  · intro h' hh
    have hne : h' ≠ p := by
      rintro rfl
      rw [hd] at hh; cases hh
    have h3 := a.rely h' hne hh
    refine ⟨h3.1, ?_⟩
    show Keeps _ (view h' (_ :: s'.log))
    rw [a.log, view_other (by rw [hsub]; exact fun e => hne e.symm)]
    have h2 := h3.2
    simp only [St.add] at h2
    have h0 : h' ≠ 0 := by
      obtain ⟨i', h4⟩ := Option.isSome_iff_exists.1 h3.1
      exact (a.others h' i' hne h4).1
    rwa [view_other (show subject (.enter (.create cfg lg)) ≠ h' by
      show (0 : Int).toNat ≠ h'; exact fun e => h0 e.symm)] at h2

theorem create_bad (a : At (s.add (.enter (.create cfg lg))) p i l s') (hd : s.heap p = none)
    (hna : p ∉ alives l) (hc : Claim l (.leave (.create cfg lg) 0)) :
    Fin s (.create cfg lg) b 0 { s' with heap := s'.heap.set p none } := by
  have hsub : subject (.leave (.create cfg lg) 0) = 0 := rfl
  refine ⟨by show Claim s'.log _; rw [a.log]; exact hc, ⟨?_, ?_⟩, fun _ => ⟨?_, ?_⟩⟩
  rotate_left
  · intro h'
    show h' ∈ alives (.leave (.create cfg lg) 0 :: s'.log) ↔ (s'.heap.set p none h').isSome = true
    rw [a.log]
    simp only [alives, if_true]
    by_cases hne : h' = p
    · subst hne
      simp [Heap.set, hna]
    · simp only [Heap.set, if_neg hne]
      exact a.alv h' hne
  rotate_right
  · intro h' i' hh
    by_cases hne : h' = p
    · subst hne
      simp [St.add, Heap.set] at hh
    · simp only [St.add, Heap.set, if_neg hne] at hh
      have h3 := a.others h' i' hne hh
      refine ⟨h3.1, ?_⟩
      show i' = inst (view h' (_ :: s'.log))
      rw [a.log, view_other (by rw [hsub]; exact fun e => h3.1 e.symm)]
      exact h3.2
  · show s.log <:+ _ :: s'.log
    rw [a.log]
    exact ((List.suffix_cons _ _).trans a.suf).trans (List.suffix_cons _ _)
  · intro h' hh
    have hne : h' ≠ p := by
      rintro rfl
      rw [hd] at hh; cases hh
    have h3 := a.rely h' hne hh
    obtain ⟨i', h4⟩ := Option.isSome_iff_exists.1 h3.1
    have h0 := (a.others h' i' hne h4).1
    refine ⟨by simpa [St.add, Heap.set, hne] using h3.1, ?_⟩
    show Keeps _ (view h' (_ :: s'.log))
    rw [a.log, view_other (by rw [hsub]; exact fun e => h0 e.symm)]
    have h2 := h3.2
    simp only [St.add] at h2
    rwa [view_other (show subject (.enter (.create cfg lg)) ≠ h' by
      show (0 : Int).toNat ≠ h'; exact fun e => h0 e.symm)] at h2

/-- A line of failures ends: the context and the memory are released. -/
theorem drop0_spec (a : At (s.add (.enter (.create cfg lg))) p i l s') (hd : s.heap p = none) (hna : p ∉ alives l)
    {ctx : Nat} (hctx : i.ssl_context = some ctx) (hv : (view p l).ctx = ctx)
    (hr : ∀ o, Reacts l (.call p o))
    (hh : ∀ x, held x l = held x (beforeEnter l) + one x .io (newIo l) + one x .mem p +
      one x .ctx ctx) :
    wp (sys std) pf (Fin s (.create cfg lg) b) (drop0 p) s' := by
  refine wp_rd a hctx ?_
  refine wp_call a rfl ⟨hr _, hv.symm⟩ ?_
  intro n bs s1 _ a1
  refine wp_call a1 rfl ⟨trivial, trivial⟩ ?_
  intro n2 bs2 s2 _ a2
  refine ⟨⟨_, a2.here⟩, ?_⟩
  refine create_bad a2 hd hna ⟨trivial, ?_⟩
  simp only [Leaves, if_true, beforeEnter]
  intro x
  simp only [held, held1, newIo, hh x]
  omega

theorem drop2_spec (a : At (s.add (.enter (.create cfg lg))) p i l s') (hd : s.heap p = none) (hna : p ∉ alives l)
    {ctx b1 b2 : Nat} (hctx : i.ssl_context = some ctx) (hv : (view p l).ctx = ctx)
    (hb1 : i.in_bio = some b1) (hb2 : i.out_bio = some b2)
    (hr : ∀ o, Reacts l (.call p o))
    (hh : ∀ x, held x l = held x (beforeEnter l) + one x .io (newIo l) + one x .mem p +
      one x .ctx ctx + one x .bio b1 + one x .bio b2) :
    wp (sys std) pf (Fin s (.create cfg lg) b) (drop2 p) s' := by
  refine wp_rd a hb1 ?_
  refine wp_call a rfl ⟨hr _, trivial⟩ ?_
  intro n bs s1 _ a1
  refine wp_rd a1 hb2 ?_
  refine wp_call a1 rfl ⟨trivial, trivial⟩ ?_
  intro n2 bs2 s2 _ a2
  refine drop0_spec a2 hd hna hctx ?_ (fun _ => trivial) fun x => ?_
  · simpa [view, subject, View.next] using hv
  · simp only [held, held1, newIo, newCert, beforeEnter, hh x]
    omega

/-- The callbacks, the logger and the state are initialised. -/
def base (lg : Nat) : Inst where
  on_bytes_received := some 0
  on_bytes_received_context := some 0
  on_io_open_complete := some 0
  on_io_open_complete_context := some 0
  on_io_close_complete := some 0
  on_io_close_complete_context := some 0
  on_io_error := some 0
  on_io_error_context := some 0
  logger_log := some lg
  tlsio_state := some .notOpen

theorem create_ssl_spec {ctx b1 b2 io : Nat}
    (a : At (s.add (.enter (.create cfg lg))) p { base lg with
      ssl_context := some ctx, in_bio := some b1, out_bio := some b2, underlying_io := some io } l s')
    (hd : s.heap p = none) (hna : p ∉ alives l) (hcfg : cfg ≠ none) (hio : newIo l = io)
    (h1 : (view p l).ctx = ctx) (h2 : (view p l).inBio = b1)
    (h3 : (view p l).outBio = b2) (h4 : (view p l).io = io) (h5 : (view p l).logger = lg)
    (hr : ∀ o, Reacts l (.call p o))
    (hh : ∀ x, held x l = held x (beforeEnter l) + one x .io io + one x .mem p +
      one x .ctx ctx + one x .bio b1 + one x .bio b2) :
    wp (sys std) pf (Fin s (.create cfg lg) b) (create_ssl p) s' := by
  refine wp_rd a rfl ?_
  refine wp_call a rfl ⟨hr _, h1.symm⟩ ?_
  intro n bs s1 _ a1
  refine wp_rd a1 rfl ?_
  refine wp_call a1 rfl ⟨trivial, by simp [Calls, view, subject, View.next, h1]⟩ ?_
  intro n2 bs2 s2 _ a2
  refine wp_rd a2 rfl ?_
  refine wp_callP a2 rfl ⟨trivial, by simp [Calls, view, subject, View.next, h1],
    by simpa only [alives] using hna⟩ ?_
  intro n3 bs3 s3 hv a3
  obtain ⟨ssl, rfl⟩ := isPtr_nat hv
  have hpn : ((ssl : Int)).toNat = ssl := Int.toNat_natCast ssl
  rw [hpn]
  refine wp_wr a3 fun s4 a4 => ?_
  split
  next h0 =>
    subst h0
    refine drop2_spec a4 hd hna rfl ?_ rfl rfl (fun _ => trivial) fun x => ?_
    · simp [view, subject, View.next, h1]
    · have := hh x
      simp only [held, held1, newIo, newCert, beforeEnter, Int.natCast_zero, one_zero, hio]
      omega
  next h0 =>
    refine wp_rd a4 rfl ?_
    refine wp_rd a4 rfl ?_
    refine wp_rd a4 rfl ?_
    refine wp_call a4 rfl ⟨trivial, by simp [Calls, view, subject, View.next, h2, h3]⟩ ?_
    intro n5 bs5 s5 _ a5
    refine wp_rd a5 rfl ?_
    refine wp_call a5 rfl ⟨trivial, by simp [Calls, view, subject, View.next]⟩ ?_
    intro n6 bs6 s6 _ a6
    have hp0 : (p : Int) ≠ 0 := by have := a.nz; omega
    refine create_ok a6 hd ?_ hna ⟨trivial, ?_⟩
    · simp [view, subject, View.next, inst, base, Phase.state, h1, h2, h3, h4, h5]
    · simp only [Leaves, if_neg hp0]
      refine ⟨hcfg, ?_, by omega, by simpa only [alives, Int.toNat_natCast] using hna, fun x => ?_⟩
      · simp [view, subject, View.next, h5]
      · have := hh x
        simp [view, subject, View.next, own, held, held1, newIo, newCert, beforeEnter, h1, h4]
        omega

theorem create_io_spec {ctx b1 b2 iface : Nat} {c : Config}
    (a : At (s.add (.enter (.create cfg lg))) p { base lg with
      ssl_context := some ctx, in_bio := some b1, out_bio := some b2 } l s')
    (hd : s.heap p = none) (hna : p ∉ alives l) (hcfg : cfg ≠ none) (hle : lastEnter l = some (.create (some c) lg))
    (h1 : (view p l).ctx = ctx) (h2 : (view p l).inBio = b1) (h3 : (view p l).outBio = b2)
    (hr : ∀ o, Reacts l (.call p o))
    (hh : ∀ x, held x l = held x (beforeEnter l) + one x .mem p +
      one x .ctx ctx + one x .bio b1 + one x .bio b2) :
    wp (sys std) pf (Fin s (.create cfg lg) b) (create_io p iface c lg) s' := by
  refine wp_callP a rfl ⟨hr _, hle, hna⟩ ?_
  intro n3 bs3 s3 hv a3
  obtain ⟨io, rfl⟩ := isPtr_nat hv
  have hpn : ((io : Int)).toNat = io := Int.toNat_natCast io
  rw [hpn]
  refine wp_wr a3 fun s4 a4 => ?_
  split
  next h0 =>
    subst h0
    refine drop2_spec a4 hd hna rfl ?_ rfl rfl (fun _ => trivial) fun x => ?_
    · simp [view, subject, View.next, h1]
    · have := hh x
      simp only [held, held1, newIo, newCert, beforeEnter, Int.natCast_zero, one_zero]
      omega
  next h0 =>
    refine wp_rd a4 rfl ?_
    refine wp_call a4 rfl ⟨trivial, trivial⟩ ?_
    intro n5 bs5 s5 _ a5
    split
    next hn =>
      refine drop2_spec a5 hd hna rfl ?_ rfl rfl (fun _ => trivial) fun x => ?_
      · simp [view, subject, View.next, h1]
      · have := hh x
        simp only [held, held1, newIo, newCert, beforeEnter]
        omega
    next hn =>
      refine wp_rd a5 rfl ?_
      refine wp_call a5 rfl ⟨trivial, trivial⟩ ?_
      intro n6 bs6 s6 _ a6
      split
      next hn =>
        refine drop2_spec a6 hd hna rfl ?_ rfl rfl (fun _ => trivial) fun x => ?_
        · simp [view, subject, View.next, h1]
        · have := hh x
          simp only [held, held1, newIo, newCert, beforeEnter]
          omega
      next hn =>
        refine create_ssl_spec a6 hd hna hcfg rfl ?_ ?_ ?_ ?_ ?_ (fun _ => trivial) fun x => ?_
        · simp [view, subject, View.next, h1]
        · simp [view, subject, View.next, h2]
        · simp [view, subject, View.next, h3]
        · simp [view, subject, View.next]
        · simp [view, subject, View.next]
        · have := hh x
          simp only [held, held1, newIo, newCert, beforeEnter]
          omega

theorem create_bios_spec {ctx : Nat} {c : Config}
    (a : At (s.add (.enter (.create cfg lg))) p { base lg with ssl_context := some ctx } l s')
    (hd : s.heap p = none) (hna : p ∉ alives l) (hcfg : cfg ≠ none) (hio : newIo l = 0) (hle : lastEnter l = some (.create (some c) lg))
    (h1 : (view p l).ctx = ctx)
    (hr : ∀ o, Reacts l (.call p o))
    (hh : ∀ x, held x l = held x (beforeEnter l) + one x .mem p + one x .ctx ctx) :
    wp (sys std) pf (Fin s (.create cfg lg) b) (create_bios p c lg) s' := by
  refine wp_callP a rfl ⟨hr _, hna⟩ ?_
  intro n3 bs3 s3 hv a3
  obtain ⟨b1, rfl⟩ := isPtr_nat hv
  have hpn : ((b1 : Int)).toNat = b1 := Int.toNat_natCast b1
  rw [hpn]
  refine wp_wr a3 fun s4 a4 => ?_
  split
  next h0 =>
    subst h0
    refine drop0_spec a4 hd hna rfl ?_ (fun _ => trivial) fun x => ?_
    · simp [view, subject, View.next, h1]
    · have := hh x
      simp only [held, held1, newIo, newCert, beforeEnter, Int.natCast_zero, one_zero, hio]
      omega
  next h0 =>
    refine wp_callP a4 rfl ⟨trivial, hna⟩ ?_
    intro n5 bs5 s5 hv a5
    obtain ⟨b2, rfl⟩ := isPtr_nat hv
    have hpn : ((b2 : Int)).toNat = b2 := Int.toNat_natCast b2
    rw [hpn]
    refine wp_wr a5 fun s6 a6 => ?_
    split
    next h02 =>
      subst h02
      refine wp_rd a6 rfl ?_
      refine wp_call a6 rfl ⟨trivial, trivial⟩ ?_
      intro n7 bs7 s7 _ a7
      refine drop0_spec a7 hd hna rfl ?_ (fun _ => trivial) fun x => ?_
      · simp [view, subject, View.next, h1]
      · have := hh x
        simp only [held, held1, newIo, newCert, beforeEnter, Int.natCast_zero, one_zero, hio]
        omega
    next h02 =>
      refine wp_callP a6 rfl ⟨trivial, trivial⟩ ?_
      intro n7 bs7 s7 _ a7
      split
      next hif =>
        refine drop2_spec a7 hd hna rfl ?_ rfl rfl (fun _ => trivial) fun x => ?_
        · simp [view, subject, View.next, h1]
        · have := hh x
          simp only [held, held1, newIo, newCert, beforeEnter, Int.natCast_zero, one_zero, hio]
          omega
      next hif =>
        refine create_io_spec a7 hd hna hcfg hle ?_ ?_ ?_ (fun _ => trivial) fun x => ?_
        · simp [view, subject, View.next, h1]
        · simp [view, subject, View.next]
        · simp [view, subject, View.next]
        · have := hh x
          simp only [held, held1, newIo, newCert, beforeEnter]
          omega

end

theorem Inv.add0 {s : S} (hi : Inv s) {e : Event} (he : subject e = 0)
    (hal : alives (e :: s.log) = alives s.log) :
    Inv (s.add e) ∧ Rely s (s.add e) := by
  have key : ∀ h, h ≠ 0 → view h (e :: s.log) = view h s.log := by
    intro h hh
    exact view_other (by rw [he]; exact hh.symm)
  refine ⟨⟨fun h i hh => ?_, fun h => ?_⟩, List.suffix_cons _ _, fun h hh => ?_⟩
  · have := hi.says h i hh
    exact ⟨this.1, by rw [St.add, key h this.1]; exact this.2⟩
  · show h ∈ alives (e :: s.log) ↔ _
    rw [hal]
    exact hi.alive h
  · obtain ⟨i, h2⟩ := Option.isSome_iff_exists.1 hh
    exact ⟨hh, by rw [St.add, key h (hi.says h i h2).1]; exact Keeps.refl _⟩

theorem Rely.trans {s1 s2 s3 : S} (a : Rely s1 s2) (b : Rely s2 s3) : Rely s1 s3 := by
  refine ⟨a.1.trans b.1, fun h hh => ?_⟩
  have h1 := a.2 h hh
  have h2 := b.2 h h1.1
  exact ⟨h2.1, h1.2.trans h2.2⟩

theorem Rely.refl (s : S) : Rely s s := ⟨List.suffix_refl _, fun _ h => ⟨h, Keeps.refl _⟩⟩

theorem create_fin {s : S} {cfg : Option Config} {lg : Nat} {b : Bool} (hi : Inv s) :
    wp (sys std) pf (Fin s (.create cfg lg) b) (body (.create cfg lg))
      (s.add (.enter (.create cfg lg))) := by
  show wp _ _ _ (tlsio_openssl_create cfg lg) _
  cases cfg with
  | none =>
    refine fin_null hi rfl rfl ⟨rfl, ?_⟩
    exact fun x => by simp [held, held1, newIo, beforeEnter, one_zero]
  | some cfg =>
    refine ⟨⟨by simp [Reacts, St.add], trivial⟩, ?_⟩
    have : (sys std).reenters (.malloc 120) = false := rfl
    rw [if_neg (by rw [this]; decide)]
    intro n bs hv
    refine ⟨fun hm => (by cases hm), ?_⟩
    simp only [sys, valid, Bool.and_eq_true, Bool.or_eq_true, beq_iff_eq] at hv
    obtain ⟨p, rfl⟩ := isPtr_nat hv.1
    have hpn : ((p : Int)).toNat = p := Int.toNat_natCast p
    show wp _ _ _ (if ((p : Int)).toNat = 0 then _ else _) _
    rw [hpn]
    have i1 := hi.add0 (e := .enter (.create (some cfg) lg)) rfl rfl
    have i2 := i1.1.add0 (e := .call 0 (.malloc 120)) rfl rfl
    have i3 := i2.1.add0 (e := .ret 0 (.malloc 120) p bs) rfl rfl
    split
    next h0 =>
      subst h0
      have i4 := i3.1.add0 (e := .leave (.create (some cfg) lg) 0) rfl rfl
      refine ⟨⟨trivial, ?_⟩, i4.1, fun _ => ((i1.2.trans i2.2).trans i3.2).trans i4.2⟩
      exact fun x => by simp [held, held1, newIo, beforeEnter, St.add, one_zero]
    next h0 =>
      have hd : s.heap p = none := by
        rcases hv.2 with h | h
        · omega
        · rw [hpn] at h; simpa [St.add] using h
      have i23 := i2.2.trans i3.2
      have a0 : At (s.add (.enter (.create (some cfg) lg))) p {}
          (.ret 0 (.malloc 120) p bs :: .call 0 (.malloc 120) ::
            .enter (.create (some cfg) lg) :: s.log)
          { heap := s.heap.set p (some {}), log := .ret 0 (.malloc 120) p bs :: .call 0 (.malloc 120) ::
            .enter (.create (some cfg) lg) :: s.log } := by
        refine ⟨rfl, by simp [Heap.set], h0, ?_, ?_, ?_, ?_, fun h' hne => ?_, fun h => h⟩
        · intro h' i' hne hh
          simp only [Heap.set, if_neg hne] at hh
          exact i3.1.says h' i' hh
        · intro h' hne hh
          have := i23.2 h' hh
          exact ⟨by simpa [Heap.set, hne, St.add] using this.1, this.2⟩
        · rw [view_other (by exact fun e => h0 e.symm), view_other (by exact fun e => h0 e.symm)]
          exact Keeps.refl _
        · exact (List.suffix_cons _ _).trans (List.suffix_cons _ _)
        · simp only [Heap.set, if_neg hne]
          exact hi.alive h'
      have hna : p ∉ alives s.log := by
        rw [hi.alive, hd]; simp
      show wp _ _ _ (wr p _ >>= _) _
      refine wp_wr a0 fun _ a1 => ?_
      refine wp_wr a1 fun _ a2 => ?_
      refine wp_wr a2 fun _ a3 => ?_
      refine wp_wr a3 fun _ a4 => ?_
      refine wp_wr a4 fun _ a5 => ?_
      refine wp_wr a5 fun _ a6 => ?_
      refine wp_wr a6 fun _ a7 => ?_
      refine wp_wr a7 fun _ a8 => ?_
      refine wp_wr a8 fun _ a9 => ?_
      refine wp_wr a9 fun s10 a10 => ?_
      replace a10 : At _ p (base lg) _ s10 := a10
      clear a0 a1 a2 a3 a4 a5 a6 a7 a8 a9
      refine wp_callP a10 rfl ⟨trivial, hna⟩ ?_
      intro n2 bs2 s2 hv a2
      obtain ⟨ctx, rfl⟩ := isPtr_nat hv
      have hpn2 : ((ctx : Int)).toNat = ctx := Int.toNat_natCast ctx
      rw [hpn2]
      refine wp_wr a2 fun s4 a4 => ?_
      split
      next hc0 =>
        subst hc0
        refine wp_call a4 rfl ⟨trivial, trivial⟩ ?_
        intro n5 bs5 s5 _ a5
        refine ⟨⟨_, a5.here⟩, create_bad a5 hd hna ⟨trivial, ?_⟩⟩
        exact fun x => by simp [held, held1, newIo, beforeEnter, one_zero]; omega
      next hc0 =>
        refine create_bios_spec a4 hd hna (by simp) rfl rfl ?_ (fun _ => trivial) fun x => ?_
        · simp [view, subject, View.next]
        · simp [held, held1, newIo, newCert, beforeEnter]; omega

theorem destroy_fin {s : S} {h : Nat} (hi : Inv s)
    (hl : (h == 0 || (s.heap h).isSome) = true) :
    wp (sys std) pf (Fin s (.destroy h) true) (body (.destroy h)) (s.add (.enter (.destroy h))) := by
  have hw : ∀ n, (Call.destroy h).handle n = h := fun _ => rfl
  refine wp_bind _ _ _ ?_
  rcases null_or hl with h0 | hal
  · subst h0
    refine fin_null hi (hw _) (hw _) ⟨rfl, Or.inl rfl, fun x => ?_⟩
    simp [held, held1, newIo, newCert, beforeEnter]
  · have a := hi.at hal (.destroy h) rfl
    have ha : h ∈ alives (s.add (.enter (.destroy h))).log := (hi.alive h).2 hal
    have hnz := a.nz
    unfold tlsio_openssl_destroy
    rw [if_neg hnz]
    refine wp_rd a rfl ?_
    refine wp_call a rfl (by spec) ?_
    intro n1 bs1 s1 _ a1
    refine wp_rd a1 rfl ?_
    refine wp_call a1 rfl (by spec) ?_
    intro n2 bs2 s2 _ a2
    refine wp_rd a2 rfl ?_
    refine wp_call a2 rfl (by spec) ?_
    intro n3 bs3 s3 _ a3
    refine wp_call a3 rfl (by spec) ?_
    intro n4 bs4 s4 _ a4
    refine ⟨⟨_, a4.here⟩, ?_⟩
    refine ⟨?_, ⟨?_, fun h' => ?_⟩, fun h => by cases h⟩
    · show Claim s4.log _
      rw [a4.log]
      refine ⟨trivial, Or.inr (a4.self ha), fun x => ?_⟩
      rw [if_neg hnz]
      simp [own, held, held1, beforeEnter, view, subject, View.next, Call.handle]
      omega
    · intro h' i' hh
      by_cases hne : h' = h
      · subst hne
        simp [St.add, Heap.set] at hh
      · simp only [St.add, Heap.set, if_neg hne] at hh
        have h3 := a4.others h' i' hne hh
        refine ⟨h3.1, ?_⟩
        show i' = inst (view h' (_ :: s4.log))
        rw [a4.log, view_other (fun e => hne e.symm)]
        exact h3.2
    · show h' ∈ alives (.leave (.destroy h) 0 :: s4.log) ↔ (s4.heap.set h none h').isSome = true
      rw [a4.log]
      by_cases hne : h' = h
      · subst hne
        simp [alives, Heap.set]
      · simp only [Heap.set, if_neg hne]
        rw [← a4.alv h' hne]
        simp [alives, hne]

theorem setoption_fin {s : S} {h : Nat} {name : Option Bytes} {value : Nat} {b : Bool} (hi : Inv s)
    (hl : (h == 0 || (s.heap h).isSome) = true) :
    wp (sys std) pf (Fin s (.setoption h name value) b) (body (.setoption h name value))
      (s.add (.enter (.setoption h name value))) := by
  have hw : ∀ n, (Call.setoption h name value).handle n = h := fun _ => rfl
  show wp _ _ _ (tlsio_openssl_setoption h name value) _
  unfold tlsio_openssl_setoption
  rcases null_or hl with h0 | hal
  · subst h0
    cases name with
    | none => exact fin_null hi (hw _) (hw _) (by spec)
    | some name =>
      exact fin_null hi (hw _) (hw _) ⟨by simp [Reacts, refuses], fun _ x => by
        simp [held, held1, beforeEnter]⟩
  · have a := hi.at hal (.setoption h name value) rfl
    have ha : h ∈ alives (s.add (.enter (.setoption h name value))).log := (hi.alive h).2 hal
    have hnz := a.nz
    cases name with
    | none => exact a.fin (by simp [view, subject, View.next, Call.handle]) hw rfl (by spec)
    | some name =>
      dsimp only
      rw [if_neg hnz]
      split
      next hn =>
        subst hn
        refine wp_rd a rfl ?_
        refine wp_callP a rfl (by spec) ?_
        intro n1 bs1 s1 hv a1
        split
        next hz =>
          refine a1.fin (by simp [view, subject, View.next, Call.handle]) hw rfl ⟨trivial, fun _ x => ?_⟩
          simp [held, held1, newIo, newCert, beforeEnter]
        next hz =>
          refine wp_callP a1 rfl (by spec) ?_
          intro n2 bs2 s2 hv a2
          obtain ⟨bio, rfl⟩ := isPtr_nat hv
          have hpn2 : ((bio : Int)).toNat = bio := Int.toNat_natCast bio
          rw [hpn2]
          split
          next hz =>
            subst hz
            refine a2.fin (by simp [view, subject, View.next, Call.handle]) hw rfl ⟨trivial, fun _ x => ?_⟩
            simp [held, held1, newIo, newCert, beforeEnter, one_zero]
          next hz =>
            refine wp_callP a2 rfl (by spec) ?_
            intro n3 bs3 s3 hv a3
            obtain ⟨x5, rfl⟩ := isPtr_nat hv
            have hpn3 : ((x5 : Int)).toNat = x5 := Int.toNat_natCast x5
            rw [hpn3]
            split
            next hz =>
              subst hz
              refine wp_call a3 rfl (by spec) ?_
              intro n4 bs4 s4 _ a4
              refine a4.fin (by simp [view, subject, View.next, Call.handle]) hw rfl ⟨trivial, fun _ x => ?_⟩
              simp [held, held1, newIo, newCert, beforeEnter, one_zero]
              omega
            next hz =>
              refine wp_call a3 rfl (by spec) ?_
              intro n4 bs4 s4 _ a4
              split
              next hn4 =>
                refine wp_call a4 rfl (by spec) ?_
                intro n5 bs5 s5 _ a5
                refine wp_call a5 rfl (by spec) ?_
                intro n6 bs6 s6 _ a6
                refine a6.fin (by simp [view, subject, View.next, Call.handle]) hw rfl ⟨trivial, fun _ x => ?_⟩
                simp [held, held1, newIo, newCert, beforeEnter]
                omega
              next hn4 =>
                refine wp_call a4 rfl (by spec) ?_
                intro n6 bs6 s6 _ a6
                refine a6.fin (by simp [view, subject, View.next, Call.handle]) hw rfl ⟨trivial, fun _ x => ?_⟩
                simp [held, held1, newIo, newCert, beforeEnter]
                omega
      next hn =>
        refine wp_rd a rfl ?_
        refine wp_open a rfl (by simp [view, subject, View.next, Call.handle]) (by spec) ?_
        intro n bs l' s' _ a' _ _ _
        refine a'.fin (by simp [view, subject, View.next]) hw rfl ⟨trivial, fun h => absurd h hn⟩

/-- The module keeps to its specification in the standard environment. -/
theorem sound : Sound (sys std) pf where
  init := ⟨fun h i hh => (by cases hh), fun h => by simp [alives]⟩
  refl := Rely.refl
  trans := fun _ _ _ => Rely.trans
  body := by
    intro s c b hi hl
    refine ⟨trivial, ?_⟩
    cases c with
    | create cfg lg => exact create_fin hi
    | destroy h =>
      simp only [sys, legal, std, Bool.and_eq_true, Bool.or_false] at hl
      obtain ⟨rfl, hl⟩ := hl
      exact destroy_fin hi hl
    | «open» h cbs => exact open_fin hi hl
    | close h fn ctx => exact close_fin hi hl
    | send h bs fn ctx =>
      simp only [sys, legal, Bool.and_eq_true, decide_eq_true_eq] at hl
      exact send_fin hi hl.1 hl.2
    | dowork h => exact dowork_fin hi hl
    | setoption h name value => exact setoption_fin hi hl
    | uOpen h r => exact uOpen_fin hi hl
    | uClose h => exact uClose_fin hi hl
    | uError h => exact uError_fin hi hl
    | uBytes h bs =>
      simp only [sys, legal, Bool.and_eq_true, decide_eq_true_eq] at hl
      exact uBytes_fin hi hl.1
  loop := fun s h hi hl => decode_round_spec hi hl

end Verif.Tls
