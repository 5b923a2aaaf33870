import Verif.Tls.Props

/-
The functions of `src/tlsio_openssl.c`, one by one.
-/
namespace Verif.Tls
open Verif.Game

/-- Unfold the specification. -/
macro "spec" : tactic => `(tactic| simp [Claim, Reacts, Calls, Leaves, phase, view, View.next,
  subject, Call.handle, tells, refuses, lastEnter, beforeEnter, Sent, *])

theorem state_inj {p q : Phase} (h : p.state = q.state) : p = q := by
  cases p <;> cases q <;> first | rfl | cases h

section
variable {Q : Unit → S → Prop} {s0 s : S} {h : Nat} {i : Inst} {l : List Event}

theorem indicate_error_spec (a : At s0 h i l s) (hi : i = inst (view h l))
    (hc : (view h l).cbs.errFn ≠ 0 →
      Claim l (.call h (.onError (view h l).cbs.errFn (view h l).cbs.errCtx)))
    (h0 : (view h l).cbs.errFn = 0 → Q () s)
    (h1 : ∀ fn ctx n bs l' s', At s0 h (inst (view h l')) (.ret h (.onError fn ctx) n bs :: l') s' →
      Q () s')
    (ha : h ∈ alives s0.log := by assumption) : wp (sys std) pf Q (indicate_error h) s := by
  subst hi
  refine wp_rd a rfl ?_
  split
  next hz => exact h0 hz
  next hz =>
    refine wp_rd a rfl ?_
    exact wp_re a rfl (by simp [view, subject, View.next]) (hc hz) fun n bs l' s' _ a' _ _ _ =>
      h1 _ _ _ _ _ _ a'

theorem indicate_open_complete_spec {r : OpenResult} (a : At s0 h i l s) (hi : i = inst (view h l))
    (hc : (view h l).cbs.openFn ≠ 0 →
      Claim l (.call h (.onOpen (view h l).cbs.openFn (view h l).cbs.openCtx r)))
    (h0 : (view h l).cbs.openFn = 0 → Q () s)
    (h1 : ∀ fn ctx n bs l' s', At s0 h (inst (view h l')) (.ret h (.onOpen fn ctx r) n bs :: l') s' →
      Q () s')
    (ha : h ∈ alives s0.log := by assumption) : wp (sys std) pf Q (indicate_open_complete h r) s := by
  subst hi
  refine wp_rd a rfl ?_
  split
  next hz => exact h0 hz
  next hz =>
    refine wp_rd a rfl ?_
    exact wp_re a rfl (by simp [view, subject, View.next]) (hc hz) fun n bs l' s' _ a' _ _ _ =>
      h1 _ _ _ _ _ _ a'

end

theorem toSize_eq {x : Int} (h0 : 0 ≤ x) (h1 : x < 2 ^ 64) : toSize x = x.toNat := by
  unfold toSize
  rw [Int.emod_eq_of_lt h0 h1]

theorem toInt_lt (n : Nat) : toInt n < 2 ^ 31 := by
  have h := Int.bmod_lt (x := (n : Int)) (m := 2 ^ 32) (Nat.two_pow_pos 32)
  have e : (((2 ^ 32 : Nat) : Int) + 1) / 2 = 2 ^ 31 := by decide
  rw [e] at h
  exact h

attribute [local irreducible] toInt toSize

theorem write_outgoing_bytes_spec {Q : Int → S → Prop} {s0 s : S} {h : Nat} {i : Inst}
    {l : List Event} {fn ctx : Nat} (a : At s0 h i l s) (hi : i = inst (view h l))
    (hc : Claim l (.call h (.pending (view h l).outBio)))
    (hf : (fn = 0 ∧ ctx = 0 ∧ phase h l = .handshake) ∨
      ∃ bs0, lastEnter l = some (.send h bs0 fn ctx))
    (hk : ∀ r i' l' s', At s0 h i' l' s' → i' = inst (view h l') → l <:+ l' → Sent l' r →
      (∀ e, Reacts l' e) → (fn = 0 → view h l' = view h l) → Q r s')
    (ha : h ∈ alives s0.log := by assumption) :
    wp (sys std) pf Q (write_outgoing_bytes h fn ctx) s := by
  subst hi
  refine wp_rd a rfl ?_
  refine wp_call a rfl hc ?_
  intro n bs s1 _ a1
  split
  next hn =>
    refine hk _ _ _ _ a1 (by simp [view, subject, View.next])
      ((List.suffix_cons _ _).trans (List.suffix_cons _ _)) ⟨hn, rfl⟩ ?_ ?_
    · intro e; simp only [Reacts]; rw [if_neg (by omega)]; trivial
    · intro _; simp [view, subject, View.next]
  next hn =>
    have hp : 0 < toInt n.toNat := by omega
    generalize hnn : toInt n.toNat = num at hn hp
    have hlt : num < 2 ^ 31 := hnn ▸ toInt_lt _
    have hsz : toSize num = num.toNat := toSize_eq (by omega) (by omega)
    refine wp_callP a1 rfl (by spec) ?_
    intro q bs1 s2 hv2 a2
    have hv2' : 0 ≤ q := by
      simp only [valid, isPtr, Bool.and_eq_true, decide_eq_true_eq] at hv2
      exact hv2.1
    rw [hsz] at a2
    split
    next hq =>
      refine hk _ _ _ _ a2 (by simp [view, subject, View.next]) ?_ ?_ ?_ ?_
      · exact (((List.suffix_cons _ _).trans (List.suffix_cons _ _)).trans (List.suffix_cons _ _)).trans
          (List.suffix_cons _ _)
      · exact ⟨by omega, by decide⟩
      · intro e; trivial
      · intro _; simp [view, subject, View.next]
    next hq =>
      refine wp_rd a2 rfl ?_
      refine wp_callB a2 rfl (by spec) ?_
      intro n3 bs3 s3 hv3 a3
      simp only [valid, isInt, Bool.and_eq_true, decide_eq_true_eq, beq_iff_eq] at hv3
      dsimp only
      split
      next hne =>
        refine wp_call a3 rfl (by spec) ?_
        intro n4 bs4 s4 _ a4
        refine hk _ _ _ _ a4 (by simp [view, subject, View.next]) ?_ ?_ ?_ ?_
        · exact ⟨[_, _, _, _, _, _, _, _], rfl⟩
        · exact show (105 : Int) ≠ 0 by decide
        · intro e; trivial
        · intro _; simp [view, subject, View.next]
      next heq =>
        have heq' : n3 = num := by simpa using heq
        subst heq'
        refine wp_rd a3 rfl ?_
        have hcl : Claim (.ret h (.bioRead (view h l).outBio q.toNat n3) n3 bs3 ::
            .call h (.bioRead (view h l).outBio q.toNat n3) :: .ret h (.malloc n3.toNat) q bs1 ::
            .call h (.malloc n3.toNat) :: .ret h (.pending (view h l).outBio) n bs ::
            .call h (.pending (view h l).outBio) :: l)
            (.call h (.xioSend (view h l).io q.toNat bs3 (toSize n3) fn ctx)) := by
          refine ⟨?_, ?_⟩
          · simp only [Reacts, if_true]
            exact ⟨fn, ctx, by rw [hsz]; simp [view, subject, View.next]⟩
          · refine ⟨_, _, _, rfl, ?_, ?_, hp, by omega, by rw [hsz]; omega, ?_⟩
            · simp [view, subject, View.next]
            · simp [view, subject, View.next]
            · rcases hf with ⟨h1, h2, h3⟩ | ⟨bs0, h1⟩
              · refine Or.inl ⟨h1, h2, ?_⟩
                simpa [phase, view, subject, View.next] using h3
              · exact Or.inr ⟨bs0, by simpa [lastEnter] using h1⟩
        by_cases hfn : fn = 0
        · have hre : std.reenters (.xioSend (view h l).io q.toNat bs3 (toSize n3) fn ctx) = false := by
            simp [std, hfn]
          refine wp_call a3 hre hcl ?_
          intro n5 bs5 s5 _ a5
          refine wp_call a5 rfl (by spec) ?_
          intro n4 bs4 s4 _ a4
          split
          next hr =>
            refine hk _ _ _ _ a4 (by simp [view, subject, View.next]) ?_ ?_ ?_ ?_
            · exact ⟨[_, _, _, _, _, _, _, _, _, _], rfl⟩
            · exact ⟨fun h => absurd h (by decide), fun h => absurd h hr⟩
            · intro e; trivial
            · intro _; simp [view, subject, View.next]
          next hr =>
            refine hk _ _ _ _ a4 (by simp [view, subject, View.next]) ?_ ?_ ?_ ?_
            · exact ⟨[_, _, _, _, _, _, _, _, _, _], rfl⟩
            · exact ⟨fun _ => Classical.not_not.1 hr, fun _ => rfl⟩
            · intro e; trivial
            · intro _; simp [view, subject, View.next]
        · have hre : std.reenters (.xioSend (view h l).io q.toNat bs3 (toSize n3) fn ctx) = true := by
            simp [std, hfn]
          refine wp_re a3 hre (by simp [view, subject, View.next]) hcl ?_
          intro n5 bs5 l5 s5 _ a5 _ _ hsuf
          have hsuf' : l <:+ l5 := List.IsSuffix.trans ⟨[_, _, _, _, _, _, _], rfl⟩ hsuf
          refine wp_call a5 rfl (by spec) ?_
          intro n4 bs4 s4 _ a4
          split
          next hr =>
            refine hk _ _ _ _ a4 (by simp [view, subject, View.next]) ?_ ?_ ?_ ?_
            · exact hsuf'.trans ⟨[_, _, _], rfl⟩
            · exact ⟨fun h => absurd h (by decide), fun h => absurd h hr⟩
            · intro e; trivial
            · intro h0; exact absurd h0 hfn
          next hr =>
            refine hk _ _ _ _ a4 (by simp [view, subject, View.next]) ?_ ?_ ?_ ?_
            · exact hsuf'.trans ⟨[_, _, _], rfl⟩
            · exact ⟨fun _ => Classical.not_not.1 hr, fun _ => rfl⟩
            · intro e; trivial
            · intro h0; exact absurd h0 hfn

theorem uClose_fin {s : S} {h : Nat} {b : Bool} (hi : Inv s) (hl : (s.heap h).isSome = true) :
    wp (sys std) pf (Fin s (.uClose h) b) (body (.uClose h)) (s.add (.enter (.uClose h))) := by
  have a := hi.at hl (.uClose h) rfl
  have ha : h ∈ alives (s.add (.enter (.uClose h))).log := (hi.alive h).2 hl
  refine wp_bind _ _ _ ?_
  refine wp_rd a rfl ?_
  have hw : ∀ n, (Call.uClose h).handle n = h := fun _ => rfl
  cases hp : (view h s.log).phase <;> simp only [Phase.state]
  case idle | live | broken =>
    exact a.fin (by simp [view, subject, View.next, Call.handle, hp]) hw rfl (by spec)
  case opening | handshake =>
    refine wp_wr a fun s1 a1 => ?_
    refine indicate_open_complete_spec a1 (by simp [view, subject, View.next, Call.handle, hp, inst, Phase.state]) ?_ ?_ ?_
    · spec
    · spec
      intro h0
      exact a1.fin (by simp [view, subject, View.next, Call.handle, hp, inst, Phase.state]) hw rfl (by spec)
    · intro fn ctx n bs l' s' a'
      exact a'.fin (by simp [view, subject, View.next]) hw rfl (by spec)
  case shut =>
    refine wp_wr a fun s1 a1 => ?_
    refine wp_rd a1 rfl ?_
    split
    next hz =>
      exact a1.fin (by simp [view, subject, View.next, Call.handle, hp, inst, Phase.state]) hw rfl (by spec)
    next hz =>
      refine wp_rd a1 rfl ?_
      refine wp_re a1 rfl (by simp [view, subject, View.next, Call.handle, hp, inst, Phase.state]) (by spec) ?_
      intro n bs l' s' _ a' _ _ _
      exact a'.fin (by simp [view, subject, View.next]) hw rfl (by spec)

theorem uError_fin {s : S} {h : Nat} {b : Bool} (hi : Inv s) (hl : (s.heap h).isSome = true) :
    wp (sys std) pf (Fin s (.uError h) b) (body (.uError h)) (s.add (.enter (.uError h))) := by
  have a := hi.at hl (.uError h) rfl
  have ha : h ∈ alives (s.add (.enter (.uError h))).log := (hi.alive h).2 hl
  refine wp_bind _ _ _ ?_
  refine wp_rd a rfl ?_
  have hw : ∀ n, (Call.uError h).handle n = h := fun _ => rfl
  cases hp : (view h s.log).phase <;> simp only [Phase.state]
  case idle | shut | broken =>
    exact a.fin (by simp [view, subject, View.next, Call.handle, hp]) hw rfl (by spec)
  case opening | handshake =>
    refine wp_wr a fun s1 a1 => ?_
    refine indicate_open_complete_spec a1 (by simp [view, subject, View.next, Call.handle, hp, inst, Phase.state]) ?_ ?_ ?_
    · spec
    · spec
      intro h0
      exact a1.fin (by simp [view, subject, View.next, Call.handle, hp, inst, Phase.state]) hw rfl (by spec)
    · intro fn ctx n bs l' s' a'
      exact a'.fin (by simp [view, subject, View.next]) hw rfl (by spec)
  case live =>
    refine indicate_error_spec a (by simp [view, subject, View.next, Call.handle, hp]) ?_ ?_ ?_
    · spec
    · spec
      intro h0
      exact a.fin (by simp [view, subject, View.next, Call.handle, hp]) hw rfl (by spec)
    · intro fn ctx n bs l' s' a'
      exact a'.fin (by simp [view, subject, View.next]) hw rfl (by spec)

section
variable {s0 s : S} {h : Nat} {i : Inst} {l : List Event}

/-- After OpenSSL has said that the handshake is finished. -/
theorem opened_spec {Q : Unit → S → Prop} {ssl : Nat} {n : Int} {bs : Bytes}
    (a : At s0 h i (.ret h (.initFinished ssl) n bs :: l) s) (hi0 : i = inst (view h l))
    (hn : n ≠ 0) (hs : ssl = (view h l).ssl) (hp : phase h l = .handshake)
    (hk : ∀ i' l' s', At s0 h i' l' s' → i' = inst (view h l') →
      (∀ c, Reacts l' (.leave c 0)) → Q () s')
    (ha : h ∈ alives s0.log := by assumption) :
    wp (sys std) pf Q (opened h) s := by
  unfold phase at hp
  subst hi0
  refine wp_wr a fun s1 a1 => ?_
  have hi : ({ inst (view h l) with tlsio_state := some .opened } : Inst) =
      inst (view h (.ret h (.initFinished ssl) n bs :: l)) := by
    simp [view, subject, View.next, hp, hn, inst, Phase.state]
  refine indicate_open_complete_spec a1 hi ?_ ?_ ?_
  · spec
    exact fun h0 => ⟨_, _, _, _, ⟨⟨rfl, rfl, rfl⟩, rfl⟩, rfl, hn, hp, h0, rfl, rfl⟩
  · intro h0
    refine hk _ _ _ a1 hi ?_
    intro c
    simp [view, subject, View.next, hp, hn] at h0
    spec
  · intro fn ctx n bs l' s' a'
    exact hk _ _ _ a' (by simp [view, subject, View.next]) (fun c => trivial)

theorem send_handshake_bytes_spec {Q : Int → S → Prop} (a : At s0 h i l s)
    (hi : i = inst (view h l)) (hp : phase h l = .handshake)
    (hc : Claim l (.call h (.initFinished (view h l).ssl)))
    (hk0 : ∀ i' l' s', At s0 h i' l' s' → i' = inst (view h l') →
      (∀ c, Reacts l' (.leave c 0)) → Q 0 s')
    (hk1 : ∀ r i' l' s', r ≠ 0 → At s0 h i' l' s' → i' = inst (view h l') →
      (∀ e, Reacts l' e) → phase h l' = .handshake → Q r s')
    (ha : h ∈ alives s0.log := by assumption) :
    wp (sys std) pf Q (send_handshake_bytes h) s := by
  subst hi
  have hp' := hp
  unfold phase at hp'
  refine wp_rd a rfl ?_
  refine wp_call a rfl hc ?_
  intro n bs s1 _ a1
  split
  next hn =>
    refine wp_bind _ _ _ (opened_spec a1 ?_ hn ?_ ?_ ?_)
    · simp [view, subject, View.next]
    · spec
    · spec
    · intro i' l' s' a' hi' hr'
      exact hk0 _ _ _ a' hi' hr'
  next hn =>
    have hn' : n = 0 := Classical.not_not.1 hn
    subst hn'
    have e1 : view h (.ret h (.initFinished (view h l).ssl) 0 bs ::
        .call h (.initFinished (view h l).ssl) :: l) = view h l := by
      simp [view, subject, View.next, hp']
    revert a1
    generalize hl1 : Ev.ret h (.initFinished (view h l).ssl) 0 bs ::
        Ev.call h (.initFinished (view h l).ssl) :: l = l1 at e1 ⊢
    intro a1
    refine wp_rd a1 rfl ?_
    refine wp_call a1 rfl (by subst hl1; spec) ?_
    intro n2 bs2 s2 _ a2
    refine wp_rd a2 rfl ?_
    have e2 : ∀ ssl, view h (.ret h (.doHandshake ssl) n2 bs2 :: .call h (.doHandshake ssl) :: l1)
        = view h l := by
      intro ssl; simp [view, subject, View.next, e1]
    refine wp_call a2 rfl (by spec) ?_
    intro n bs s3 _ a3
    split
    next hn =>
      refine wp_bind _ _ _ (opened_spec a3 ?_ hn ?_ ?_ ?_)
      · simp [view, subject, View.next, e1]
      · spec
      · spec
      · intro i' l' s' a' hi' hr'
        exact hk0 _ _ _ a' hi' hr'
    next hn =>
      have hn' : n = 0 := Classical.not_not.1 hn
      subst hn'
      have e3 : view h (.ret h (.initFinished (view h l).ssl) 0 bs ::
          .call h (.initFinished (view h l).ssl) ::
          .ret h (.doHandshake (view h l).ssl) n2 bs2 :: .call h (.doHandshake (view h l).ssl) :: l1)
          = view h l := by
        simp [view, subject, View.next, e1, hp']
      refine wp_bind _ _ _ ?_
      refine write_outgoing_bytes_spec a3 (by rw [e3]) ?_ (Or.inl ⟨rfl, rfl, ?_⟩) ?_
      · rw [e3]; spec
      · unfold phase; rw [e3]; exact hp'
      · intro r i4 l4 s4 a4 hi4 _ _ hr4 hv4
        have hv4 := (hv4 rfl).trans e3
        split
        next hr => exact hk1 _ _ _ _ (by decide) a4 hi4 hr4 (by unfold phase; rw [hv4]; exact hp')
        next hr =>
          rw [hv4] at hi4
          subst hi4
          refine wp_rd a4 rfl ?_
          refine wp_call a4 rfl ?_ ?_
          · refine ⟨hr4 _, ?_⟩
            spec
          · intro n bs s5 _ a5
            split
            next hn =>
              refine wp_bind _ _ _ (opened_spec a5 ?_ hn ?_ ?_ ?_)
              · simp [view, subject, View.next, hv4]
              · spec
              · spec
              · intro i' l' s' a' hi' hr'
                exact hk0 _ _ _ a' hi' hr'
            next hn =>
              have hn' : n = 0 := Classical.not_not.1 hn
              subst hn'
              refine hk0 _ _ _ a5 ?_ ?_
              · simp [view, subject, View.next, hv4, hp']
              · intro c; spec

theorem give_up_spec {Q : Unit → S → Prop} (a : At s0 h i l s)
    (hi : i = inst (view h l)) (hp : phase h l = .opening ∨ phase h l = .handshake)
    (hr : Reacts l (.call h (.xioClose (view h l).io h)))
    (hk : ∀ i' l' s', At s0 h i' l' s' → i' = inst (view h l') →
      (∀ c, Reacts l' (.leave c 0)) → Q () s')
    (ha : h ∈ alives s0.log := by assumption) :
    wp (sys std) pf Q (give_up h) s := by
  subst hi
  refine wp_rd a rfl ?_
  refine wp_re a rfl (by simp [view, subject, View.next]) ⟨hr, ?_⟩ ?_
  · exact ⟨rfl, rfl, Or.inr hp⟩
  · intro n bs l' s' _ a' _ _ _
    split
    next hn =>
      refine indicate_open_complete_spec a' (by simp [view, subject, View.next]) ?_ ?_ ?_
      · intro h0
        refine ⟨trivial, h0, rfl, rfl, Or.inr (Or.inr ⟨_, _, _, _, _, rfl, hn⟩)⟩
      · intro _
        exact hk _ _ _ a' (by simp [view, subject, View.next]) fun c => trivial
      · intro fn ctx n bs l' s' a'
        exact hk _ _ _ a' (by simp [view, subject, View.next]) (fun c => trivial)
    next hn => exact hk _ _ _ a' (by simp [view, subject, View.next]) fun c => trivial

end

theorem uOpen_fin {s : S} {h : Nat} {r : OpenResult} {b : Bool} (hi : Inv s)
    (hl : (s.heap h).isSome = true) :
    wp (sys std) pf (Fin s (.uOpen h r) b) (body (.uOpen h r)) (s.add (.enter (.uOpen h r))) := by
  have a := hi.at hl (.uOpen h r) rfl
  have ha : h ∈ alives (s.add (.enter (.uOpen h r))).log := (hi.alive h).2 hl
  have e0 : view h (.enter (.uOpen h r) :: s.log) = view h s.log := by
    simp [view, subject, View.next, Call.handle]
  refine wp_bind _ _ _ ?_
  refine wp_rd a rfl ?_
  have hw : ∀ n, (Call.uOpen h r).handle n = h := fun _ => rfl
  by_cases hp : (view h s.log).phase = .opening
  · rw [if_pos (by rw [hp]; rfl)]
    split
    next hr =>
      refine wp_rd a rfl ?_
      refine wp_call a rfl (by spec) ?_
      intro n bs s1 _ a1
      split
      next hn =>
        refine give_up_spec a1 (by simp [view, subject, View.next, Call.handle, hp, hn]) ?_ ?_ ?_
        · spec
        · spec
        · intro i' l' s' a' hi' hr'
          exact a'.fin hi' hw rfl ⟨hr' _, trivial⟩
      next hn =>
        have hn' : n = 0 := Classical.not_not.1 hn
        subst hn'
        refine wp_wr a1 fun s2 a2 => ?_
        refine wp_bind _ _ _ ?_
        refine send_handshake_bytes_spec a2 ?_ ?_ ?_ ?_ ?_
        · simp [view, subject, View.next, Call.handle, hp, inst, Phase.state]
        · spec
        · spec
        · intro i' l' s' a' hi' hr'
          exact a'.fin hi' hw rfl ⟨hr' _, trivial⟩
        · intro r' i' l' s' hne a' hi' hr' hp'
          rw [if_pos hne]
          refine give_up_spec a' hi' (Or.inr hp') (hr' _) ?_
          intro i' l' s' a' hi' hr'
          exact a'.fin hi' hw rfl ⟨hr' _, trivial⟩
    next hr =>
      refine indicate_open_complete_spec a (by rw [e0]) ?_ ?_ ?_
      · spec
        exact fun h0 => ⟨h0, _, _, ⟨rfl, rfl⟩, hr, hp⟩
      · rw [e0]
        intro h0
        exact a.fin (by rw [e0]) hw rfl (by spec)
      · intro fn ctx n bs l' s' a'
        exact a'.fin (by simp [view, subject, View.next]) hw rfl (by spec)
  · rw [if_neg (show ¬ (_ = State.openingUnderlyingIo) from fun h2 => hp (state_inj (q := .opening) h2))]
    exact a.fin (by rw [e0]) hw rfl (by spec)

theorem toSize_len {n : Int} {k : Nat} (hn : isInt n = true) (hk : k < 2 ^ 56)
    (h : toSize n = k) : n = k ∧ toInt k = k := by
  simp only [isInt, decide_eq_true_eq] at hn
  unfold toSize at h
  have h0 : 0 ≤ n := by
    apply Classical.byContradiction
    intro hc
    have : n % 2 ^ 64 = n + 2 ^ 64 := by
      rw [← Int.add_emod_right]
      exact Int.emod_eq_of_lt (by omega) (by omega)
    rw [this] at h
    omega
  rw [Int.emod_eq_of_lt h0 (by omega)] at h
  have : n = k := by omega
  refine ⟨this, ?_⟩
  unfold toInt
  exact Int.bmod_eq_of_le (by omega) (by omega)

theorem uBytes_fin {s : S} {h : Nat} {bs : Bytes} {b : Bool} (hi : Inv s)
    (hl : (s.heap h).isSome = true) :
    wp (sys std) pf (Fin s (.uBytes h bs) b) (body (.uBytes h bs)) (s.add (.enter (.uBytes h bs))) := by
  have a := hi.at hl (.uBytes h bs) rfl
  have ha : h ∈ alives (s.add (.enter (.uBytes h bs))).log := (hi.alive h).2 hl
  refine wp_bind _ _ _ ?_
  refine wp_rd a rfl ?_
  have hw : ∀ n, (Call.uBytes h bs).handle n = h := fun _ => rfl
  refine wp_call a rfl (by spec) ?_
  intro n bs1 s1 _ a1
  split
  next hn =>
    refine wp_wr a1 fun s2 a2 => ?_
    refine indicate_error_spec a2 (by simp [view, subject, View.next, Call.handle, hn, inst, Phase.state]) ?_ ?_ ?_
    · spec
      exact fun h0 => ⟨h0, _, _, _, _, ⟨⟨rfl, rfl, rfl⟩, rfl⟩, hn⟩
    · spec
      intro h0
      exact a2.fin (by simp [view, subject, View.next, Call.handle, hn, inst, Phase.state]) hw rfl (by spec)
    · intro fn ctx n bs l' s' a'
      exact a'.fin (by simp [view, subject, View.next]) hw rfl (by spec)
  next hn =>
    have hn' : toSize n = bs.length := Classical.not_not.1 hn
    have e1 : view h (.ret h (.bioWrite (view h s.log).inBio bs (toInt bs.length)) n bs1 ::
        .call h (.bioWrite (view h s.log).inBio bs (toInt bs.length)) ::
        .enter (.uBytes h bs) :: s.log) =
        { view h s.log with depth := (view h s.log).depth + 1 } := by
      simp [view, subject, View.next, Call.handle, hn']
    have hi1 : inst (view h s.log) = inst (view h (.ret h (.bioWrite (view h s.log).inBio bs
        (toInt bs.length)) n bs1 ::
        .call h (.bioWrite (view h s.log).inBio bs (toInt bs.length)) ::
        .enter (.uBytes h bs) :: s.log)) := by rw [e1]; rfl
    refine wp_rd a1 rfl ?_
    cases hp : (view h s.log).phase <;> simp only [Phase.state]
    case idle | opening | shut | broken =>
      exact a1.fin hi1 hw rfl (by spec)
    case handshake =>
      refine wp_bind _ _ _ ?_
      refine send_handshake_bytes_spec a1 hi1 (by unfold phase; rw [e1]; exact hp) (by spec) ?_ ?_
      · intro i' l' s' a' hi' hr'
        exact a'.fin hi' hw rfl ⟨hr' _, trivial⟩
      · intro r' i' l' s' hne a' hi' hr' hp'
        rw [if_pos hne]
        refine give_up_spec a' hi' (Or.inr hp') (hr' _) ?_
        intro i' l' s' a' hi' hr'
        exact a'.fin hi' hw rfl ⟨hr' _, trivial⟩
    case live =>
      refine ⟨a1.inv hi1 ha, ⟨by rw [a1.here]; rfl, by rw [a1.log, e1]; exact Nat.succ_pos _, ?_⟩, ?_⟩
      · simp only [if_true]
        rw [a1.log]
        exact ⟨by rw [e1]; exact Or.inl hp, by spec⟩
      · intro s2 hi2 hl2 hr2
        have a2 := a1.later hi2 hr2
        obtain ⟨_, _, ssl, num, n, bs2, l', hlog, hn⟩ := hl2
        refine a2.fin rfl hw rfl ?_
        rw [hlog]
        exact ⟨by simp [Reacts, hn], trivial⟩

theorem decode_round_spec {s : S} {h : Nat} (hi : Inv s) (hl : Loop h true s) :
    wp (sys std) pf (fun more s' => Inv s' ∧ Loop h more s' ∧ Rely s s') (decode_round h) s := by
  obtain ⟨hal, hd, hf⟩ := hl
  simp only [if_true] at hf
  obtain ⟨hf, hre⟩ := hf
  obtain ⟨i, h2⟩ := Option.isSome_iff_exists.1 hal
  have h3 := hi.says h i h2
  have ha : h ∈ alives s.log := (hi.alive h).2 hal
  have a : At s h (inst (view h s.log)) s.log s :=
    ⟨rfl, by rw [h2, ← h3.2], h3.1, fun h' i' _ hh => hi.says h' i' hh,
      fun h' _ hh => ⟨hh, Keeps.refl _⟩, Keeps.refl _, List.suffix_refl _, fun h' _ => hi.alive h',
      fun h => h⟩
  have fin : ∀ {i' l' s'}, At s h i' l' s' → i' = inst (view h l') →
      Inv s' ∧ Rely s s' := by
    intro i' l' s' a' hi'
    refine ⟨a'.inv hi' ha, by rw [a'.log]; exact a'.suf, ?_⟩
    intro h' hh
    by_cases hne : h' = h
    · subst hne
      exact ⟨by rw [a'.here]; rfl, by rw [a'.log]; exact a'.keeps⟩
    · rw [a'.log]; exact a'.rely h' hne hh
  refine wp_rd a rfl ?_
  refine wp_callB a rfl ⟨hre, rfl, rfl, hf⟩ ?_
  intro n bs s1 hv a1
  simp only [valid, isInt, Bool.and_eq_true, decide_eq_true_eq, beq_iff_eq] at hv
  have e1 : view h (.ret h (.sslRead (view h s.log).ssl 64) n bs ::
      .call h (.sslRead (view h s.log).ssl 64) :: s.log) = view h s.log := by
    simp [view, subject, View.next]
  dsimp only
  split
  next hn =>
    refine wp_rd a1 rfl ?_
    split
    next h0 =>
      have := fin a1 (by rw [e1])
      refine ⟨this.1, ⟨by rw [a1.here]; rfl, by rw [a1.log, e1]; exact hd, ?_⟩, this.2⟩
      simp only [if_true]
      rw [a1.log]
      refine ⟨by rw [e1]; exact hf, ?_⟩
      have hn' : ¬ n ≤ 0 := by omega
      spec
    next h0 =>
      refine wp_rd a1 rfl ?_
      refine wp_re a1 rfl (by simp [view, subject, View.next]) ?_ ?_
      · refine ⟨?_, _, _, _, rfl, by rw [e1], by omega, hn, ?_, h0, ?_, ?_⟩
        · have hn' : ¬ n ≤ 0 := by omega
          spec
        · simpa [view, subject, View.next] using hf
        · simp [view, subject, View.next]
        · simp [view, subject, View.next]
      · intro n2 bs2 l' s' _ a' hd' hf' _
        have := fin a' (by simp [view, subject, View.next])
        have e3 : view h (.call h (.onBytes (view h s.log).cbs.bytesFn
            (view h s.log).cbs.bytesCtx bs) :: .ret h (.sslRead (view h s.log).ssl 64) n bs ::
            .call h (.sslRead (view h s.log).ssl 64) :: s.log) = view h s.log := by
          simp [view, subject, View.next]
        rw [e3] at hd' hf'
        have hd2 : 0 < (view h l').depth := by rw [← hd']; exact hd
        refine ⟨this.1, ⟨by rw [a'.here]; rfl, ?_, ?_⟩, this.2⟩
        · rw [a'.log]; simpa [view, subject, View.next] using hd2
        · simp only [if_true]
          rw [a'.log]
          refine ⟨by simpa [view, subject, View.next] using hf' hd2 hf, ?_⟩
          spec
  next hn =>
    have := fin a1 (by rw [e1])
    refine ⟨this.1, ⟨by rw [a1.here]; rfl, by rw [a1.log, e1]; exact hd, ?_⟩, this.2⟩
    simp only [Bool.false_eq_true, if_false]
    exact ⟨_, _, _, _, _, a1.log, by omega⟩

/-- The handle of a public function: NULL or alive. -/
theorem null_or {s : S} {h : Nat} (hl : (h == 0 || (s.heap h).isSome) = true) :
    h = 0 ∨ (s.heap h).isSome = true := by
  simpa using hl

theorem open_fin {s : S} {h : Nat} {cbs : Cbs} {b : Bool} (hi : Inv s)
    (hl : (h == 0 || (s.heap h).isSome) = true) :
    wp (sys std) pf (Fin s (.open h cbs) b) (body (.open h cbs)) (s.add (.enter (.open h cbs))) := by
  have hw : ∀ n, (Call.open h cbs).handle n = h := fun _ => rfl
  rcases null_or hl with h0 | hal
  · subst h0
    exact fin_null hi (hw _) (hw _) (by spec)
  · have a := hi.at hal (.open h cbs) rfl
    have ha : h ∈ alives (s.add (.enter (.open h cbs))).log := (hi.alive h).2 hal
    have hnz := a.nz
    show wp _ _ _ (tlsio_openssl_open h cbs) _
    unfold tlsio_openssl_open
    rw [if_neg hnz]
    refine wp_rd a rfl ?_
    by_cases hp : (view h s.log).phase = .idle
    · rw [if_neg (by rw [hp]; exact fun h => h rfl)]
      refine wp_wr a fun s1 a1 => ?_
      refine wp_wr a1 fun s2 a2 => ?_
      refine wp_wr a2 fun s3 a3 => ?_
      refine wp_wr a3 fun s4 a4 => ?_
      refine wp_wr a4 fun s5 a5 => ?_
      refine wp_wr a5 fun s6 a6 => ?_
      refine wp_wr a6 fun s7 a7 => ?_
      replace a7 : At _ h (inst { view h s.log with phase := .opening, cbs := cbs }) _ s7 := a7
      clear a1 a2 a3 a4 a5 a6
      refine wp_rd a7 rfl ?_
      refine wp_re a7 rfl ?_ (by spec; exact ⟨_, _, ⟨rfl, rfl⟩, hp, rfl⟩) ?_
      · simp [view, subject, View.next, Call.handle, hp, inst, Phase.state]
      · intro n bs l' s' _ a' _ _ _
        split
        next hn => exact a'.fin (by simp [view, subject, View.next]) hw rfl (by spec; exact ⟨_, _, ⟨rfl, rfl⟩, by decide⟩)
        next hn => exact a'.fin (by simp [view, subject, View.next]) hw rfl (by spec; exact ⟨_, _, ⟨rfl, rfl⟩, fun _ => Classical.not_not.1 hn, fun _ => rfl⟩)
    · rw [if_pos (show ¬ (_ = State.notOpen) from fun h2 => hp (state_inj (q := .idle) h2))]
      exact a.fin (by simp [view, subject, View.next, Call.handle, hp]) hw rfl
        (by spec)

theorem close_fin {s : S} {h fn ctx : Nat} {b : Bool} (hi : Inv s)
    (hl : (h == 0 || (s.heap h).isSome) = true) :
    wp (sys std) pf (Fin s (.close h fn ctx) b) (body (.close h fn ctx))
      (s.add (.enter (.close h fn ctx))) := by
  have hw : ∀ n, (Call.close h fn ctx).handle n = h := fun _ => rfl
  rcases null_or hl with h0 | hal
  · subst h0
    exact fin_null hi (hw _) (hw _) (by spec)
  · have a := hi.at hal (.close h fn ctx) rfl
    have ha : h ∈ alives (s.add (.enter (.close h fn ctx))).log := (hi.alive h).2 hal
    have hnz := a.nz
    show wp _ _ _ (tlsio_openssl_close h fn ctx) _
    unfold tlsio_openssl_close
    rw [if_neg hnz]
    refine wp_rd a rfl ?_
    by_cases hp : (view h s.log).phase = .idle ∨ (view h s.log).phase = .shut
    · rw [if_pos (by rcases hp with hp | hp <;> simp [hp, Phase.state])]
      refine a.fin (by simp [view, subject, View.next, Call.handle, hp]) hw rfl ?_
      rcases hp with hp | hp <;> (spec)
    · rw [if_neg (show ¬ (_ = State.notOpen ∨ _ = State.closing) from fun h2 => hp
        (h2.imp (state_inj (q := .idle)) (state_inj (q := .shut))))]
      refine wp_wr a fun s1 a1 => ?_
      refine wp_wr a1 fun s2 a2 => ?_
      refine wp_wr a2 fun s3 a3 => ?_
      replace a3 : At _ h (inst { view h s.log with
        phase := .shut, closeFn := fn, closeCtx := ctx }) _ s3 := a3
      clear a1 a2
      refine wp_rd a3 rfl ?_
      have hp1 : ¬ (view h s.log).phase = .idle := fun h => hp (Or.inl h)
      have hp2 : ¬ (view h s.log).phase = .shut := fun h => hp (Or.inr h)
      refine wp_re a3 rfl ?_ (by spec; exact ⟨_, _, _, ⟨⟨rfl, rfl⟩, rfl⟩, hp1, hp2⟩) ?_
      · simp [view, subject, View.next, Call.handle, hp, inst, Phase.state]
      · intro n bs l' s' _ a' _ _ _
        split
        next hn => exact a'.fin (by simp [view, subject, View.next]) hw rfl (by spec)
        next hn => exact a'.fin (by simp [view, subject, View.next]) hw rfl (by spec)

theorem dowork_fin {s : S} {h : Nat} {b : Bool} (hi : Inv s)
    (hl : (h == 0 || (s.heap h).isSome) = true) :
    wp (sys std) pf (Fin s (.dowork h) b) (body (.dowork h)) (s.add (.enter (.dowork h))) := by
  have hw : ∀ n, (Call.dowork h).handle n = h := fun _ => rfl
  refine wp_bind _ _ _ ?_
  rcases null_or hl with h0 | hal
  · subst h0
    exact fin_null hi (hw _) (hw _) (by spec)
  · have a := hi.at hal (.dowork h) rfl
    have ha : h ∈ alives (s.add (.enter (.dowork h))).log := (hi.alive h).2 hal
    have hnz := a.nz
    unfold tlsio_openssl_dowork
    rw [if_neg hnz]
    refine wp_rd a rfl ?_
    by_cases hp : (view h s.log).phase ≠ .idle ∧ (view h s.log).phase ≠ .broken
    · rw [if_pos (show _ ≠ State.notOpen ∧ _ ≠ State.error from
        ⟨fun h2 => hp.1 (state_inj (q := .idle) h2), fun h2 => hp.2 (state_inj (q := .broken) h2)⟩)]
      refine wp_rd a rfl ?_
      refine wp_re a rfl (by simp [view, subject, View.next, Call.handle]) (by spec) ?_
      intro n bs l' s' _ a' _ _ _
      exact a'.fin (by simp [view, subject, View.next]) hw rfl (by spec)
    · rw [if_neg (by
        intro h2
        refine hp ⟨fun h3 => h2.1 (by rw [h3]; rfl), fun h3 => h2.2 (by rw [h3]; rfl)⟩)]
      refine a.fin (by simp [view, subject, View.next, Call.handle]) hw rfl ⟨?_, trivial⟩
      simp only [Reacts, phase]
      rw [if_neg fun h => hp h.2]
      trivial

theorem send_fin {s : S} {h fn ctx : Nat} {bs : Bytes} {b : Bool} (hi : Inv s)
    (hl : (h == 0 || (s.heap h).isSome) = true) (hb : bs.length < 2 ^ 56) :
    wp (sys std) pf (Fin s (.send h bs fn ctx) b) (body (.send h bs fn ctx))
      (s.add (.enter (.send h bs fn ctx))) := by
  have hw : ∀ n, (Call.send h bs fn ctx).handle n = h := fun _ => rfl
  rcases null_or hl with h0 | hal
  · subst h0
    exact fin_null hi (hw _) (hw _) (by spec)
  · have a := hi.at hal (.send h bs fn ctx) rfl
    have ha : h ∈ alives (s.add (.enter (.send h bs fn ctx))).log := (hi.alive h).2 hal
    have hnz := a.nz
    show wp _ _ _ (tlsio_openssl_send h bs fn ctx) _
    unfold tlsio_openssl_send
    rw [if_neg hnz]
    refine wp_rd a rfl ?_
    by_cases hp : (view h s.log).phase = .live
    · rw [if_neg (by rw [hp]; exact fun h => h rfl)]
      refine wp_rd a rfl ?_
      refine wp_call a rfl (by spec; exact ⟨_, _, _, ⟨⟨rfl, rfl⟩, rfl⟩, hp, rfl⟩) ?_
      intro n bs1 s1 hv a1
      split
      next hn =>
        refine a1.fin (by simp [view, subject, View.next, Call.handle]) hw rfl ?_
        spec
      next hn =>
        have hn' : toSize n = bs.length := Classical.not_not.1 hn
        have hlen := toSize_len hv hb hn'
        refine wp_bind _ _ _ ?_
        refine write_outgoing_bytes_spec a1 (by simp [view, subject, View.next, Call.handle])
          ⟨by simp [Reacts, hn', view, subject, View.next, Call.handle], rfl⟩ (Or.inr ⟨bs, rfl⟩) ?_
        intro r i' l' s' a' hi' hsuf hsent hre _
        have key : ∃ l0 ssl bs' l2, l' = l0 ++
            .ret h (.sslWrite ssl bs bs.length) bs.length bs' ::
            .call h (.sslWrite ssl bs bs.length) ::
            .enter (.send h bs fn ctx) :: l2 ∧ phase h l2 = .live ∧ h ≠ 0 := by
          obtain ⟨l0, hl0⟩ := hsuf
          refine ⟨l0, (view h s.log).ssl, bs1, s.log, ?_, hp, hnz⟩
          rw [← hl0, hlen.2, ← hlen.1]
        split
        next hr =>
          refine a'.fin hi' hw rfl ⟨hre _, ?_, fun h => absurd h (by decide)⟩
          revert hsent
          unfold Sent
          split <;> simp_all
        next hr =>
          have hr' : r = 0 := Classical.not_not.1 hr
          subst hr'
          exact a'.fin hi' hw rfl ⟨hre _, hsent, fun _ => key⟩
    · rw [if_pos (show ¬ (_ = State.opened) from fun h2 => hp (state_inj (q := .live) h2))]
      exact a.fin (by simp [view, subject, View.next, Call.handle]) hw rfl
        (by spec)

end Verif.Tls
