import Verif.Wolf.Props

/-
The functions of `src/tlsio_wolfssl.c`, one by one.
-/
namespace Verif.Wolf
open Verif.Game

/-- Unfold the specification. -/
macro "spec" : tactic => `(tactic| simp [Claim, Reacts, Calls, Leaves, phase, view, View.next,
  subject, Call.handle, tells, refuses, running, beforeEnter, St.add, and_assoc, *])

/-- Unfold what the log tells. -/
macro "vw" : tactic => `(tactic| simp [view, View.next, subject, Call.handle, *])

theorem state_inj {p q : Phase} (h : p.state = q.state) : p = q := by
  cases p <;> cases q <;> first | rfl | cases h

theorem Tidy.of {v v' : View} (t : Tidy v) (h1 : v'.chunk = v.chunk) (h2 : v'.pend = v.pend)
    (h3 : v'.buf = v.buf) : Tidy v' :=
  ⟨h1.trans t.chunk, h2 ▸ t.small, by rw [h2, h3]; exact t.block⟩

theorem says_of {h : Nat} {l : List Event} {i : Inst} {v : View} {junk : List (Option UInt8)}
    (hz : h ≠ 0) (hv : view h l = v) (t : Tidy v) (hi : i = inst v junk) : Says h l i :=
  ⟨hz, hv ▸ t, junk, hv ▸ hi⟩

/-- The last thing a function does. -/
def Ends (s0 : S) (l : List Event) : Prop :=
  ∀ c, (running s0.log).head? = some c → Reacts l (.leave c 0)

section
variable {Q : Unit → S → Prop} {s0 s : S} {h : Nat} {i : Inst} {l : List Event}

theorem indicate_error_spec (a : At s0 h i l s) (hi : Says h l i)
    (hc : (view h l).cbs.errFn ≠ 0 →
      Claim l (.call h (.onError (view h l).cbs.errFn (view h l).cbs.errCtx)))
    (h0 : (view h l).cbs.errFn = 0 → Ends s0 l)
    (hk : ∀ i' l' s', At s0 h i' l' s' → Says h l' i' → Ends s0 l' → Q () s')
    (ha : h ∈ alives s0.log := by assumption) : wp (sys std) pf Q (indicate_error h) s := by
  obtain ⟨hz, ht, junk, rfl⟩ := id hi
  refine wp_rd a rfl ?_
  split
  next h1 => exact hk _ _ _ a hi (h0 h1)
  next h1 =>
    refine wp_rd a rfl ?_
    refine wp_re a rfl (says_of hz (by vw) ht rfl) (hc h1) fun n bs l' s' junk' _ a' t' _ hr => ?_
    refine hk _ _ _ a' (says_of hz (by vw) t' rfl) fun c hc => ?_
    exact ⟨c, by rw [hr]; exact hc, rfl⟩

theorem indicate_open_complete_spec {r : OpenResult} (a : At s0 h i l s) (hi : Says h l i)
    (hc : (view h l).cbs.openFn ≠ 0 →
      Claim l (.call h (.onOpen (view h l).cbs.openFn (view h l).cbs.openCtx r)))
    (h0 : (view h l).cbs.openFn = 0 → Ends s0 l)
    (hk : ∀ i' l' s', At s0 h i' l' s' → Says h l' i' → Ends s0 l' → Q () s')
    (ha : h ∈ alives s0.log := by assumption) :
    wp (sys std) pf Q (indicate_open_complete h r) s := by
  obtain ⟨hz, ht, junk, rfl⟩ := id hi
  refine wp_rd a rfl ?_
  split
  next h1 => exact hk _ _ _ a hi (h0 h1)
  next h1 =>
    refine wp_rd a rfl ?_
    refine wp_re a rfl (says_of hz (by vw) ht rfl) (hc h1) fun n bs l' s' junk' _ a' t' _ hr => ?_
    refine hk _ _ _ a' (says_of hz (by vw) t' rfl) fun c hc => ?_
    exact ⟨c, by rw [hr]; exact hc, rfl⟩

end

theorem toInt_le {n : Nat} (h : 0 < toInt n) : toInt n ≤ n := by
  unfold toInt at *
  have := Int.bmod_def (n : Int) (2 ^ 32)
  split at this <;> omega

attribute [local irreducible] toInt toSize

theorem uClose_fin {s : S} {h : Nat} {b : Bool} (hi : Inv s) (hl : (s.heap h).isSome = true) :
    wp (sys std) pf (Fin s (.uClose h) b) (body (.uClose h)) (s.add (.enter (.uClose h))) := by
  obtain ⟨ht, junk, a⟩ := hi.at hl (.uClose h) rfl
  have ha : h ∈ alives (s.add (.enter (.uClose h))).log := (hi.alive h).2 hl
  have hw : ∀ n, (Call.uClose h).handle n = h := fun _ => rfl
  have hs : Says h (.enter (.uClose h) :: s.log) (inst (view h s.log) junk) :=
    says_of a.nz (by vw) ht rfl
  refine wp_bind _ _ _ ?_
  refine wp_rd a rfl ?_
  split
  next hp =>
    have hp : (view h s.log).phase = .shut := state_inj hp
    refine wp_rd a rfl ?_
    split
    next hz => exact a.fin hs hw rfl (by spec)
    next hz =>
      refine wp_rd a rfl ?_
      refine wp_re a rfl (says_of a.nz (by vw) ht rfl) (by spec) ?_
      intro n bs l' s' junk' _ a' t' _ hr
      refine a'.fin (says_of a.nz (by vw) t' rfl) hw rfl ⟨⟨_, by rw [hr]; rfl, rfl⟩, trivial⟩
  next hp =>
    have hp : (view h s.log).phase ≠ .shut := fun h => hp (by rw [h]; rfl)
    exact a.fin hs hw rfl (by spec)

theorem uError_fin {s : S} {h : Nat} {b : Bool} (hi : Inv s) (hl : (s.heap h).isSome = true) :
    wp (sys std) pf (Fin s (.uError h) b) (body (.uError h)) (s.add (.enter (.uError h))) := by
  obtain ⟨ht, junk, a⟩ := hi.at hl (.uError h) rfl
  have ha : h ∈ alives (s.add (.enter (.uError h))).log := (hi.alive h).2 hl
  have hw : ∀ n, (Call.uError h).handle n = h := fun _ => rfl
  refine wp_bind _ _ _ ?_
  refine wp_rd a rfl ?_
  cases hp : (view h s.log).phase <;> simp only [Phase.state]
  case idle | shut | broken =>
    exact a.fin (says_of a.nz (by vw) ht rfl) hw rfl (by spec)
  case opening | handshake =>
    refine wp_wr a fun s1 a1 => ?_
    refine indicate_open_complete_spec a1 (says_of (v := { view h s.log with phase := .broken })
      a.nz (by vw) (ht.of rfl rfl rfl) rfl) ?_ ?_ ?_
    · spec
    · intro h0 c hc
      injection hc with hc
      subst hc
      simp [view, View.next, subject, Call.handle, hp] at h0
      spec
    · intro i' l' s' a' hs' he
      exact a'.fin hs' hw rfl ⟨he _ rfl, trivial⟩
  case live =>
    refine wp_wr a fun s1 a1 => ?_
    refine indicate_error_spec a1 (says_of (v := { view h s.log with phase := .broken })
      a.nz (by vw) (ht.of rfl rfl rfl) rfl) ?_ ?_ ?_
    · spec
    · intro h0 c hc
      injection hc with hc
      subst hc
      simp [view, View.next, subject, Call.handle, hp] at h0
      spec
    · intro i' l' s' a' hs' he
      exact a'.fin hs' hw rfl ⟨he _ rfl, trivial⟩

theorem uOpen_fin {s : S} {h : Nat} {r : OpenResult} {b : Bool} (hi : Inv s)
    (hl : (s.heap h).isSome = true) :
    wp (sys std) pf (Fin s (.uOpen h r) b) (body (.uOpen h r)) (s.add (.enter (.uOpen h r))) := by
  obtain ⟨ht, junk, a⟩ := hi.at hl (.uOpen h r) rfl
  have ha : h ∈ alives (s.add (.enter (.uOpen h r))).log := (hi.alive h).2 hl
  have hw : ∀ n, (Call.uOpen h r).handle n = h := fun _ => rfl
  refine wp_bind _ _ _ ?_
  unfold on_underlying_io_open_complete
  split
  next hr =>
    refine wp_wr a fun s1 a1 => ?_
    refine indicate_open_complete_spec a1 (says_of (v := { view h s.log with phase := .broken })
      a.nz (by vw) (ht.of rfl rfl rfl) rfl) ?_ ?_ ?_
    · spec
    · intro h0 c hc
      injection hc with hc
      subst hc
      simp [view, View.next, subject, Call.handle] at h0
      spec
    · intro i' l' s' a' hs' he
      exact a'.fin hs' hw rfl ⟨he _ rfl, trivial⟩
  next hr =>
    have hr : r = .ok := Classical.not_not.1 hr
    subst hr
    refine wp_wr a fun s1 a1 => ?_
    refine wp_rd a1 rfl ?_
    refine wp_re a1 rfl (says_of (v := { view h s.log with phase := .handshake })
      a.nz (by vw) (ht.of rfl rfl rfl) rfl) (by spec) ?_
    intro n bs l' s' junk' _ a' t' _ hrun
    have hrun : running l' = .uOpen h .ok :: running s.log := hrun
    split
    next hn =>
      refine indicate_open_complete_spec a' (says_of a.nz (by vw) t' rfl) ?_ ?_ ?_
      · spec
      · intro h0 c hc
        injection hc with hc
        subst hc
        simp [view, View.next, subject] at h0
        spec
      · intro i' l' s' a' hs' he
        exact a'.fin hs' hw rfl ⟨he _ rfl, trivial⟩
    next hn =>
      exact a'.fin (says_of a.nz (by vw) t' rfl) hw rfl (by spec)

theorem wDone_fin {s : S} {h : Nat} {b : Bool} (hi : Inv s) (hl : (s.heap h).isSome = true) :
    wp (sys std) pf (Fin s (.wDone h) b) (body (.wDone h)) (s.add (.enter (.wDone h))) := by
  obtain ⟨ht, junk, a⟩ := hi.at hl (.wDone h) rfl
  have ha : h ∈ alives (s.add (.enter (.wDone h))).log := (hi.alive h).2 hl
  have hw : ∀ n, (Call.wDone h).handle n = h := fun _ => rfl
  refine wp_rd a rfl ?_
  split
  next hp =>
    have hp : (view h s.log).phase = .handshake := state_inj hp
    refine wp_wr a fun s1 a1 => ?_
    refine wp_bind _ _ _ ?_
    refine indicate_open_complete_spec a1 (says_of (v := { view h s.log with phase := .live })
      a.nz (by vw) (ht.of rfl rfl rfl) rfl) ?_ ?_ ?_
    · spec
    · intro h0 c hc
      injection hc with hc
      subst hc
      simp [view, View.next, subject, Call.handle, hp] at h0
      spec
    · intro i' l' s' a' hs' he
      exact a'.fin hs' hw rfl ⟨he _ rfl, trivial⟩
  next hp =>
    have hp : (view h s.log).phase ≠ .handshake := fun h => hp (by rw [h]; rfl)
    exact a.fin (says_of a.nz (by vw) ht rfl) hw rfl (by spec)

theorem wSend_fin {s : S} {h : Nat} {bs : Bytes} {b : Bool} (hi : Inv s)
    (hl : (s.heap h).isSome = true) :
    wp (sys std) pf (Fin s (.wSend h bs) b) (body (.wSend h bs)) (s.add (.enter (.wSend h bs))) := by
  obtain ⟨ht, junk, a⟩ := hi.at hl (.wSend h bs) rfl
  have ha : h ∈ alives (s.add (.enter (.wSend h bs))).log := (hi.alive h).2 hl
  have hw : ∀ n, (Call.wSend h bs).handle n = h := fun _ => rfl
  refine wp_rd a rfl ?_
  refine wp_rd a rfl ?_
  refine wp_rd a rfl ?_
  refine wp_re a rfl (says_of a.nz (by vw) ht rfl) (by spec) ?_
  intro n bs' l' s' junk' _ a' t' _ hrun
  have hrun : running l' = .wSend h bs :: running s.log := hrun
  split
  next hn =>
    refine wp_wr a' fun s1 a1 => ?_
    refine wp_bind _ _ _ ?_
    refine indicate_error_spec a1 (says_of (v := { view h l' with phase := .broken })
      a.nz (by vw) (t'.of rfl rfl rfl) rfl) ?_ ?_ ?_
    · spec
    · intro h0 c hc
      injection hc with hc
      subst hc
      simp [view, View.next, subject, hn] at h0
      spec
    · intro i' l' s' a' hs' he
      exact a'.fin hs' hw rfl ⟨he _ rfl, trivial⟩
  next hn =>
    have hn : n = 0 := Classical.not_not.1 hn
    exact a'.fin (says_of a.nz (by vw) t' rfl) hw rfl (by spec)

theorem open_fin {s : S} {h : Nat} {c : Cbs} {b : Bool} (hi : Inv s)
    (hl : h = 0 ∨ (s.heap h).isSome = true) :
    wp (sys std) pf (Fin s (.open h c) b) (body (.open h c)) (s.add (.enter (.open h c))) := by
  show wp _ _ _ (tlsio_wolfssl_open h c) _
  unfold tlsio_wolfssl_open
  by_cases hz : h = 0
  · rw [if_pos hz]
    subst hz
    exact fin_null hi rfl rfl (by intro _ _ h; cases h) (by spec)
  · rw [if_neg hz]
    have hl := hl.resolve_left hz
    obtain ⟨ht, junk, a⟩ := hi.at hl (.open h c) rfl
    have ha : h ∈ alives (s.add (.enter (.open h c))).log := (hi.alive h).2 hl
    have hw : ∀ n, (Call.open h c).handle n = h := fun _ => rfl
    refine wp_rd a rfl ?_
    split
    next hp =>
      have hp : (view h s.log).phase ≠ .idle := fun h => hp (by rw [h]; rfl)
      exact a.fin (says_of a.nz (by vw) ht rfl) hw rfl (by spec)
    next hp =>
      have hp : (view h s.log).phase = .idle := state_inj (Classical.not_not.1 hp)
      refine wp_wr a fun s1 a => ?_
      refine wp_wr a fun s1 a => ?_
      refine wp_wr a fun s1 a => ?_
      refine wp_wr a fun s1 a => ?_
      refine wp_wr a fun s1 a => ?_
      refine wp_wr a fun s1 a => ?_
      refine wp_wr a fun s1 a => ?_
      refine wp_rd a rfl ?_
      refine wp_re a rfl (says_of (v := { view h s.log with phase := .opening, cbs := c })
        a.nz (by vw) (ht.of rfl rfl rfl) rfl) (by spec) ?_
      intro n bs l' s' junk' _ a' t' _ hrun
      split
      next hn =>
        refine wp_wr a' fun s1 a1 => ?_
        refine a1.fin (says_of (v := { view h l' with phase := .idle })
          a.nz (by vw) (t'.of rfl rfl rfl) rfl) hw rfl (by spec)
      next hn =>
        have hn : n = 0 := Classical.not_not.1 hn
        refine wp_wr a' fun s1 a1 => ?_
        refine wp_rd a1 rfl ?_
        refine wp_re a1 rfl (says_of (v := { view h l' with phase := .handshake })
          a.nz (by vw) (t'.of rfl rfl rfl) rfl) (by spec) ?_
        intro n2 bs2 l2 s2 junk2 _ a2 t2 _ hrun2
        have hrun2 : running l2 = .open h c :: running s.log := hrun2
        split
        next hn2 => exact a2.fin (says_of a.nz (by vw) t2 rfl) hw rfl (by spec)
        next hn2 =>
          have hn2 : n2 = 1 := Classical.not_not.1 hn2
          exact a2.fin (says_of a.nz (by vw) t2 rfl) hw rfl (by spec)

theorem close_fin {s : S} {h fn ctx : Nat} {b : Bool} (hi : Inv s)
    (hl : h = 0 ∨ (s.heap h).isSome = true) :
    wp (sys std) pf (Fin s (.close h fn ctx) b) (body (.close h fn ctx))
      (s.add (.enter (.close h fn ctx))) := by
  show wp _ _ _ (tlsio_wolfssl_close h fn ctx) _
  unfold tlsio_wolfssl_close
  by_cases hz : h = 0
  · rw [if_pos hz]
    subst hz
    exact fin_null hi rfl rfl (by intro _ _ h; cases h) (by spec)
  · rw [if_neg hz]
    have hl := hl.resolve_left hz
    obtain ⟨ht, junk, a⟩ := hi.at hl (.close h fn ctx) rfl
    have ha : h ∈ alives (s.add (.enter (.close h fn ctx))).log := (hi.alive h).2 hl
    have hw : ∀ n, (Call.close h fn ctx).handle n = h := fun _ => rfl
    refine wp_rd a rfl ?_
    split
    next hp =>
      have hp : (view h s.log).phase = .idle ∨ (view h s.log).phase = .shut :=
        hp.imp (fun h => state_inj h) (fun h => state_inj h)
      rcases hp with hp | hp <;>
        exact a.fin (says_of a.nz (by vw) ht rfl) hw rfl (by spec)
    next hp =>
      have h1 : (view h s.log).phase ≠ .idle := fun h => hp (Or.inl (by rw [h]; rfl))
      have h2 : (view h s.log).phase ≠ .shut := fun h => hp (Or.inr (by rw [h]; rfl))
      refine wp_wr a fun s1 a => ?_
      refine wp_wr a fun s1 a => ?_
      refine wp_wr a fun s1 a => ?_
      refine wp_rd a rfl ?_
      refine wp_re a rfl (says_of (v := { view h s.log with phase := .shut, closeFn := fn, closeCtx := ctx })
        a.nz (by vw) (ht.of rfl rfl rfl) rfl) (by spec) ?_
      intro n bs l' s' junk' _ a' t' _ hrun
      split
      next hn => exact a'.fin (says_of a.nz (by vw) t' rfl) hw rfl (by spec)
      next hn =>
        have hn : n = 0 := Classical.not_not.1 hn
        exact a'.fin (says_of a.nz (by vw) t' rfl) hw rfl (by spec)

theorem send_fin {s : S} {h fn ctx : Nat} {bs : Bytes} {b : Bool} (hi : Inv s)
    (hl : h = 0 ∨ (s.heap h).isSome = true) :
    wp (sys std) pf (Fin s (.send h bs fn ctx) b) (body (.send h bs fn ctx))
      (s.add (.enter (.send h bs fn ctx))) := by
  show wp _ _ _ (tlsio_wolfssl_send h bs fn ctx) _
  unfold tlsio_wolfssl_send
  by_cases hz : h = 0
  · rw [if_pos hz]
    subst hz
    exact fin_null hi rfl rfl (by intro _ _ h; cases h) (by spec)
  · rw [if_neg hz]
    have hl := hl.resolve_left hz
    obtain ⟨ht, junk, a⟩ := hi.at hl (.send h bs fn ctx) rfl
    have ha : h ∈ alives (s.add (.enter (.send h bs fn ctx))).log := (hi.alive h).2 hl
    have hw : ∀ n, (Call.send h bs fn ctx).handle n = h := fun _ => rfl
    refine wp_rd a rfl ?_
    split
    next hp =>
      have hp : (view h s.log).phase ≠ .live := fun h => hp (by rw [h]; rfl)
      exact a.fin (says_of a.nz (by vw) ht rfl) hw rfl (by spec)
    next hp =>
      have hp : (view h s.log).phase = .live := state_inj (Classical.not_not.1 hp)
      refine wp_wr a fun s1 a => ?_
      refine wp_wr a fun s1 a => ?_
      refine wp_rd a rfl ?_
      refine wp_re a rfl (says_of (v := { view h s.log with sendFn := fn, sendCtx := ctx })
        a.nz (by vw) (ht.of rfl rfl rfl) rfl) (by spec) ?_
      intro n bs' l' s' junk' _ a' t' _ hrun
      split
      next hn => exact a'.fin (says_of a.nz (by vw) t' rfl) hw rfl (by spec)
      next hn =>
        have hn : toSize n = bs.length := Classical.not_not.1 hn
        exact a'.fin (says_of a.nz (by vw) t' rfl) hw rfl (by spec)

theorem setoption_fin {s : S} {h : Nat} {name : Option Bytes} {value : Nat} {text : Bytes} {b : Bool}
    (hi : Inv s) (hl : h = 0 ∨ (s.heap h).isSome = true) (hv : name = some trustedCerts → value ≠ 0) :
    wp (sys std) pf (Fin s (.setoption h name value text) b) (body (.setoption h name value text))
      (s.add (.enter (.setoption h name value text))) := by
  show wp _ _ _ (tlsio_wolfssl_setoption h name value text) _
  unfold tlsio_wolfssl_setoption
  by_cases hz : h = 0
  · subst hz
    cases name with
    | none => exact fin_null hi rfl rfl (by intro _ _ h; cases h) (by spec)
    | some name =>
      dsimp only
      rw [if_pos rfl]
      exact fin_null hi rfl rfl (by intro _ _ h; cases h) (by spec)
  · have hl := hl.resolve_left hz
    obtain ⟨ht, junk, a⟩ := hi.at hl (.setoption h name value text) rfl
    have ha : h ∈ alives (s.add (.enter (.setoption h name value text))).log := (hi.alive h).2 hl
    have hw : ∀ n, (Call.setoption h name value text).handle n = h := fun _ => rfl
    cases name with
    | none => exact a.fin (says_of a.nz (by vw) ht rfl) hw rfl (by spec)
    | some name =>
      dsimp only
      rw [if_neg hz]
      split
      next hn =>
        subst hn
        refine wp_rd a rfl ?_
        rw [if_neg (hv rfl)]
        refine wp_call a rfl (by spec) ?_
        intro n bs s' _ a'
        split
        next h1 => exact a'.fin (says_of a.nz (by vw) ht rfl) hw rfl (by spec)
        next h1 =>
          have h1 : n = 1 := Classical.not_not.1 h1
          exact a'.fin (says_of a.nz (by vw) ht rfl) hw rfl (by spec)
      next hn =>
        refine wp_rd a rfl ?_
        refine wp_open a rfl (says_of a.nz (by vw) ht rfl) (by spec) ?_
        intro n bs l' s' junk' _ a' t' _ hrun
        exact a'.fin (says_of a.nz (by vw) t' rfl) hw rfl (by spec)

/-! ### The loop that reads -/

/-- At the beginning of a round. -/
theorem Inv.at_loop {s : S} (hi : Inv s) {h : Nat} (hh : (s.heap h).isSome = true) :
    Tidy (view h s.log) ∧ ∃ junk, At s h (inst (view h s.log) junk) s.log s := by
  obtain ⟨i, h2⟩ := Option.isSome_iff_exists.1 hh
  obtain ⟨hz, ht, junk, h3⟩ := hi.says h i h2
  exact ⟨ht, junk, rfl, by rw [h2, h3], hz, fun h' i' _ hh => hi.says h' i' hh, fun h' _ hh => hh,
    rfl, List.suffix_refl _, fun h' _ => hi.alive h', fun h => h⟩

/-- At the end of a round. -/
theorem At.round {s s' : S} {h : Nat} {i : Inst} {l : List Event} (a : At s h i l s')
    (hi : Says h l i) (ha : h ∈ alives s.log) : Inv s' ∧ Rely s s' := by
  refine ⟨a.inv hi ha, by rw [a.log]; exact a.suf, by rw [a.log]; exact a.run, fun h' hh => ?_⟩
  by_cases hne : h' = h
  · subst hne; rw [a.here]; rfl
  · exact a.rely h' hne hh

theorem decode_round_spec {s : S} {h : Nat} (hi : Inv s) (hl : LoopRead h true s) :
    wp (sys std) pf (fun more s' => Inv s' ∧ LoopRead h more s' ∧ Rely s s') (decode_round h) s := by
  obtain ⟨hal, hrun, hf⟩ := hl
  simp only [if_true] at hf
  have ha : h ∈ alives s.log := (hi.alive h).2 hal
  obtain ⟨ht, junk, a⟩ := hi.at_loop hal
  refine wp_rd a rfl ?_
  refine wp_reB a rfl (says_of a.nz (by vw) ht rfl) hf ?_
  intro n bs l' s1 junk' hv a1 t1 _ hrun1
  simp only [valid, isInt, Bool.and_eq_true, decide_eq_true_eq, beq_iff_eq] at hv
  have hrun' : (running l').head? = some (.dowork h) := by rw [hrun1]; exact hrun
  dsimp only
  split
  next hn =>
    have hn0 : ¬ n ≤ 0 := by omega
    have hlen : n = bs.length := by omega
    refine wp_rd a1 rfl ?_
    split
    next h0 =>
      have h0 : (view h l').cbs.bytesFn = 0 := h0
      have := a1.round (says_of a.nz (by vw) t1 rfl) ha
      refine ⟨this.1, ⟨by rw [a1.here]; rfl, by rw [a1.log]; exact hrun', ?_⟩, this.2⟩
      simp only [if_true]
      rw [a1.log]
      clear hv hlen
      spec
    next h0 =>
      have h0 : (view h l').cbs.bytesFn ≠ 0 := h0
      refine wp_rd a1 rfl ?_
      refine wp_re a1 rfl (says_of a.nz (by vw) t1 rfl) ?_ ?_
      · refine ⟨by simp [Reacts, hn0, h0], _, n, l', rfl, hlen, by omega, hrun', h0, rfl, rfl⟩
      intro n2 bs2 l2 s2 junk2 _ a2 t2 _ hrun2
      have hrun2' : (running l2).head? = some (.dowork h) := by rw [hrun2]; exact hrun
      have := a2.round (says_of a.nz (by vw) t2 rfl) ha
      refine ⟨this.1, ⟨by rw [a2.here]; rfl, by rw [a2.log]; exact hrun2', ?_⟩, this.2⟩
      simp only [if_true]
      rw [a2.log]
      spec
  next hn =>
    have := a1.round (says_of a.nz (by vw) t1 rfl) ha
    refine ⟨this.1, ⟨by rw [a1.here]; rfl, by rw [a1.log]; exact hrun', ?_⟩, this.2⟩
    simp only [Bool.false_eq_true, if_false]
    exact ⟨_, _, n, bs, l', a1.log, by omega⟩

theorem dowork_fin {s : S} {h : Nat} {b : Bool} (hi : Inv s)
    (hl : h = 0 ∨ (s.heap h).isSome = true) :
    wp (sys std) pf (Fin s (.dowork h) b) (body (.dowork h)) (s.add (.enter (.dowork h))) := by
  refine wp_bind _ _ _ ?_
  unfold tlsio_wolfssl_dowork
  by_cases hz : h = 0
  · rw [if_pos hz]
    subst hz
    exact fin_null hi rfl rfl (by intro _ _ h; cases h) (by spec)
  · rw [if_neg hz]
    have hl := hl.resolve_left hz
    obtain ⟨ht, junk, a⟩ := hi.at hl (.dowork h) rfl
    have ha : h ∈ alives (s.add (.enter (.dowork h))).log := (hi.alive h).2 hl
    have hw : ∀ n, (Call.dowork h).handle n = h := fun _ => rfl
    have hs : Says h (.enter (.dowork h) :: s.log) (inst (view h s.log) junk) :=
      says_of a.nz (by vw) ht rfl
    refine wp_rd a rfl ?_
    split
    next hp =>
      have hp1 : (view h s.log).phase ≠ .idle := fun h => hp.1 (by rw [h]; rfl)
      have hp2 : (view h s.log).phase ≠ .broken := fun h => hp.2 (by rw [h]; rfl)
      refine ⟨a.inv hs ha, ?_, ?_⟩
      · show Loop (2 * h) true _
        unfold Loop
        rw [if_pos (by omega), show 2 * h / 2 = h by omega]
        refine ⟨by rw [a.here]; rfl, by rw [a.log]; rfl, ?_⟩
        simp only [if_true]
        rw [a.log]
        spec
      · intro s2 hi2 hl2 hr2
        replace hl2 : Loop (2 * h) false s2 := hl2
        unfold Loop at hl2
        rw [if_pos (by omega), show 2 * h / 2 = h by omega] at hl2
        obtain ⟨t2, junk2, a2⟩ := a.later hi2 hr2
        obtain ⟨_, hrun, ssl, num, n, bs2, l', hlog, hn⟩ := hl2
        rw [hlog] at t2 a2 hrun
        refine wp_rd a2 rfl ?_
        refine wp_re a2 rfl (says_of a.nz (by vw) t2 rfl) ?_ ?_
        · refine ⟨?_, rfl, Or.inl hrun⟩
          simp [Reacts, hn, view, View.next, subject]
        · intro n3 bs3 l3 s3 junk3 _ a3 t3 _ hrun3
          have hrun3 : running l3 = .dowork h :: running s.log := hrun3
          exact a3.fin (says_of a.nz (by vw) t3 rfl) hw rfl (by spec)
    next hp =>
      refine a.fin hs hw rfl ⟨?_, trivial⟩
      simp only [Reacts, phase]
      rw [if_neg ?_]
      · trivial
      intro h2
      exact hp ⟨fun h3 => h2.2.1 (state_inj (q := .idle) h3),
        fun h3 => h2.2.2 (state_inj (q := .broken) h3)⟩

/-! ### The block for received bytes -/

theorem block_grow (a : Bytes) (bs : Bytes) (junk : List (Option UInt8)) : ∃ junk',
    copyIn a.length bs (resize (a.map some ++ junk) (a.length + bs.length)) =
      some ((a ++ bs).map some ++ junk') := by
  have hlen : (resize (a.map some ++ junk) (a.length + bs.length)).length = a.length + bs.length := by
    simp [resize]; omega
  refine ⟨(resize (a.map some ++ junk) (a.length + bs.length)).drop (a.length + bs.length), ?_⟩
  unfold copyIn
  rw [if_pos (by omega)]
  have : (resize (a.map some ++ junk) (a.length + bs.length)).take a.length = a.map some := by
    unfold resize
    rw [List.take_append_of_le_length (by simp), List.take_take,
      Nat.min_eq_left (by omega), List.take_append_of_le_length (by simp)]
    exact List.take_of_length_le (by simp)
  rw [this, List.map_append]

theorem block_shrink (a : Bytes) (junk : List (Option UInt8)) :
    resize (a.map some ++ junk) a.length = a.map some := by
  unfold resize
  rw [List.take_append_of_le_length (by simp), List.take_of_length_le (by simp)]
  simp

theorem mapM_some : ∀ a : Bytes, (a.map some).mapM id = some a
  | [] => rfl
  | x :: a => by
    rw [List.map_cons, List.mapM_cons, mapM_some a]
    rfl

theorem block_first {a : Bytes} {junk : List (Option UInt8)} {n : Nat} (hn : n ≤ a.length) :
    firstBytes n (a.map some ++ junk) = some (a.take n) := by
  unfold firstBytes
  rw [if_pos (by simp; omega), List.take_append_of_le_length (by simp; omega), ← List.map_take]
  exact mapM_some _

theorem block_down {a : Bytes} {junk : List (Option UInt8)} {n : Nat} (hn : n ≤ a.length) :
    ∃ junk', moveDown n (a.length - n) (a.map some ++ junk) =
      some ((a.drop n).map some ++ junk') := by
  refine ⟨(a.map some ++ junk).drop (a.length - n), ?_⟩
  unfold moveDown
  rw [if_pos (by simp; omega), List.drop_append_of_le_length (by simp; omega),
    List.take_append_of_le_length (by simp), ← List.map_drop,
    List.take_of_length_le (by simp)]

theorem reallocBlock_spec {β : Type} {Q : β → S → Prop} {s0 s : S} {h : Nat} {v : View}
    {l : List Event} {junk : List (Option UInt8)} {n : Nat} {k : Nat → P β} {i : Inst}
    (a : At s0 h i l s) (hbuf : i.socket_io_read_bytes = some v.buf) (hn : n ≠ 0)
    (hb : i.block = v.pend.map some ++ junk)
    (hc : Claim l (.call h (.realloc v.buf n)))
    (hk0 : ∀ bs s', At s0 h i (.ret h (.realloc v.buf n) 0 bs :: .call h (.realloc v.buf n) :: l) s' →
      wp (sys std) pf Q (k 0) s')
    (hk1 : ∀ (q : Nat) bs s', q ≠ 0 → n < 2 ^ 56 →
      At s0 h { i with block := resize (v.pend.map some ++ junk) n }
        (.ret h (.realloc v.buf n) q bs :: .call h (.realloc v.buf n) :: l) s' →
      wp (sys std) pf Q (k q) s') :
    wp (sys std) pf Q (reallocBlock h n >>= k) s := by
  refine wp_bind _ _ _ ?_
  unfold reallocBlock
  refine wp_rd a hbuf ?_
  rw [if_neg (fun h => hn h.2)]
  refine wp_callP a rfl hc ?_
  intro m bs s' hv a'
  simp only [valid, isPtr, Bool.and_eq_true, Bool.or_eq_true, decide_eq_true_eq, beq_iff_eq] at hv
  split
  next h0 =>
    have : m = 0 := by omega
    subst this
    exact hk0 bs s' a'
  next h0 =>
    refine wp_st a' rfl fun s2 a2 => ?_
    obtain ⟨q, rfl⟩ := Int.eq_ofNat_of_zero_le hv.1
    rw [hb] at a2
    exact hk1 q bs s2 h0 (hv.2.resolve_left (by intro h; apply h0; omega)) a2

theorem uBytes_fin {s : S} {h : Nat} {bs : Bytes} {b : Bool} (hi : Inv s)
    (hl : (s.heap h).isSome = true) (hb : bs.length < 2 ^ 56) (hne : bs ≠ []) :
    wp (sys std) pf (Fin s (.uBytes h bs) b) (body (.uBytes h bs)) (s.add (.enter (.uBytes h bs))) := by
  obtain ⟨ht, junk, a⟩ := hi.at hl (.uBytes h bs) rfl
  have ha : h ∈ alives (s.add (.enter (.uBytes h bs))).log := (hi.alive h).2 hl
  have ha' : h ∈ alives (.enter (.uBytes h bs) :: s.log) := ha
  have hw : ∀ n, (Call.uBytes h bs).handle n = h := fun _ => rfl
  have hsm := ht.small
  have hbl : bs.length ≠ 0 := by simpa using hne
  refine wp_bind _ _ _ ?_
  unfold on_underlying_io_bytes_received
  refine wp_rd a rfl ?_
  rw [Nat.mod_eq_of_lt (by omega : (view h s.log).pend.length + bs.length < 2 ^ 64)]
  have hcl : Claim (.enter (.uBytes h bs) :: s.log) (.call h (.realloc (view h s.log).buf
      ((view h s.log).pend.length + bs.length))) := by
    refine ⟨rfl, by vw, ha', Or.inr (by omega), Or.inl ⟨bs, s.log, rfl, rfl⟩⟩
  refine reallocBlock_spec (v := view h s.log) (junk := junk) a rfl (by omega) rfl hcl ?_ ?_
  · intro bs2 s2 a2
    rw [if_pos rfl]
    refine wp_wr a2 fun s3 a3 => ?_
    refine indicate_error_spec a3 (says_of (v := { view h s.log with phase := .broken, chunk := none })
      a.nz (by vw) (ht.of (by rw [ht.chunk]) rfl rfl) rfl) ?_ ?_ ?_
    · intro h0
      simp [view, View.next, subject, Call.handle] at h0
      refine ⟨?_, ?_⟩
      · spec
      · refine ⟨?_, rfl, rfl, Or.inr (Or.inl ⟨_, _, bs2, bs, _, rfl, rfl⟩)⟩
        vw
    · intro h0 c hc
      injection hc with hc
      subst hc
      simp [view, View.next, subject, Call.handle] at h0
      spec
    · intro i' l' s' a' hs' he
      exact a'.fin hs' hw rfl ⟨he _ rfl, trivial⟩
  · intro q bs2 s2 hq hlt a2
    rw [if_neg hq]
    obtain ⟨junk', hj⟩ := block_grow (view h s.log).pend bs junk
    refine wp_wr a2 fun s3 a3 => ?_
    refine wp_st a3 hj fun s4 a4 => ?_
    refine wp_wr a4 fun s5 a5 => ?_
    refine a5.fin (says_of (v := { view h s.log with
      buf := q, pend := (view h s.log).pend ++ bs, chunk := none }) (junk := junk')
      a.nz (by vw) ⟨rfl, ?_, fun _ => hq⟩ ?_) hw rfl (by spec)
    · show ((view h s.log).pend ++ bs).length < 2 ^ 56
      rw [List.length_append]; exact hlt
    · simp [inst]

/-! ### The loop that waits -/

theorem recv_round_spec {s : S} {h : Nat} (hi : Inv s) (hl : LoopWait h true s) :
    wp (sys std) pf (fun more s' => Inv s' ∧ LoopWait h more s' ∧ Rely s s') (recv_round h) s := by
  obtain ⟨hal, buf, sz, hrun, hf, hd, hr⟩ := hl
  have ha : h ∈ alives s.log := (hi.alive h).2 hal
  obtain ⟨ht, junk, a⟩ := hi.at_loop hal
  refine wp_rd a rfl ?_
  split
  next h0 =>
    have h0 : (view h s.log).pend = [] := List.eq_nil_of_length_eq_zero h0
    refine wp_rd a rfl ?_
    refine wp_re a rfl (says_of a.nz (by vw) ht rfl)
      ⟨hd rfl h0, rfl, Or.inr ⟨buf, sz, hrun, h0⟩⟩ ?_
    intro n bs l' s1 junk' _ a1 t1 _ hrun1
    have hrun' : (running l').head? = some (.wRecv h buf sz) := by rw [hrun1]; exact hrun
    have hw : view h (.ret h (.xioDowork (view h s.log).io) n bs :: l') = view h l' := by vw
    have hre : ∀ e, Reacts (.ret h (.xioDowork (view h s.log).io) n bs :: l') e ↔
        if (view h l').pend = [] ∧ phase h l' ≠ .live then e = .call h (.xioDowork (view h l').io)
        else fetches (view h l') h buf sz e := by
      intro e
      cases hc : running l' with
      | nil => rw [hc] at hrun'; cases hrun'
      | cons c rest =>
        rw [hc] at hrun'
        injection hrun' with hc'
        subst hc'
        simp only [Reacts, hc]
    have hfin := a1.round (says_of a.nz (by vw) t1 rfl) ha
    have hal1 : (s1.heap h).isSome = true := by rw [a1.here]; rfl
    refine wp_rd a1 rfl ?_
    split
    next hp =>
      have hp : (view h l').phase = .live := state_inj hp
      refine ⟨hfin.1, ⟨hal1, buf, sz, by rw [a1.log]; exact hrun', ?_, (by intro h; cases h), ?_⟩,
        hfin.2⟩
      · intro _ e he
        rw [a1.log, hw] at he
        rw [a1.log, hre, if_neg (fun h => h.2 hp)]
        exact he
      · intro r; rw [a1.log]; exact Iff.rfl
    next hp =>
      have hp : (view h l').phase ≠ .live := fun h => hp (by rw [h]; rfl)
      refine ⟨hfin.1, ⟨hal1, buf, sz, by rw [a1.log]; exact hrun', ?_, ?_, ?_⟩, hfin.2⟩
      · rintro (h1 | h1) e he
        · exact absurd rfl h1
        rw [a1.log, hw] at he h1
        rw [a1.log, hre, if_neg (fun h => h1 h.1)]
        exact he
      · intro _ h1
        rw [a1.log, hw] at h1
        rw [a1.log, hre, if_pos ⟨h1, hp⟩, hw]
      · intro r; rw [a1.log]; exact Iff.rfl
  next h0 =>
    have h0 : (view h s.log).pend ≠ [] := fun h => h0 (by show List.length _ = 0; rw [h]; rfl)
    exact ⟨hi, ⟨hal, buf, sz, hrun, fun _ => hf (Or.inr h0), (by intro h; cases h), hr⟩, Rely.refl s⟩

theorem ready_le {bs : Bytes} {sz : Int} (h : 0 < ready bs sz) :
    ready bs sz ≤ sz ∧ (ready bs sz).toNat ≤ bs.length := by
  unfold ready at *
  split at h
  next h1 =>
    have := toInt_le (n := bs.length) (by omega)
    rw [if_pos h1]
    omega
  next h1 =>
    have := toInt_le h
    rw [if_neg h1]
    omega

theorem wRecv_fin {s : S} {h buf : Nat} {sz : Int} {b : Bool} (hi : Inv s)
    (hl : (s.heap h).isSome = true) :
    wp (sys std) pf (Fin s (.wRecv h buf sz) b) (body (.wRecv h buf sz))
      (s.add (.enter (.wRecv h buf sz))) := by
  obtain ⟨ht, junk, a⟩ := hi.at hl (.wRecv h buf sz) rfl
  have ha : h ∈ alives (s.add (.enter (.wRecv h buf sz))).log := (hi.alive h).2 hl
  have hw : ∀ n, (Call.wRecv h buf sz).handle n = h := fun _ => rfl
  have hz := a.nz
  have hv0 : view h (.enter (.wRecv h buf sz) :: s.log) = view h s.log := by vw
  refine ⟨a.inv (says_of a.nz (by vw) ht rfl) ha, ?_, ?_⟩
  · show Loop (2 * h + 1) true _
    unfold Loop
    rw [if_neg (by omega), show (2 * h + 1) / 2 = h by omega]
    refine ⟨by rw [a.here]; rfl, buf, sz, by rw [a.log]; rfl, ?_, ?_, ?_⟩
    · rintro (h1 | h1) e he
      · exact absurd rfl h1
      rw [a.log, hv0] at h1 he
      rw [a.log]
      simp only [Reacts]
      rw [if_neg h1]
      exact he
    · intro _ h1
      rw [a.log, hv0] at h1
      rw [a.log, hv0]
      simp only [Reacts]
      rw [if_pos h1]
      trivial
    · intro r; rw [a.log]; exact Iff.rfl
  · intro s2 hi2 hl2 hr2
    replace hl2 : Loop (2 * h + 1) false s2 := hl2
    unfold Loop at hl2
    rw [if_neg (by omega), show (2 * h + 1) / 2 = h by omega] at hl2
    obtain ⟨t2, junk2, a2⟩ := a.later hi2 hr2
    clear a ht hv0
    obtain ⟨hal2, buf', sz', hrun, hf, -, hrecv⟩ := hl2
    have e : running s2.log = .wRecv h buf sz :: running s.log := a2.run
    rw [e] at hrun
    injection hrun with hrun
    injection hrun with _ hb' hs'
    subst hb' hs'
    have hf := hf (Or.inl (by simp))
    have ha2 : h ∈ alives s2.log := (hi2.alive h).2 hal2
    have hs2 : Says h s2.log (inst (view h s2.log) junk2) := says_of hz rfl t2 rfl
    generalize hL : s2.log = L at *
    generalize hV : view h L = V at *
    refine wp_rd a2 rfl ?_
    dsimp only
    have hready : (if toInt (List.length V.pend) > sz then sz else toInt (List.length V.pend)) =
      ready V.pend sz := rfl
    rw [hready]
    split
    next hpos =>
      obtain ⟨hsz, hle⟩ := ready_le hpos
      generalize hR : ready V.pend sz = R at *
      have hlen : (V.pend.take R.toNat).length = R.toNat := by simp; omega
      have hpne : V.pend ≠ [] := by
        intro h; rw [h] at hle; simp at hle; omega
      refine wp_bind _ _ _ ?_
      unfold take
      refine wp_rd a2 (x := V.pend.take R.toNat) (block_first hle) ?_
      refine wp_call a2 rfl ⟨hf _ ?_, sz, by rw [e]; rfl, ?_, ?_, ?_, ha2⟩ ?_
      · unfold fetches; rw [hR, if_pos hpos]
      · rw [hV]; exact List.take_prefix _ _
      · intro h; rw [h] at hlen; simp at hlen; omega
      · rw [hlen]; omega
      intro n bs s3 _ a3
      have hv3 : view h (.ret h (.copyOut buf (V.pend.take R.toNat)) n bs ::
          .call h (.copyOut buf (V.pend.take R.toNat)) :: L) =
          { V with pend := V.pend.drop R.toNat } := by
        simp only [view, View.next, subject, if_true, hV, hlen]
      refine wp_rd a3 rfl ?_
      obtain ⟨junk3, hj⟩ := block_down (junk := junk2) hle
      refine wp_st a3 hj fun s4 a4 => ?_
      refine wp_wr a4 fun s5 a5 => ?_
      clear a2 a3 a4
      unfold shrink
      refine wp_rd a5 rfl ?_
      have hsm := t2.small
      split
      next hc =>
        have hd : V.pend.drop R.toNat ≠ [] := by
          intro h
          have := congrArg List.length h
          simp at this
          omega
        have hdl : V.pend.length - R.toNat = (V.pend.drop R.toNat).length := by simp
        have hr4 : Claim (.ret h (.copyOut buf (V.pend.take R.toNat)) n bs ::
            .call h (.copyOut buf (V.pend.take R.toNat)) :: L)
            (.call h (.realloc V.buf (V.pend.length - R.toNat))) := by
          refine ⟨?_, ?_⟩
          · have h4 : view h (.call h (.copyOut buf (V.pend.take R.toNat)) :: L) =
              { V with pend := V.pend.drop R.toNat } := by
              simp only [view, View.next, subject, if_true, hV, hlen]
            simp only [Reacts, h4]
            rw [if_neg hd, hdl]
          · refine ⟨by rw [hv3], by rw [alives_inner rfl, alives_inner rfl]; exact ha2,
              Or.inr (by omega), Or.inr ⟨by rw [hv3]; exact t2.chunk, by rw [hv3, hdl], buf, sz, ?_⟩⟩
            show (running L).head? = _
            rw [e]; rfl
        have hre : ∀ {m bs6}, Reacts (.ret h (.realloc V.buf (V.pend.length - R.toNat)) m bs6 ::
            .call h (.realloc V.buf (V.pend.length - R.toNat)) ::
            .ret h (.copyOut buf (V.pend.take R.toNat)) n bs ::
            .call h (.copyOut buf (V.pend.take R.toNat)) :: L) (.leave (.wRecv h buf sz) R) := by
          intro m bs6
          simp only [Reacts, running, e]
          exact ⟨_, rfl⟩
        refine reallocBlock_spec (v := { V with pend := V.pend.drop R.toNat }) (junk := junk3) a5 rfl
          (by omega) rfl hr4 ?_ ?_
        · intro bs6 s6 a6
          refine a6.fin (says_of (v := { V with pend := V.pend.drop R.toNat }) (junk := junk3) hz ?_
            ⟨t2.chunk, ?_, fun _ => t2.block hpne⟩ ?_) hw rfl ⟨hre, ?_, by omega⟩
          · rw [view_cons, view_cons, hv3]
            simp only [subject, if_true]
            simp only [View.next, t2.chunk]
            rfl
          · show (V.pend.drop R.toNat).length < _; rw [← hdl]; omega
          · simp [inst]
          · show R = _; rw [hlen]; omega
        · intro q bs6 s6 hq _ a6
          rw [if_pos hq]
          refine wp_wr a6 fun s7 a7 => ?_
          refine a7.fin (says_of (v := { V with buf := q, pend := V.pend.drop R.toNat }) (junk := [])
            hz ?_ ⟨t2.chunk, ?_, fun _ => hq⟩ ?_) hw rfl ⟨hre, ?_, by omega⟩
          · rw [view_cons, view_cons, hv3]
            simp only [subject, if_true]
            simp only [View.next, t2.chunk]
            rw [if_neg (by omega)]
            rfl
          · show (V.pend.drop R.toNat).length < _; rw [← hdl]; omega
          · rw [hdl, block_shrink]
            simp [inst]
          · show R = _; rw [hlen]; omega
      next hc =>
        have hd : V.pend.drop R.toNat = [] := by
          apply List.eq_nil_of_length_eq_zero; simp; omega
        refine wp_rd a5 rfl ?_
        refine wp_call a5 rfl ⟨?_, ?_⟩ ?_
        · have h4 : view h (.call h (.copyOut buf (V.pend.take R.toNat)) :: L) =
              { V with pend := V.pend.drop R.toNat } := by
              simp only [view, View.next, subject, if_true, hV, hlen]
          simp only [Reacts, h4]
          rw [if_pos hd]
          trivial
        · refine ⟨by rw [hv3], t2.block hpne, by rw [alives_inner rfl, alives_inner rfl]; exact ha2,
            Or.inl (by rw [hv3]; exact hd)⟩
        intro m bs6 s6 _ a6
        refine wp_wr a6 fun s7 a7 => ?_
        refine a7.fin (says_of (v := { V with buf := 0, pend := V.pend.drop R.toNat }) (junk := [])
            hz ?_ ⟨t2.chunk, ?_, fun h => absurd hd h⟩ ?_) hw rfl ⟨trivial, ?_, by omega⟩
        · rw [view_cons, view_cons, hv3]
          simp only [subject, if_true]
          rfl
        · show (V.pend.drop R.toNat).length < _; rw [hd]; decide
        · rw [hd]; simp [inst]; omega
        · show R = _; rw [hlen]; omega
    next hpos =>
      split
      next h0 =>
        refine wp_rd a2 rfl ?_
        split
        next hp =>
          have hp : V.phase = .live := state_inj hp
          refine a2.fin hs2 hw rfl ⟨hf _ ?_, (hrecv _).2 (by decide), by omega⟩
          unfold fetches
          rw [if_neg hpos, if_pos ⟨h0, hp⟩]
        next hp =>
          have hp : V.phase ≠ .live := fun h => hp (by rw [h]; rfl)
          refine a2.fin hs2 hw rfl ⟨hf _ ?_, (hrecv _).2 (by omega), by omega⟩
          unfold fetches
          rw [if_neg hpos, if_neg (fun h => hp h.2)]
      next h0 =>
        refine a2.fin hs2 hw rfl ⟨hf _ ?_, (hrecv _).2 (by omega), by omega⟩
        unfold fetches
        rw [if_neg hpos, if_neg (fun h => h0 h.1)]

end Verif.Wolf
