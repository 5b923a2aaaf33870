import Verif.Schan.Props

/-
The functions of `src/tlsio_schannel.c`, one by one.
-/
namespace Verif.Schan
open Verif.Game

/-- Unfold the specification. -/
macro "spec" : tactic => `(tactic| simp [Claim, Reacts, Calls, Leaves, phase, view, View.next,
  View.resized, subject, Call.handle, tells, tellsError, tellsOpen, tellsClose, ends, fails,
  beforeEnter, St.add, and_assoc, *])

/-- Unfold what the log tells. -/
macro "vw" : tactic => `(tactic| simp [view, View.next, View.resized, View.keep, subject,
  Call.handle, *])

/-- The reaction is what the specification says. -/
macro "told" : tactic => `(tactic| (intro e he; simp [view, View.next, View.resized, subject,
  Call.handle, tells, tellsError, tellsOpen, tellsClose, ends, *] at he; spec))

theorem view_ret {h : Nat} {o : Op} {n : Int} {bs : Bytes} {l : List Event} :
    view h (.ret h o n bs :: l) = (view h l).next (.ret h o n bs) := if_pos rfl

theorem view_call {h : Nat} {o : Op} {l : List Event} :
    view h (.call h o :: l) = (view h l).next (.call h o) := if_pos rfl

theorem state_inj {p q : Phase} (h : p.state = q.state) : p = q := by
  cases p <;> cases q <;> first | rfl | cases h

theorem Tidy.of {v v' : View} (t : Tidy v) (h1 : v'.chunk = v.chunk) (h2 : v'.pend = v.pend)
    (h3 : v'.cap = v.cap) (hp : v'.phase ≠ .handshake ∧ v'.phase ≠ .live)
    (h4 : v'.receiving = v.receiving := by exact rfl) (h5 : v'.raw = v.raw := by exact rfl)
    (h6 : v'.spoilt = v.spoilt := by exact rfl) : Tidy v' :=
  ⟨h1.trans t.chunk, by rw [h2, h3]; exact t.fits, by rw [h3]; exact t.small,
    fun h => h.elim (fun h => absurd h hp.1) (fun h => absurd h hp.2),
    fun h => h.elim (fun h => absurd h hp.1) (fun h => absurd h hp.2),
    fun h => h.elim (fun h => absurd h hp.1) (fun h => absurd h hp.2), fun h1 => by
      unfold Whole
      rw [h2, h5]
      rw [h4] at h1
      rw [h6]; exact t.whole h1⟩

theorem says_of {h : Nat} {l : List Event} {i : Inst} {v : View} {junk : List (Option UInt8)}
    (hz : h ≠ 0) (hv : view h l = v) (t : Tidy v) (hi : i = inst v junk)
    (hj : v.pend.length + junk.length = v.cap) : Says h l i :=
  ⟨hz, hv ▸ t, junk, hv ▸ hi, by rw [hv]; exact hj⟩

/-- The last thing a function does. -/
def Ends (l : List Event) : Prop := ∀ c, Reacts l (.leave c 0)

/-- When a delivery has been dealt with, the bytes that wait are as they came. -/
def Clean (s0 : S) (h : Nat) (v : View) : Prop :=
  (∃ bs t, s0.log = .enter (.uBytes h bs) :: t) → v.receiving = true ∧ Whole v

theorem clean_other {s : S} {c : Call} {h : Nat} {v : View}
    (hc : ∀ h bs, c ≠ .uBytes h bs := by exact (by intro _ _ h; cases h)) :
    Clean (s.add (.enter c)) h v := by
  rintro ⟨bs, t, hx⟩
  injection hx with hx
  injection hx with hx
  exact absurd hx (hc _ _)

theorem Keeps.clean {s0 : S} {h : Nat} {v v' : View} (k : Keeps v v') (hc : Clean s0 h v) :
    Clean s0 h v' := by
  intro hx
  obtain ⟨h1, h2⟩ := hc hx
  obtain ⟨h3, h4, h5, -, h6⟩ := k.same h1
  exact ⟨h3, by unfold Whole; rw [h4, h5, h6]; exact h2⟩

theorem Whole.keep {v : View} {n : Int} (hw : Whole v) : Whole (v.keep n) := by
  intro hs
  show lastN n v.pend = lastN n v.raw
  rw [hw hs]

/-- The instance is as the log tells, and the delivery has been dealt with. -/
def SaysC (s0 : S) (h : Nat) (l : List Event) (i : Inst) : Prop :=
  Says h l i ∧ Clean s0 h (view h l)

theorem saysC_of {s0 : S} {h : Nat} {l : List Event} {i : Inst} {v : View}
    {junk : List (Option UInt8)}
    (hz : h ≠ 0) (hv : view h l = v) (t : Tidy v) (hi : i = inst v junk)
    (hj : v.pend.length + junk.length = v.cap) (hc : Clean s0 h v) : SaysC s0 h l i :=
  ⟨says_of hz hv t hi hj, hv ▸ hc⟩

/-- What is to be shown of a function that ends here. -/
def Done (s0 : S) (h : Nat) (Q : Unit → S → Prop) : Prop :=
  ∀ i l s, At s0 h i l s → SaysC s0 h l i → Ends l → Q () s

theorem ends_leave (c : Call) : ends (.leave c 0) := ⟨c, rfl⟩

section
variable {Q : Unit → S → Prop} {s0 s : S} {h : Nat} {i : Inst} {l : List Event}

theorem indicate_error_spec (a : At s0 h i l s) (hi : SaysC s0 h l i)
    (hr : ∀ e, tellsError e h (view h l) → Reacts l e)
    (hc : (view h l).cbs.errFn ≠ 0 →
      Calls l h (.onError (view h l).cbs.errFn (view h l).cbs.errCtx))
    (hk : Done s0 h Q)
    (ha : h ∈ alives s0.log := by assumption) : wp (sys std) pf Q (indicate_error h) s := by
  obtain ⟨⟨hz, ht, junk, rfl, hj⟩, hcl⟩ := id hi
  refine wp_rd a rfl ?_
  split
  next h1 =>
    have h1 : (view h l).cbs.errFn = 0 := h1
    exact hk _ _ _ a hi fun c => hr _ (by unfold tellsError tells; rw [if_pos h1]; exact ends_leave c)
  next h1 =>
    have h1 : (view h l).cbs.errFn ≠ 0 := h1
    refine wp_rd a rfl ?_
    refine wp_re a rfl (says_of hz (by vw) ht rfl hj)
      ⟨hr _ (by unfold tellsError tells; rw [if_neg h1]), hc h1⟩
      fun n bs l' s' junk' _ a' t' hj' hkp _ => ?_
    exact hk _ _ _ a' (saysC_of hz (by vw) t' rfl hj' (hkp.clean hcl)) ends_leave

theorem indicate_open_complete_spec {r : OpenResult} (a : At s0 h i l s) (hi : SaysC s0 h l i)
    (hr : ∀ e, tellsOpen e h (view h l) r → Reacts l e)
    (hc : (view h l).cbs.openFn ≠ 0 →
      Calls l h (.onOpen (view h l).cbs.openFn (view h l).cbs.openCtx r))
    (hk : Done s0 h Q)
    (ha : h ∈ alives s0.log := by assumption) :
    wp (sys std) pf Q (indicate_open_complete h r) s := by
  obtain ⟨⟨hz, ht, junk, rfl, hj⟩, hcl⟩ := id hi
  refine wp_rd a rfl ?_
  split
  next h1 =>
    have h1 : (view h l).cbs.openFn = 0 := h1
    exact hk _ _ _ a hi fun c => hr _ (by unfold tellsOpen tells; rw [if_pos h1]; exact ends_leave c)
  next h1 =>
    have h1 : (view h l).cbs.openFn ≠ 0 := h1
    refine wp_rd a rfl ?_
    refine wp_re a rfl (says_of hz (by vw) ht rfl hj)
      ⟨hr _ (by unfold tellsOpen tells; rw [if_neg h1]), hc h1⟩
      fun n bs l' s' junk' _ a' t' hj' hkp _ => ?_
    exact hk _ _ _ a' (saysC_of hz (by vw) t' rfl hj' (hkp.clean hcl)) ends_leave

theorem indicate_close_complete_spec (a : At s0 h i l s) (hi : SaysC s0 h l i)
    (hr : ∀ e, tellsClose e h (view h l) → Reacts l e)
    (hc : (view h l).closeFn ≠ 0 → Calls l h (.onClose (view h l).closeFn (view h l).closeCtx))
    (hk : Done s0 h Q)
    (ha : h ∈ alives s0.log := by assumption) :
    wp (sys std) pf Q (indicate_close_complete h) s := by
  obtain ⟨⟨hz, ht, junk, rfl, hj⟩, hcl⟩ := id hi
  refine wp_rd a rfl ?_
  split
  next h1 =>
    have h1 : (view h l).closeFn = 0 := h1
    exact hk _ _ _ a hi fun c => hr _ (by unfold tellsClose tells; rw [if_pos h1]; exact ends_leave c)
  next h1 =>
    have h1 : (view h l).closeFn ≠ 0 := h1
    refine wp_rd a rfl ?_
    refine wp_re a rfl (says_of hz (by vw) ht rfl hj)
      ⟨hr _ (by unfold tellsClose tells; rw [if_neg h1]), hc h1⟩
      fun n bs l' s' junk' _ a' t' hj' hkp _ => ?_
    exact hk _ _ _ a' (saysC_of hz (by vw) t' rfl hj' (hkp.clean hcl)) ends_leave

theorem fail_spec {v : View} {junk : List (Option UInt8)} (a : At s0 h (inst v junk) l s)
    (hv : view h l = { v with phase := .broken }) (t : Tidy { v with phase := .broken })
    (hj : v.pend.length + junk.length = v.cap)
    (hr : ∀ e, tellsError e h v → Reacts l e)
    (hc : v.cbs.errFn ≠ 0 → Calls l h (.onError v.cbs.errFn v.cbs.errCtx))
    (hk : Done s0 h Q) (hcl : Clean s0 h v)
    (ha : h ∈ alives s0.log := by assumption) : wp (sys std) pf Q (fail h) s := by
  refine wp_wr a fun s1 a1 => ?_
  refine indicate_error_spec a1 (saysC_of a.nz hv t rfl hj hcl) ?_ ?_ hk
  · rw [hv]; exact hr
  · rw [hv]; exact hc

theorem fail_open_spec {v : View} {junk : List (Option UInt8)} (a : At s0 h (inst v junk) l s)
    (hv : view h l = { v with phase := .broken }) (t : Tidy { v with phase := .broken })
    (hj : v.pend.length + junk.length = v.cap)
    (hr : ∀ e, tellsOpen e h v .error → Reacts l e)
    (hc : v.cbs.openFn ≠ 0 → Calls l h (.onOpen v.cbs.openFn v.cbs.openCtx .error))
    (hk : Done s0 h Q) (hcl : Clean s0 h v)
    (ha : h ∈ alives s0.log := by assumption) : wp (sys std) pf Q (fail_open h) s := by
  refine wp_wr a fun s1 a1 => ?_
  refine indicate_open_complete_spec a1 (saysC_of a.nz hv t rfl hj hcl) ?_ ?_ hk
  · rw [hv]; exact hr
  · rw [hv]; exact hc

end

/-! ### The block for received bytes -/

theorem resize_block (a : Bytes) (junk : List (Option UInt8)) {m : Nat} (hm : a.length ≤ m) :
    ∃ junk', resize (a.map some ++ junk) m = a.map some ++ junk' ∧ a.length + junk'.length = m := by
  refine ⟨(junk.take (m - a.length)) ++ List.replicate (m - (a.map some ++ junk).length) none, ?_, ?_⟩
  · unfold resize
    rw [List.take_append, List.take_of_length_le (by simp; omega)]
    simp
  · simp
    omega

theorem block_add (a bs : Bytes) (junk : List (Option UInt8)) (h : bs.length ≤ junk.length) :
    copyIn a.length bs (a.map some ++ junk) =
      some ((a ++ bs).map some ++ junk.drop bs.length) := by
  unfold copyIn
  rw [if_pos (by simp; omega), List.take_append_of_le_length (by simp),
    List.take_of_length_le (by simp), List.map_append, List.drop_append]
  simp

theorem block_over (a bs : Bytes) (junk : List (Option UInt8)) (h : bs.length = a.length) :
    copyIn 0 bs (a.map some ++ junk) = some (bs.map some ++ junk) := by
  unfold copyIn
  rw [if_pos (by simp; omega)]
  simp [h]

theorem mapM_some : ∀ a : Bytes, (a.map some).mapM id = some a
  | [] => rfl
  | x :: a => by
    rw [List.map_cons, List.mapM_cons, mapM_some a]
    rfl

theorem block_first {a : Bytes} {junk : List (Option UInt8)} :
    firstBytes a.length (a.map some ++ junk) = some a := by
  unfold firstBytes
  rw [if_pos (by simp), List.take_append_of_le_length (by simp),
    List.take_of_length_le (by simp)]
  exact mapM_some _

theorem block_down {a : Bytes} {junk : List (Option UInt8)} {n : Nat} (hn : n ≤ a.length) :
    moveDown n (a.length - n) (a.map some ++ junk) =
      some ((a.drop n).map some ++ (a.map some ++ junk).drop (a.length - n)) := by
  unfold moveDown
  rw [if_pos (by simp; omega), List.drop_append_of_le_length (by simp; omega),
    List.take_append_of_le_length (by simp), ← List.map_drop,
    List.take_of_length_le (by simp)]

section
variable {s0 s : S} {h : Nat} {l : List Event} {v : View} {junk : List (Option UInt8)}
  {site : Site} {m : Nat}

theorem set_spec {Q : Bool → S → Prop} (a : At s0 h (inst v junk) l s) (hm : v.pend.length ≤ m)
    (hm0 : m ≠ 0) (hs : Soft s0 h (.realloc site v.buf m))
    (hc : Claim l (.call h (.realloc site v.buf m)))
    (h0 : ∀ bs s', At s0 h (inst v junk)
      (.ret h (.realloc site v.buf m) 0 bs :: .call h (.realloc site v.buf m) :: l) s' → Q false s')
    (h1 : ∀ (q : Nat) bs s' junk', q ≠ 0 → m < 2 ^ 32 → v.pend.length + junk'.length = m →
      At s0 h (inst { v with buf := q, cap := m } junk')
        (.ret h (.realloc site v.buf m) q bs :: .call h (.realloc site v.buf m) :: l) s' →
      Q true s') :
    wp (sys std) pf Q (set_receive_buffer h site m) s := by
  refine wp_rd a rfl ?_
  rw [if_neg (fun h => hm0 h.2)]
  refine wp_callP a rfl hs hc ?_
  intro n bs s' hv a'
  simp only [valid, isPtr, Bool.and_eq_true, Bool.or_eq_true, decide_eq_true_eq, beq_iff_eq] at hv
  obtain ⟨q, rfl⟩ := Int.eq_ofNat_of_zero_le hv.1
  split
  next hq =>
    have : q = 0 := hq
    subst this
    exact h0 bs s' a'
  next hq =>
    have hq : q ≠ 0 := hq
    obtain ⟨junk', hj, hl⟩ := resize_block v.pend junk hm
    refine wp_st a' (b := v.pend.map some ++ junk') (by show some (resize _ m) = _; rw [← hj]; rfl)
      fun s2 a2 => ?_
    refine wp_wr a2 fun s3 a3 => ?_
    refine wp_wr a3 fun s4 a4 => ?_
    exact h1 q bs s4 junk' hq (hv.2.resolve_left (by omega)) hl a4

theorem resize_spec {Q : Bool → S → Prop} (a : At s0 h (inst v junk) l s) (hm : v.pend.length ≤ m)
    (hs : Soft s0 h (.realloc site v.buf m))
    (hc : v.cap < m → Claim l (.call h (.realloc site v.buf m)))
    (hk : m ≤ v.cap → Q true s)
    (h0 : ∀ bs s', v.cap < m → At s0 h (inst v junk)
      (.ret h (.realloc site v.buf m) 0 bs :: .call h (.realloc site v.buf m) :: l) s' → Q false s')
    (h1 : ∀ (q : Nat) bs s' junk', v.cap < m → q ≠ 0 → m < 2 ^ 32 →
      v.pend.length + junk'.length = m →
      At s0 h (inst { v with buf := q, cap := m } junk')
        (.ret h (.realloc site v.buf m) q bs :: .call h (.realloc site v.buf m) :: l) s' →
      Q true s') :
    wp (sys std) pf Q (resize_receive_buffer h site m) s := by
  refine wp_rd a rfl ?_
  split
  next hg =>
    have hg : v.cap < m := hg
    exact set_spec a hm (by omega) hs (hc hg) (fun bs s' => h0 bs s' hg)
      (fun q bs s' junk' => h1 q bs s' junk' hg)
  next hg =>
    exact hk (Nat.le_of_not_lt hg)

theorem consume_spec {Q : Unit → S → Prop} {n : Int} (a : At s0 h (inst v junk) l s)
    (hn : n ≤ v.pend.length) (hsm : v.pend.length < 2 ^ 32)
    (hk : ∀ s' junk', (v.keep n).pend.length + junk'.length = v.pend.length + junk.length →
      At s0 h (inst (v.keep n) junk') l s' → Q () s') :
    wp (sys std) pf Q (consume h n) s := by
  refine wp_rd a rfl ?_
  dsimp only
  by_cases h0 : n < 0
  · simp only [if_pos h0]
    rw [show (v.pend.length + 2 ^ 64 - v.pend.length) % 2 ^ 64 = 0 by
      rw [Nat.add_sub_cancel_left]]
    have hz : lastN n v.pend = [] := by
      unfold lastN; rw [show n.toNat = 0 by omega]; simp
    refine wp_wr a fun s1 a1 => ?_
    refine wp_wr0 a1 fun s2 a2 => ?_
    refine hk s2 (v.pend.map some ++ junk) (by simp [View.keep, hz]) ?_
    have : inst (v.keep n) (v.pend.map some ++ junk) =
        { inst v junk with received_byte_count := some 0, needed_bytes := some 1 } := by
      simp [inst, View.keep, hz]
    rw [this]
    exact a2
  · simp only [if_neg h0]
    obtain ⟨k, rfl⟩ := Int.eq_ofNat_of_zero_le (by omega : 0 ≤ n)
    have hk' : k ≤ v.pend.length := by omega
    rw [show (v.pend.length + 2 ^ 64 - (k : Int).toNat) % 2 ^ 64 = v.pend.length - k by
      show (v.pend.length + 2 ^ 64 - k) % 2 ^ 64 = _
      rw [show v.pend.length + 2 ^ 64 - k = (v.pend.length - k) + 2 ^ 64 by omega,
        Nat.add_mod_right, Nat.mod_eq_of_lt (by omega)]]
    rw [show (v.pend.length + 2 ^ 64 - (v.pend.length - k)) % 2 ^ 64 = k by
      rw [show v.pend.length + 2 ^ 64 - (v.pend.length - k) = k + 2 ^ 64 by omega,
        Nat.add_mod_right, Nat.mod_eq_of_lt (by omega)]]
    have hd := block_down (a := v.pend) (junk := junk) (n := v.pend.length - k) (by omega)
    rw [show v.pend.length - (v.pend.length - k) = k by omega] at hd
    refine wp_bind _ _ _ ?_
    refine ⟨_, a.here, ?_⟩
    show wp _ _ _ (match moveDown (v.pend.length - k) k (v.pend.map some ++ junk) with
      | none => .ub
      | some b => .modify h (fun i => { i with block := b }) (.ret ())) s
    rw [hd]
    refine ⟨_, a.here, ?_⟩
    refine wp_wr (a.set _) fun s2 a2 => ?_
    refine wp_wr0 a2 fun s3 a3 => ?_
    have hz : lastN (k : Int) v.pend = v.pend.drop (v.pend.length - k) := rfl
    refine hk s3 ((v.pend.map some ++ junk).drop k) ?_ ?_
    · show (lastN _ _).length + _ = _
      rw [hz]; simp; omega
    · have : inst (v.keep (k : Int)) ((v.pend.map some ++ junk).drop k) =
        { inst v junk with
          block := (v.pend.drop (v.pend.length - k)).map some ++ (v.pend.map some ++ junk).drop k,
          received_byte_count := some k, needed_bytes := some 1 } := by
        simp only [inst, View.keep, hz]
        congr 2
        simp; omega
      rw [this]
      exact a3

end


/-! ### The lower IO closes, fails, opens -/

theorem uClose_fin {s : S} {h : Nat} {b : Bool} (hi : Inv s) (hl : (s.heap h).isSome = true) :
    wp (sys std) pf (Fin s (.uClose h) b) (body (.uClose h)) (s.add (.enter (.uClose h))) := by
  obtain ⟨ht, junk, hj, a⟩ := hi.at hl (.uClose h) rfl
  have ha : h ∈ alives (s.add (.enter (.uClose h))).log := (hi.alive h).2 hl
  have hw : ∀ n, (Call.uClose h).handle n = h := fun _ => rfl
  refine wp_bind _ _ _ ?_
  refine wp_rd a rfl ?_
  split
  next hp =>
    have hp : (view h s.log).phase = .shut := state_inj hp
    refine wp_wr a fun s1 a1 => ?_
    refine indicate_close_complete_spec a1 (saysC_of (v := { view h s.log with phase := .idle })
      a.nz (by vw) (ht.of rfl rfl rfl ⟨by simp, by simp⟩) rfl hj clean_other) ?_ ?_ ?_
    · told
    · intro h0; spec
      simpa [view, View.next, subject, Call.handle, hp] using h0
    · intro i' l' s' a' hs' he
      exact a'.fin hs'.1 hw rfl ⟨he _, trivial⟩
  next hp =>
    have hp : (view h s.log).phase ≠ .shut := fun h => hp (by rw [h]; rfl)
    exact a.fin (says_of a.nz (by vw) ht rfl hj) hw rfl (by spec)

theorem uError_fin {s : S} {h : Nat} {b : Bool} (hi : Inv s) (hl : (s.heap h).isSome = true) :
    wp (sys std) pf (Fin s (.uError h) b) (body (.uError h)) (s.add (.enter (.uError h))) := by
  obtain ⟨ht, junk, hj, a⟩ := hi.at hl (.uError h) rfl
  have ha : h ∈ alives (s.add (.enter (.uError h))).log := (hi.alive h).2 hl
  have hw : ∀ n, (Call.uError h).handle n = h := fun _ => rfl
  have tb : Tidy { view h s.log with phase := .broken } := ht.of rfl rfl rfl ⟨by simp, by simp⟩
  have hfin : Done (s.add (.enter (.uError h))) h
      (fun _ s' => wp (sys std) pf (Fin s (.uError h) b) (pure 0) s') :=
    fun i' l' s' a' hs' he => a'.fin hs'.1 hw rfl ⟨he _, trivial⟩
  refine wp_bind _ _ _ ?_
  refine wp_rd a rfl ?_
  cases hp : (view h s.log).phase <;> simp only [Phase.state]
  case idle =>
    exact a.fin (says_of a.nz (by vw) ht rfl hj) hw rfl (by spec)
  case broken =>
    exact a.fin (says_of a.nz (by simp [view, View.next, subject, Call.handle, hp]; rw [← hp]) ht rfl hj)
      hw rfl (by spec)
  case opening | handshake =>
    refine fail_open_spec a (by vw) tb hj ?_ ?_ hfin clean_other
    · told
    · intro h0; spec
  case shut =>
    refine wp_wr a fun s1 a1 => ?_
    refine indicate_close_complete_spec a1 (saysC_of a.nz (by vw) tb rfl hj clean_other) ?_ ?_ hfin
    · told
    · intro h0; spec
      simpa [view, View.next, subject, Call.handle, hp] using h0
  case live =>
    refine fail_spec a (by vw) tb hj ?_ ?_ hfin clean_other
    · told
    · intro h0; spec

theorem send_hello_spec {Q : Unit → S → Prop} {s0 s : S} {h : Nat} {l : List Event} {v : View}
    {junk : List (Option UInt8)} {n : Int} {bs : Bytes} {c g : Nat} {e1 e2 e3 : Event}
    (a : At s0 h (inst v junk) (e1 :: e2 :: .ret h (.initFirst c g) n bs :: e3 :: l) s)
    (he1 : ∃ n' bs', e1 = .ret h .ctxMade n' bs') (he2 : e2 = .call h .ctxMade)
    (hv : view h (e1 :: e2 :: .ret h (.initFirst c g) n bs :: e3 :: l) = v) (ht : Tidy v)
    (hsec : v.sec.isSome = true) (hcred : v.cred.isSome = true)
    (hj : v.pend.length + junk.length = v.cap) (hg : goesOn n = true)
    (hk : Done s0 h Q) (hcl : ∀ v, Clean s0 h v)
    (ha : h ∈ alives s0.log := by assumption) : wp (sys std) pf Q (send_hello h bs) s := by
  obtain ⟨n', bs', rfl⟩ := he1
  subst he2
  have hv' : view h (.ret h (.initFirst c g) n bs :: e3 :: l) = { v with sec := (view h (.ret h (.initFirst c g) n bs :: e3 :: l)).sec } := by
    rw [← hv]
    simp [view, View.next, subject]
  refine wp_rd a rfl ?_
  refine wp_re a rfl (says_of a.nz (by rw [view_call, hv]; rfl) ht rfl hj) ?_ ?_
  · refine ⟨?_, ?_⟩
    · simp only [Reacts, hg]
      simp only [if_true]
      have : (view h (e3 :: l)).io = v.io := by
        rw [← hv]; simp only [view_same (show subject (.ret h (.initFirst c g) n bs) = h from rfl), view_same (show subject (.call h .ctxMade) = h from rfl), view_same (show subject (.ret h .ctxMade n' bs') = h from rfl)]; rfl
      rw [this]
    · refine ⟨by rw [hv], rfl, rfl, _, _, _, _, _, _, _, rfl, hg⟩
  intro m bsm l' s' junk' _ a' t' hj' hkp _
  rw [hv] at hkp
  have hfits := t'.fits
  have hsmall := t'.small
  have hal : h ∈ alives l' := by
    have := a'.self ha
    rwa [alives_inner rfl] at this
  split
  next hm =>
    have hm : m ≠ 0 := hm
    refine fail_spec a' (by vw) (t'.of rfl rfl rfl ⟨by simp, by simp⟩) hj' ?_ ?_ hk (hcl _)
    · told
    · intro h0; spec
  next hm =>
    have hm : m = 0 := Classical.not_not.1 hm
    subst hm
    refine wp_wr a' fun s1 a1 => ?_
    refine wp_rd a1 rfl ?_
    refine wp_rd a1 rfl ?_
    rw [Nat.mod_eq_of_lt (by show 1 + (view h l').pend.length < _; omega)]
    have hs1 : { view h l' with need := some 1 }.pend = (view h l').pend := rfl
    replace a1 : At s0 h (inst { view h l' with need := some 1 } junk')
      (.ret h (.xioSend .hello v.io bs 0 0) 0 bsm :: l') s1 := a1
    refine wp_bind _ _ _ ?_
    refine resize_spec a1 (by show (view h l').pend.length ≤ _; show _ ≤ 1 + (view h l').pend.length; omega) (Or.inl rfl) ?_ ?_ ?_ ?_
    · intro hlt
      replace hlt : (view h l').cap < 1 + (view h l').pend.length := hlt
      refine ⟨?_, ?_⟩
      · simp only [Reacts]
        rw [if_neg (by simp)]
        unfold makesRoom
        rw [if_pos (by omega), Nat.add_comm]
      · refine ⟨?_, by rw [alives_inner rfl]; exact hal, by show 1 + (view h l').pend.length ≠ 0; omega, by simp, by simp⟩
        rw [view_ret]
        simp only [View.next]
        simp
        split <;> rfl
    · intro hle
      replace hle : 1 + (view h l').pend.length ≤ (view h l').cap := hle
      refine wp_wr0 a1 fun s2 a2 => ?_
      refine hk _ _ _ a2 (saysC_of (v := { view h l' with need := some 1, phase := .handshake }) a.nz ?_
        ⟨t'.chunk, t'.fits, t'.small, fun _ => hkp.sec hsec, fun _ => hkp.cred hcred, fun _ => rfl, t'.whole⟩ rfl hj' (hcl _)) ?_
      · rw [view_ret]
        simp only [View.next]
        rw [if_neg (by simp), if_neg (by omega)]
      · intro c
        simp only [Reacts]
        rw [if_neg (by simp)]
        unfold makesRoom
        rw [if_neg (by omega)]
        exact ends_leave c
    · intro bs2 s2 hlt a2
      replace hlt : (view h l').cap < 1 + (view h l').pend.length := hlt
      refine fail_spec a2 ?_ (Tidy.of t' rfl rfl rfl ⟨by simp, by simp⟩) hj' ?_ ?_ hk (hcl _)
      · simp [view, View.next, View.resized, subject, hlt]
      · told
      · intro h0
        refine ⟨h0, ?_, ?_, ?_⟩
        · simp [view, View.next, View.resized, subject, hlt]
        · simp [view, View.next, View.resized, subject, hlt]
        · exact Or.inr (Or.inr (Or.inr (Or.inr (Or.inr (Or.inl ⟨_, _, _, _, _, rfl, rfl⟩)))))
    · intro q bs2 s2 junk2 hlt hq hsm hl2 a2
      replace hlt : (view h l').cap < 1 + (view h l').pend.length := hlt
      refine wp_wr0 a2 fun s3 a3 => ?_
      refine hk _ _ _ a3 (saysC_of (v := { view h l' with
          need := some 1, buf := q, cap := 1 + (view h l').pend.length, phase := .handshake }) a.nz ?_
        ⟨t'.chunk, ?_, hsm, fun _ => hkp.sec hsec, fun _ => hkp.cred hcred, fun _ => rfl, t'.whole⟩ rfl hl2 (hcl _)) ?_
      · simp [view, View.next, View.resized, subject, hlt, hq]
      · show (view h l').pend.length ≤ 1 + (view h l').pend.length; omega
      · intro c
        simp only [Reacts]
        rw [if_neg (by omega)]
        exact ends_leave c

theorem uOpen_fin {s : S} {h : Nat} {r : OpenResult} {b : Bool} (hi : Inv s)
    (hl : (s.heap h).isSome = true) :
    wp (sys std) pf (Fin s (.uOpen h r) b) (body (.uOpen h r)) (s.add (.enter (.uOpen h r))) := by
  obtain ⟨ht, junk, hj, a⟩ := hi.at hl (.uOpen h r) rfl
  have ha : h ∈ alives (s.add (.enter (.uOpen h r))).log := (hi.alive h).2 hl
  have ha' : h ∈ alives (.enter (.uOpen h r) :: s.log) := ha
  have hw : ∀ n, (Call.uOpen h r).handle n = h := fun _ => rfl
  have hz := a.nz
  have hfin : Done (s.add (.enter (.uOpen h r))) h
      (fun _ s' => wp (sys std) pf (Fin s (.uOpen h r) b) (pure 0) s') :=
    fun i' l' s' a' hs' he => a'.fin hs'.1 hw rfl ⟨he _, trivial⟩
  refine wp_bind _ _ _ ?_
  unfold on_underlying_io_open_complete
  refine wp_rd a rfl ?_
  have tb : Tidy { view h s.log with phase := .broken } := ht.of rfl rfl rfl ⟨by simp, by simp⟩
  split
  next hp =>
    have hp : (view h s.log).phase ≠ .opening := fun h => hp (by rw [h]; rfl)
    refine fail_spec a (by vw) tb hj ?_ ?_ hfin clean_other
    · told
    · intro h0
      refine ⟨h0, ?_, ?_, Or.inr (Or.inl ⟨_, _, rfl, hp⟩)⟩ <;> vw
  next hp =>
    have hp : (view h s.log).phase = .opening := by
      have := Classical.not_not.1 hp
      exact state_inj this
    refine wp_callP a rfl (Or.inl rfl) ⟨by spec, ⟨r, _, rfl, hp⟩, ha'⟩ ?_
    intro n bs s1 hv1 a1
    simp only [valid, isPtr, decide_eq_true_eq] at hv1
    obtain ⟨cr, rfl⟩ := Int.eq_ofNat_of_zero_le hv1
    split
    next h0 =>
      have h0 : cr = 0 := h0
      subst h0
      refine fail_spec a1 (by vw) tb hj ?_ ?_ hfin clean_other
      · told
      · intro h0
        refine ⟨h0, ?_, ?_, Or.inr (Or.inr (Or.inl ⟨_, _, rfl⟩))⟩ <;> vw
    next h0 =>
      have h0 : cr ≠ 0 := h0
      refine wp_wr a1 fun s2 a2 => ?_
      refine wp_wr a2 fun s3 a3 => ?_
      refine wp_rd a3 rfl ?_
      refine wp_rd a3 rfl ?_
      have hv3 : view h (.ret h .acquire (cr : Int) bs :: .call h .acquire :: .enter (.uOpen h r) :: s.log) =
          { view h s.log with cred := some cr } := by vw
      have t3 : Tidy { view h s.log with cred := some cr } :=
        ht.of rfl rfl rfl ⟨by simp [hp], by simp [hp]⟩
      replace a3 : At (s.add (.enter (.uOpen h r))) h (inst { view h s.log with cred := some cr } junk) _ s3 := a3
      refine wp_callB a3 rfl (Or.inl rfl) ⟨by spec, ?_⟩ ?_
      · refine ⟨by rw [hv3]; rfl, by rw [hv3], _, _, _, rfl⟩
      intro n4 bs4 s4 hv4 a4
      dsimp only
      split
      next h4 =>
        have h4 : n4 < 0 := h4
        exact hfin _ _ _ a4 (saysC_of hz (by vw) t3 rfl hj clean_other) (by intro c; spec)
      next h4 =>
        have h4 : ¬ n4 < 0 := h4
        refine wp_callP a4 rfl (Or.inl rfl) ⟨by spec, trivial⟩ ?_
        intro n5 bs5 s5 hv5 a5
        refine wp_wr a5 fun s6 a6 => ?_
        have hv6 : view h (.ret h .ctxMade n5 bs5 :: .call h .ctxMade ::
            .ret h (.initFirst cr (view h s.log).host) n4 bs4 ::
            .call h (.initFirst cr (view h s.log).host) ::
            .ret h .acquire (cr : Int) bs :: .call h .acquire :: .enter (.uOpen h r) :: s.log) =
            { view h s.log with cred := some cr, sec := some n5.toNat } := by vw
        have t6 : Tidy { view h s.log with cred := some cr, sec := some n5.toNat } :=
          ht.of rfl rfl rfl ⟨by simp [hp], by simp [hp]⟩
        split
        next hg =>
          exact send_hello_spec a6 ⟨_, _, rfl⟩ rfl hv6 t6 rfl rfl hj hg hfin fun _ => clean_other
        next hg =>
          have hg : goesOn n4 = false := by simpa using hg
          exact hfin _ _ _ a6 (saysC_of hz hv6 t6 rfl hj clean_other) (by
            intro c
            simp only [Reacts, hg]
            exact ends_leave c)


/-! ### The lower IO delivers -/

section
variable {Q : Unit → S → Prop} {s0 s : S} {h : Nat} {l : List Event} {v : View}
  {junk : List (Option UInt8)}

theorem lastN_length {n : Int} {bs : Bytes} (h : n ≤ bs.length) :
    (lastN n bs).length = n.toNat := by
  unfold lastN; simp; omega

theorem hs_next_spec {m : Nat} (a : At s0 h (inst v junk) l s) (hv : view h l = v) (ht : Tidy v)
    (hj : v.pend.length + junk.length = v.cap) (hm : m = v.pend.length)
    (hrec : (view h s0.log.tail).receiving = false) (hcl : v.receiving = true ∧ Whole v)
    (hsec : v.sec.isSome = true) (hcred : v.cred.isSome = true)
    (hre : Reacts l (.call h (.hsExtra m)))
    (hre' : ∀ n bs, Reacts (.ret h (.hsExtra m) n bs :: .call h (.hsExtra m) :: l)
      (.call h (.realloc .hsNext v.buf (1 + (lastN n v.pend).length))))
    (hk : Done s0 h Q)
    (ha : h ∈ alives s0.log := by assumption) : wp (sys std) pf Q (hs_next h m) s := by
  have hfits := ht.fits
  have hsmall := ht.small
  have hal : h ∈ alives l := a.self ha
  unfold hs_next
  refine wp_call a rfl (Or.inr (Or.inr ⟨hrec, fun _ h => by cases h⟩)) ⟨hre, by rw [hv]; exact hm, hal⟩ ?_
  intro n bs s1 hval a1
  simp only [valid, decide_eq_true_eq] at hval
  refine wp_bind _ _ _ (consume_spec (n := n) a1 (by omega) (by omega) fun s2 junk2 hj2 a2 => ?_)
  have hlen : (v.keep n).pend.length = n.toNat := lastN_length (by omega)
  have hv2 : view h (.ret h (.hsExtra m) n bs :: .call h (.hsExtra m) :: l) = v.keep n := by
    rw [view_ret, view_call, hv]; rfl
  refine wp_bind _ _ _ ?_
  unfold fit
  refine wp_rd a2 rfl ?_
  refine wp_rd a2 rfl ?_
  rw [Nat.mod_eq_of_lt (by show 1 + (v.keep n).pend.length < _; omega)]
  refine set_spec a2 (by show _ ≤ 1 + (v.keep n).pend.length; omega) (by show 1 + _ ≠ 0; omega)
    (Or.inl rfl) ⟨hre' n bs, ?_⟩ ?_ ?_
  · refine ⟨by rw [hv2], by rw [alives_inner rfl, alives_inner rfl]; exact hal,
      by show 1 + _ ≠ 0; omega, by simp, by simp⟩
  · intro bs3 s3 a3
    refine fail_open_spec a3 ?_ ⟨ht.chunk, ?_, hsmall, by simp, by simp, by simp, fun _ => hcl.2.keep⟩ (hj2.trans hj) ?_ ?_ hk
      fun _ => ⟨hcl.1, hcl.2.keep⟩
    · rw [view_ret, view_call, hv2]; simp [View.next, View.resized]
    · show (v.keep n).pend.length ≤ v.cap; omega
    · intro e he
      simp only [Reacts]
      rw [if_pos trivial, view_call, hv2]
      exact he
    · intro h0
      refine ⟨h0, ?_, ?_, Or.inr (Or.inr (Or.inr (Or.inr (Or.inr ⟨_, _, _, _, _, rfl, rfl⟩))))⟩
      · rw [view_ret, view_call, hv2]; rfl
      · rw [view_ret, view_call, hv2]; rfl
  · intro q bs3 s3 junk3 hq hsm hl3 a3
    refine wp_wr0 a3 fun s4 a4 => ?_
    refine hk _ _ _ a4 (saysC_of (v := { v.keep n with
      buf := q, cap := 1 + (v.keep n).pend.length, phase := .handshake }) a.nz ?_ ⟨ht.chunk, ?_, hsm, fun _ => hsec, fun _ => hcred, fun _ => rfl,
      fun _ => hcl.2.keep⟩ rfl hl3 fun _ => ⟨hcl.1, hcl.2.keep⟩) ?_
    · rw [view_ret, view_call, hv2]; simp [View.next, View.resized, hq]
    · show (v.keep n).pend.length ≤ 1 + (v.keep n).pend.length; omega
    · intro c
      simp only [Reacts]
      rw [if_neg (by omega)]
      exact ends_leave c

theorem handshake_spec (a : At s0 h (inst v junk) l s) (hv : view h l = v) (ht : Tidy v)
    (hj : v.pend.length + junk.length = v.cap) (hrcv : v.receiving = true)
    (hrec : (view h s0.log.tail).receiving = false) (hwh : Whole v)
    (hp : v.phase = .handshake) (hn0 : v.need = some 0)
    (hre : ∀ e, gives v h e → Reacts l e)
    (hk : Done s0 h Q)
    (ha : h ∈ alives s0.log := by assumption) : wp (sys std) pf Q (handshake h) s := by
  have hfits := ht.fits
  have hsmall := ht.small
  have hal : h ∈ alives l := a.self ha
  obtain ⟨sec, hsec⟩ := Option.isSome_iff_exists.1 (ht.sec (Or.inl hp))
  obtain ⟨cred, hcred⟩ := Option.isSome_iff_exists.1 (ht.cred (Or.inl hp))
  unfold handshake
  refine wp_rd a rfl ?_
  rw [Nat.mod_eq_of_lt (by omega : v.pend.length < 2 ^ 32)]
  refine wp_rd a block_first ?_
  refine wp_rd a (x := cred) hcred ?_
  refine wp_rd a (x := sec) hsec ?_
  refine wp_rd a rfl ?_
  have hcl : Claim l (.call h (.initNext cred sec v.host v.pend)) := by
    refine ⟨hre _ ?_, by rw [hv]; exact hn0, by rw [phase, hv]; exact hp, by rw [hv]; exact hcred,
      by rw [hv]; exact hsec, by rw [hv], by rw [hv], hal, by rw [hv]; exact hwh⟩
    unfold gives
    rw [if_pos ⟨hn0, hp⟩, hcred, hsec]
    rfl
  refine wp_callB a rfl (Or.inl rfl) hcl ?_
  intro st tok s1 hv1 a1
  clear hcl
  have hvc : view h (.call h (.initNext cred sec v.host v.pend) :: l) = v := by
    rw [view_call, hv]; rfl
  have hvr : st ≠ untrustedRoot → view h (.ret h (.initNext cred sec v.host v.pend) st tok ::
      .call h (.initNext cred sec v.host v.pend) :: l) = v := by
    intro hu
    rw [view_ret, hvc]; simp only [View.next]; rw [if_neg hu]
  generalize hL : (.call h (.initNext cred sec v.host v.pend) :: l : List Event) = L at *
  have halL : h ∈ alives L := by rw [← hL]; exact hal
  dsimp only
  split
  next h1 =>
    subst h1
    replace hvr := hvr (by decide)
    refine wp_call a1 rfl (Or.inl rfl) ⟨by simp only [Reacts]; rw [if_pos trivial]; trivial, trivial⟩ ?_
    intro n bs s2 hv2 a2
    simp only [valid, decide_eq_true_eq] at hv2
    refine wp_bind _ _ _ ?_
    unfold need_more
    refine wp_wr a2 fun s3 a3 => ?_
    refine wp_rd a3 rfl ?_
    refine wp_rd a3 rfl ?_
    generalize hN : (if n < 0 then 1 else n.toNat) = N at *
    have hN' : N < 2 ^ 32 := by rw [← hN]; split <;> omega
    have hvm : view h (.ret h .hsMissing n bs :: .call h .hsMissing ::
        .ret h (.initNext cred sec v.host v.pend) incomplete tok :: L) =
        { v with need := some N } := by
      rw [view_ret, view_call, hvr]; simp only [View.next, hN]
    have hvm' : view h (.call h .hsMissing ::
        .ret h (.initNext cred sec v.host v.pend) incomplete tok :: L) = v := by
      rw [view_call, hvr]; rfl
    rw [Nat.mod_eq_of_lt (by show v.pend.length + N < _; omega)]
    replace a3 : At s0 h (inst { v with need := some N } junk) _ s3 := a3
    have tm : Tidy { v with need := some N } :=
      ⟨ht.chunk, ht.fits, ht.small, ht.sec, ht.cred, fun _ => rfl, fun _ => hwh⟩
    refine resize_spec a3 (by show _ ≤ v.pend.length + N; exact Nat.le_add_right _ _) (Or.inl rfl) ?_ ?_ ?_ ?_
    · intro hlt
      replace hlt : v.cap < v.pend.length + N := hlt
      refine ⟨?_, by rw [hvm], ?_, by show v.pend.length + N ≠ 0; omega, by simp, by simp⟩
      · simp only [Reacts, hvm', hN]
        unfold makesRoom
        rw [if_pos hlt]
      · rw [alives_inner rfl, alives_inner rfl, alives_inner rfl]; exact halL
    · intro hle
      replace hle : v.pend.length + N ≤ v.cap := hle
      refine hk _ _ _ a3 (saysC_of a.nz hvm tm rfl hj fun _ => ⟨hrcv, hwh⟩) ?_
      intro c
      simp only [Reacts, hvm', hN]
      unfold makesRoom
      rw [if_neg (by omega)]
      exact ends_leave c
    · intro bs4 s4 hlt a4
      refine fail_open_spec a4 ?_ (tm.of rfl rfl rfl ⟨by simp, by simp⟩) hj ?_ ?_ hk fun _ => ⟨hrcv, hwh⟩
      · rw [view_ret, view_call, hvm]; simp [View.next, View.resized]
      · intro e he
        simp only [Reacts]
        rw [if_pos trivial, view_call, hvm]
        exact he
      · intro h0
        refine ⟨h0, ?_, ?_, Or.inr (Or.inr (Or.inr (Or.inl ⟨_, _, _, _, _, rfl, rfl⟩)))⟩
        · rw [view_ret, view_call, hvm]; rfl
        · rw [view_ret, view_call, hvm]; rfl
    · intro q bs4 s4 junk4 hlt hq hsm hl4 a4
      refine hk _ _ _ a4 (saysC_of (v := { v with need := some N, buf := q, cap := v.pend.length + N })
        a.nz ?_ ⟨ht.chunk, Nat.le_add_right _ _, hsm, ht.sec, ht.cred, fun _ => rfl, fun _ => hwh⟩ rfl hl4
          fun _ => ⟨hrcv, hwh⟩) ?_
      · rw [view_ret, view_call, hvm]; simp [View.next, View.resized, hq]
      · intro c
        simp only [Reacts]
        rw [if_neg (by omega)]
        exact ends_leave c
  next h1 =>
    split
    next h2 =>
      have h2 : st = 0 := h2
      subst h2
      replace hvr := hvr (by decide)
      have hr1 : ∀ {e}, e = .call h (.hsExtra v.pend.length) →
          Reacts (.ret h (.initNext cred sec v.host v.pend) 0 tok :: L) e := by
        intro e he
        simp only [Reacts]
        rw [if_neg (by decide), if_pos trivial, hvc]
        exact he
      refine wp_call a1 rfl (Or.inr (Or.inr ⟨hrec, fun _ h => by cases h⟩))
        ⟨hr1 rfl, by rw [hvr], by rw [alives_inner rfl]; exact halL⟩ ?_
      intro n bs s2 hval a2
      simp only [valid, decide_eq_true_eq] at hval
      refine wp_bind _ _ _ (consume_spec (n := n) a2 (by omega) (by omega) fun s3 junk3 hj3 a3 => ?_)
      have hlen : (v.keep n).pend.length = n.toNat := lastN_length (by omega)
      have hv2 : view h (.ret h (.hsExtra v.pend.length) n bs :: .call h (.hsExtra v.pend.length) ::
          .ret h (.initNext cred sec v.host v.pend) 0 tok :: L) = v.keep n := by
        rw [view_ret, view_call, hvr]; rfl
      have hv3 : view h L = v := hvc
      refine wp_bind _ _ _ ?_
      unfold fit
      refine wp_rd a3 rfl ?_
      refine wp_rd a3 rfl ?_
      rw [Nat.mod_eq_of_lt (by show 1 + (v.keep n).pend.length < _; omega)]
      refine set_spec a3 (by show _ ≤ 1 + (v.keep n).pend.length; omega) (by show 1 + _ ≠ 0; omega)
        (Or.inl rfl) ⟨?_, ?_⟩ ?_ ?_
      · simp only [Reacts, hv3]
        rw [if_pos trivial]
        rfl
      · refine ⟨by rw [hv2], by rw [alives_inner rfl, alives_inner rfl, alives_inner rfl]; exact halL,
          by show 1 + _ ≠ 0; omega, by simp, fun _ => ⟨_, _, _, _, _, _, _, _, _, _, rfl⟩⟩
      · intro bs4 s4 a4
        refine fail_open_spec a4 ?_ ⟨ht.chunk, ?_, hsmall, by simp, by simp, by simp, fun _ => hwh.keep⟩ (hj3.trans hj) ?_ ?_ hk
          fun _ => ⟨hrcv, hwh.keep⟩
        · rw [view_ret, view_call, hv2]; simp [View.next, View.resized]
        · show (v.keep n).pend.length ≤ v.cap; omega
        · intro e he
          simp only [Reacts]
          rw [if_pos trivial, view_call, hv2]
          exact he
        · intro h0
          refine ⟨h0, ?_, ?_, Or.inr (Or.inr (Or.inr (Or.inr (Or.inl ⟨_, _, _, _, _, rfl, rfl⟩))))⟩
          · rw [view_ret, view_call, hv2]; rfl
          · rw [view_ret, view_call, hv2]; rfl
      · intro q bs4 s4 junk4 hq hsm hl4 a4
        have hv4 : view h (.ret h (.realloc .hsDone (v.keep n).buf (1 + (v.keep n).pend.length)) (q : Int) bs4 ::
            .call h (.realloc .hsDone (v.keep n).buf (1 + (v.keep n).pend.length)) ::
            .ret h (.hsExtra v.pend.length) n bs :: .call h (.hsExtra v.pend.length) ::
            .ret h (.initNext cred sec v.host v.pend) 0 tok :: L) =
            { v.keep n with buf := q, cap := 1 + (v.keep n).pend.length, phase := .live } := by
          rw [view_ret, view_call, hv2]; simp [View.next, View.resized, hq]
        refine wp_wr a4 fun s5 a5 => ?_
        refine indicate_open_complete_spec a5 (saysC_of (v := { v.keep n with
          buf := q, cap := 1 + (v.keep n).pend.length, phase := .live }) a.nz hv4 ⟨ht.chunk, ?_, hsm,
            fun _ => ht.sec (Or.inl hp), fun _ => ht.cred (Or.inl hp), fun _ => rfl, fun _ => hwh.keep⟩ rfl hl4
            fun _ => ⟨hrcv, hwh.keep⟩) ?_ ?_ hk
        · show (v.keep n).pend.length ≤ 1 + (v.keep n).pend.length; omega
        · intro e he
          rw [hv4] at he
          simp only [Reacts]
          rw [if_neg (by omega), view_call, hv2]
          exact he
        · intro h0
          exact ⟨h0, rfl, rfl, _, _, _, _, _, rfl, by omega⟩
    next h2 =>
      have h2 : st ≠ 0 := h2
      split
      next h3 =>
        have hu : st ≠ untrustedRoot := by rintro rfl; revert h3; decide
        replace hvr := hvr hu
        have hR : ∀ e, (if tok = [] then e = .call h (.hsExtra v.pend.length)
            else e = .call h (.xioSend .token v.io tok 0 0)) →
            Reacts (.ret h (.initNext cred sec v.host v.pend) st tok :: L) e := by
          intro e he
          simp only [Reacts]
          rw [if_neg h1, if_neg h2, if_pos h3, hvc]
          exact he
        split
        next h4 =>
          have h4 : tok ≠ [] := by rintro rfl; simp at h4
          refine wp_rd a1 rfl ?_
          refine wp_re a1 rfl (says_of a.nz (by rw [view_call, hvr]; rfl) ht rfl hj)
            ⟨hR _ (by rw [if_neg h4]), by rw [hvr], rfl, rfl, h4, _, _, _, _, _, _, rfl, h3⟩ ?_
          intro n bs l' s2 junk2 _ a2 t2 hj2 hkp _
          rw [hvr] at hkp
          obtain ⟨hr2, hp2, hq2, -, hs2⟩ := hkp.same hrcv
          have hwh2 : Whole (view h l') := by unfold Whole; rw [hp2, hq2, hs2]; exact hwh
          split
          next h5 =>
            have h5 : n ≠ 0 := h5
            refine fail_open_spec a2 (by vw) (t2.of rfl rfl rfl ⟨by simp, by simp⟩) hj2 ?_ ?_ hk
              fun _ => ⟨hr2, hwh2⟩
            · told
            · intro h0
              refine ⟨h0, ?_, ?_, Or.inr (Or.inr (Or.inl ⟨_, _, _, _, _, _, _, rfl, h5⟩))⟩ <;> vw
          next h5 =>
            have h5 : n = 0 := Classical.not_not.1 h5
            subst h5
            refine hs_next_spec a2 (by vw) t2 hj2 (by rw [hp2]) hrec ⟨hr2, hwh2⟩
              (hkp.sec (ht.sec (Or.inl hp))) (hkp.cred (ht.cred (Or.inl hp))) ?_ ?_ hk
            · simp only [Reacts]
              rw [if_pos trivial, hp2]
            · intro n' bs'
              simp only [Reacts]
              rw [view_call, view_ret]
              rfl
        next h4 =>
          have h4 : tok = [] := by
            apply List.eq_nil_of_length_eq_zero; exact Nat.eq_zero_of_not_pos h4
          refine hs_next_spec a1 hvr ht hj rfl hrec ⟨hrcv, hwh⟩ (ht.sec (Or.inl hp)) (ht.cred (Or.inl hp)) ?_ ?_ hk
          · exact hR _ (by rw [if_pos h4])
          · intro n' bs'
            simp only [Reacts]
            rw [if_neg h2, hvc]
      next h3 =>
        split
        next h4 =>
          have h4 : st = untrustedRoot := h4
          subst h4
          refine fail_open_spec a1 ?_ (ht.of rfl rfl rfl ⟨by simp, by simp⟩) hj ?_ ?_ hk fun _ => ⟨hrcv, hwh⟩
          · rw [view_ret, hvc]; simp [View.next]
          · intro e he
            simp only [Reacts]
            rw [if_neg h1, if_neg h2, if_neg h3, if_pos trivial, hvc]
            exact he
          · intro h0
            refine ⟨h0, ?_, ?_, Or.inr (Or.inl ⟨_, _, _, _, _, _, rfl⟩)⟩
            · rw [view_ret, hvc]; simp [View.next]
            · rw [view_ret, hvc]; simp [View.next]
        next h4 =>
          have h4 : st ≠ untrustedRoot := h4
          refine hk _ _ _ a1 (saysC_of a.nz (hvr h4) ht rfl hj fun _ => ⟨hrcv, hwh⟩) ?_
          intro c
          simp only [Reacts]
          rw [if_neg h1, if_neg h2, if_neg h3, if_neg h4]
          exact ends_leave c

end


section
variable {Q : Unit → S → Prop} {s0 s : S} {h : Nat} {l : List Event} {v : View}
  {junk : List (Option UInt8)}

theorem data_next_spec {before after : Bytes} (a : At s0 h (inst v junk) l s) (hv : view h l = v)
    (ht : Tidy v) (hj : v.pend.length + junk.length = v.cap)
    (hb : before = v.given) (haf : after = v.pend) (hlen : before.length = after.length)
    (hrec : (view h s0.log.tail).receiving = false) (hrcv : v.receiving = true)
    (hgw : v.spoilt = false → v.given = v.raw)
    (hre : Reacts l (.call h (.decExtra v.given v.pend)))
    (hk : Done s0 h Q)
    (ha : h ∈ alives s0.log := by assumption) : wp (sys std) pf Q (data_next h before after) s := by
  subst hb haf
  have hfits := ht.fits
  have hsmall := ht.small
  have hal : h ∈ alives l := a.self ha
  unfold data_next
  refine wp_call a rfl (Or.inr (Or.inr ⟨hrec, fun _ h => by cases h⟩))
    ⟨hre, by rw [hv], by rw [hv], hlen, hal⟩ ?_
  intro n bs s1 hval a1
  have hn : n ≤ v.pend.length := by
    have := (fair_of hval).1; omega
  refine wp_bind _ _ _ (consume_spec (n := n) a1 hn (by omega) fun s2 junk2 hj2 a2 => ?_)
  have hwk : Whole (v.keep n) := by
    intro hs
    show lastN n v.pend = lastN n v.raw
    rw [← hgw hs]
    rcases (fair_of hval).2 with h | h
    · unfold lastN
      rw [show n.toNat = 0 by omega]
      simp
    · exact h.symm
  have hl1 : (v.keep n).pend.length = n.toNat := lastN_length hn
  have hvc : view h (.call h (.decExtra v.given v.pend) :: l) = v := by rw [view_call, hv]; rfl
  have hv2 : view h (.ret h (.decExtra v.given v.pend) n bs :: .call h (.decExtra v.given v.pend) :: l) =
      v.keep n := by
    rw [view_ret, hvc]; rfl
  have tk : Tidy (v.keep n) := ⟨ht.chunk, by show (v.keep n).pend.length ≤ v.cap; omega, hsmall,
    ht.sec, ht.cred, fun _ => rfl, fun _ => hwk⟩
  unfold fit
  refine wp_bind _ _ _ ?_
  refine wp_rd a2 rfl ?_
  refine wp_rd a2 rfl ?_
  rw [Nat.mod_eq_of_lt (by show 1 + (v.keep n).pend.length < _; omega)]
  refine set_spec a2 (by show _ ≤ 1 + (v.keep n).pend.length; omega) (by show 1 + _ ≠ 0; omega)
    (Or.inl rfl) ⟨?_, ?_⟩ ?_ ?_
  · simp only [Reacts, hvc]
    rfl
  · refine ⟨by rw [hv2], by rw [alives_inner rfl, alives_inner rfl]; exact hal,
      by show 1 + _ ≠ 0; omega, by simp, by simp⟩
  · intro bs3 s3 a3
    refine fail_spec a3 ?_ (tk.of rfl rfl rfl ⟨by simp, by simp⟩) (hj2.trans hj) ?_ ?_ hk fun _ => ⟨hrcv, hwk⟩
    · rw [view_ret, view_call, hv2]; simp [View.next, View.resized]
    · intro e he
      simp only [Reacts]
      rw [if_pos trivial, view_call, hv2]
      exact he
    · intro h0
      refine ⟨h0, ?_, ?_, Or.inr (Or.inr (Or.inr (Or.inr (Or.inr (Or.inr (Or.inr ⟨_, _, _, _, _, rfl, rfl⟩))))))⟩
      · rw [view_ret, view_call, hv2]; rfl
      · rw [view_ret, view_call, hv2]; rfl
  · intro q bs3 s3 junk3 hq hsm hl3 a3
    refine hk _ _ _ a3 (saysC_of (v := { v.keep n with
      buf := q, cap := 1 + (v.keep n).pend.length }) a.nz ?_ ⟨ht.chunk, ?_, hsm,
        ht.sec, ht.cred, fun _ => rfl, fun _ => hwk⟩ rfl hl3 fun _ => ⟨hrcv, hwk⟩) ?_
    · rw [view_ret, view_call, hv2]; simp [View.next, View.resized, hq]
    · show (v.keep n).pend.length ≤ 1 + (v.keep n).pend.length; omega
    · intro c
      simp only [Reacts]
      rw [if_neg (by omega)]
      exact ends_leave c

theorem data_spec (a : At s0 h (inst v junk) l s) (hv : view h l = v) (ht : Tidy v)
    (hj : v.pend.length + junk.length = v.cap) (hrcv : v.receiving = true)
    (hrec : (view h s0.log.tail).receiving = false) (hwh : Whole v)
    (hp : v.phase = .live) (hn0 : v.need = some 0)
    (hre : ∀ e, gives v h e → Reacts l e)
    (hk : Done s0 h Q)
    (ha : h ∈ alives s0.log := by assumption) : wp (sys std) pf Q (data h) s := by
  have hfits := ht.fits
  have hsmall := ht.small
  have hal : h ∈ alives l := a.self ha
  obtain ⟨sec, hsec⟩ := Option.isSome_iff_exists.1 (ht.sec (Or.inr hp))
  unfold data
  refine wp_rd a rfl ?_
  rw [Nat.mod_eq_of_lt (by omega : v.pend.length < 2 ^ 32)]
  refine wp_rd a block_first ?_
  refine wp_rd a (x := sec) hsec ?_
  have hcl : Claim l (.call h (.decrypt sec v.pend)) := by
    refine ⟨hre _ ?_, by rw [hv]; exact hn0, by rw [phase, hv]; exact hp,
      by rw [hv]; exact hsec, by rw [hv], hal, by rw [hv]; exact hwh⟩
    unfold gives
    rw [if_neg (by rw [hp]; intro h; cases h.2), if_pos ⟨hn0, hp⟩, hsec]
    rfl
  refine wp_callB a rfl (Or.inr (Or.inr ⟨hrec, fun _ h => by cases h⟩)) hcl ?_
  intro st after s1 hval a1
  clear hcl
  obtain ⟨hlen, hsame⟩ := fair_of hval
  dsimp only
  refine wp_st a1 (block_over v.pend after junk hlen) fun s2 a2 => ?_
  have hvr : view h (.ret h (.decrypt sec v.pend) st after ::
      .call h (.decrypt sec v.pend) :: l) = { v with given := v.pend, pend := after } := by
    rw [view_ret, view_call, hv]; rfl
  have t2 : Tidy { v with given := v.pend, pend := after } :=
    ⟨ht.chunk, by show after.length ≤ v.cap; omega, hsmall, ht.sec, ht.cred, ht.need,
      fun hx => absurd (hrcv.symm.trans hx) (by simp)⟩
  have hj2 : ({ v with given := v.pend, pend := after } : View).pend.length + junk.length =
      ({ v with given := v.pend, pend := after } : View).cap := by
    show after.length + _ = v.cap; omega
  have hgl : ({ v with given := v.pend, pend := after } : View).given.length = 
    ({ v with given := v.pend, pend := after } : View).pend.length := hlen.symm
  have a2' : At s0 h (inst { v with given := v.pend, pend := after } junk)
      (.ret h (.decrypt sec v.pend) st after :: .call h (.decrypt sec v.pend) :: l) s2 := by
    have : inst { v with given := v.pend, pend := after } junk =
      { inst v junk with block := after.map some ++ junk } := by
      simp [inst, hlen]
    rw [this]; exact a2
  clear a2
  have hgv : v.pend = ({ v with given := v.pend, pend := after } : View).given := rfl
  have haf : after = ({ v with given := v.pend, pend := after } : View).pend := rfl
  have hcb : ({ v with given := v.pend, pend := after } : View).receiving = true := hrcv
  have hgw : ({ v with given := v.pend, pend := after } : View).spoilt = false →
    ({ v with given := v.pend, pend := after } : View).given =
      ({ v with given := v.pend, pend := after } : View).raw := hwh
  have hww : st ≠ 0 → Whole { v with given := v.pend, pend := after } := by
    intro h0 hs
    show after = v.raw
    rw [hsame h0]
    exact hwh hs
  have hst : ∀ e, (if st = incomplete then e = .call h .decMissing
      else if st = 0 then e = .call h .plain else ends e) →
      Reacts (.ret h (.decrypt sec v.pend) st after :: .call h (.decrypt sec v.pend) :: l) e := by
    intro e he
    simp only [Reacts]
    exact he
  have hpl : st = 0 → Calls (.ret h (.decrypt sec v.pend) st after ::
      .call h (.decrypt sec v.pend) :: l) h .plain := by
    rintro rfl
    exact ⟨_, _, _, _, rfl⟩
  have halL : h ∈ alives (.ret h (.decrypt sec v.pend) st after :: .call h (.decrypt sec v.pend) :: l) := by
    rw [alives_inner rfl, alives_inner rfl]; exact hal
  have hz := a.nz
  rw [show data_next h v.pend after = data_next h ({ v with given := v.pend, pend := after } : View).given
    ({ v with given := v.pend, pend := after } : View).pend from rfl]
  clear a a1 hre hv ht hfits hsmall hj hgv haf hal hval hn0 hwh hsame
  generalize hW : ({ v with given := v.pend, pend := after } : View) = w at *
  generalize (.ret h (.decrypt sec v.pend) st after :: .call h (.decrypt sec v.pend) :: l : List Event) = L at *
  clear hW hlen hp hsec hrcv
  have hfits := t2.fits
  have hsmall := t2.small
  split
  next h1 =>
    have hww := hww (by rw [h1]; decide)
    refine wp_call a2' rfl (Or.inl rfl) ⟨hst _ (by rw [if_pos h1]), trivial⟩ ?_
    intro n bs s3 hval a3
    simp only [valid, decide_eq_true_eq] at hval
    refine wp_bind _ _ _ ?_
    unfold need_more
    refine wp_wr a3 fun s4 a4 => ?_
    refine wp_rd a4 rfl ?_
    refine wp_rd a4 rfl ?_
    generalize hN : (if n < 0 then 1 else n.toNat) = N at *
    have hN' : N < 2 ^ 32 := by rw [← hN]; split <;> omega
    have hvm' : view h (.call h .decMissing :: L) = w := by rw [view_call, hvr]; rfl
    have hvm : view h (.ret h .decMissing n bs :: .call h .decMissing :: L) =
        { w with need := some N } := by
      rw [view_ret, hvm']; simp only [View.next, hN]
    rw [Nat.mod_eq_of_lt (by show w.pend.length + N < _; omega)]
    replace a4 : At s0 h (inst { w with need := some N } junk) _ s4 := a4
    have tm : Tidy { w with need := some N } :=
      ⟨t2.chunk, t2.fits, t2.small, t2.sec, t2.cred, fun _ => rfl, fun _ => hww⟩
    refine resize_spec a4 (by show _ ≤ w.pend.length + N; exact Nat.le_add_right _ _) (Or.inl rfl) ?_ ?_ ?_ ?_
    · intro hlt
      replace hlt : w.cap < w.pend.length + N := hlt
      refine ⟨?_, by rw [hvm], ?_, by show w.pend.length + N ≠ 0; omega, by simp, by simp⟩
      · simp only [Reacts, hvm', hN]
        unfold makesRoom
        rw [if_pos hlt]
      · rw [alives_inner rfl, alives_inner rfl]; exact halL
    · intro hle
      replace hle : w.pend.length + N ≤ w.cap := hle
      refine hk _ _ _ a4 (saysC_of hz hvm tm rfl hj2 fun _ => ⟨hcb, hww⟩) ?_
      intro c
      simp only [Reacts, hvm', hN]
      unfold makesRoom
      rw [if_neg (by omega)]
      exact ends_leave c
    · intro bs5 s5 hlt a5
      refine fail_spec a5 ?_ (tm.of rfl rfl rfl ⟨by simp, by simp⟩) hj2 ?_ ?_ hk fun _ => ⟨hcb, hww⟩
      · rw [view_ret, view_call, hvm]; simp [View.next, View.resized]
      · intro e he
        simp only [Reacts]
        rw [if_pos trivial, view_call, hvm]
        exact he
      · intro h0
        refine ⟨h0, ?_, ?_, Or.inr (Or.inr (Or.inr (Or.inr (Or.inr (Or.inr (Or.inl ⟨_, _, _, _, _, rfl, rfl⟩))))))⟩
        · rw [view_ret, view_call, hvm]; rfl
        · rw [view_ret, view_call, hvm]; rfl
    · intro q bs5 s5 junk5 hlt hq hsm hl5 a5
      refine hk _ _ _ a5 (saysC_of (v := { w with need := some N, buf := q, cap := w.pend.length + N })
        hz ?_ ⟨t2.chunk, Nat.le_add_right _ _, hsm, t2.sec, t2.cred, fun _ => rfl, fun _ => hww⟩ rfl hl5
          fun _ => ⟨hcb, hww⟩) ?_
      · rw [view_ret, view_call, hvm]; simp [View.next, View.resized, hq]
      · intro c
        simp only [Reacts]
        rw [if_neg (by omega)]
        exact ends_leave c
  next h1 =>
    split
    next h2 =>
      have h2 : st = 0 := h2
      refine wp_callB a2' rfl (Or.inr (Or.inr ⟨hrec, fun _ h => by cases h⟩))
        ⟨hst _ (by rw [if_neg h1, if_pos h2]), hpl h2⟩ ?_
      intro n pl s3 hval a3
      simp only [valid, Bool.or_eq_true, beq_iff_eq] at hval
      have hvc : view h (.call h .plain :: L) = w := by rw [view_call, hvr]; rfl
      dsimp only
      split
      next h3 =>
        refine fail_spec (v := { w with spoilt := true }) a3 ?_ ⟨t2.chunk, t2.fits, t2.small, by simp,
          by simp, by simp, fun _ hx => by cases hx⟩ hj2 ?_ ?_ hk fun _ => ⟨hcb, fun hx => by cases hx⟩
        · rw [view_ret, hvc]; simp only [View.next]; rw [if_pos h3]
        · intro e he
          simp only [Reacts]
          rw [if_pos h3, hvc]
          exact he
        · intro h0
          refine ⟨h0, ?_, ?_, Or.inr (Or.inr (Or.inr (Or.inr (Or.inl ⟨_, _, _, rfl, h3⟩))))⟩
          · rw [view_ret, hvc]; simp only [View.next]; rw [if_pos h3]
          · rw [view_ret, hvc]; simp only [View.next]; rw [if_pos h3]
      next h3 =>
        have hn : n = pl.length := hval.resolve_left (by omega)
        subst hn
        have hv3 : view h (.ret h .plain pl.length pl :: .call h .plain :: L) = w := by
          rw [view_ret, hvc]; simp only [View.next]; rw [if_neg h3]
        have hrp : ∀ e, (if w.cbs.bytesFn = 0 then e = .call h (.decExtra w.given w.pend)
            else e = .call h (.onBytes w.cbs.bytesFn w.cbs.bytesCtx pl)) →
            Reacts (.ret h .plain pl.length pl :: .call h .plain :: L) e := by
          intro e he
          simp only [Reacts]
          rw [if_neg h3, hvc]
          exact he
        refine wp_rd a3 rfl ?_
        split
        next h4 =>
          have h4 : w.cbs.bytesFn = 0 := h4
          exact data_next_spec a3 hv3 t2 hj2 rfl rfl hgl hrec hcb hgw (hrp _ (by rw [if_pos h4])) hk
        next h4 =>
          have h4 : w.cbs.bytesFn ≠ 0 := h4
          refine wp_rd a3 rfl ?_
          refine wp_re a3 rfl (says_of hz (by rw [view_call, hv3]; rfl) t2 rfl hj2)
            ⟨hrp _ (by rw [if_neg h4]), h4, by rw [hv3], by rw [hv3], _, rfl⟩ ?_
          intro n5 bs5 l5 s5 junk5 _ a5 t5 hj5 hkp _
          rw [hv3] at hkp
          obtain ⟨h50, h51, h52, h53, h54⟩ := hkp.same hcb
          rw [← h51, ← h53] at hgl ⊢
          refine data_next_spec a5 (by vw) t5 hj5 rfl rfl hgl hrec h50
            (by rw [h52, h53, h54]; exact hgw) ?_ hk
          simp only [Reacts]
    next h2 =>
      have h2 : st ≠ 0 := h2
      refine hk _ _ _ a2' (saysC_of hz hvr t2 rfl hj2 fun _ => ⟨hcb, hww h2⟩) ?_
      intro c
      exact hst _ (by rw [if_neg h1, if_neg h2]; exact ends_leave c)

theorem use_spec {w : View} {size : Nat} (a : At s0 h (inst w junk) l s)
    (hw : w = { v with need := w.need }) (hwn : w.need.isSome = true)
    (hn : v.need = w.need.map (· - size))
    (hv : view h l = v) (ht : Tidy v)
    (hj : v.pend.length + junk.length = v.cap) (hrcv : v.receiving = true)
    (hrec : (view h s0.log.tail).receiving = false) (hwh : Whole v)
    (hre : ∀ e, gives v h e → Reacts l e)
    (hk : Done s0 h Q)
    (ha : h ∈ alives s0.log := by assumption) : wp (sys std) pf Q (use h size) s := by
  obtain ⟨n, hwn⟩ := Option.isSome_iff_exists.1 hwn
  unfold use
  refine wp_rd a (x := n) hwn ?_
  rw [show (if size > n then 0 else n - size) = n - size by split <;> omega]
  refine wp_wr a fun s1 a1 => ?_
  have hvn : v.need = some (n - size) := by rw [hn, hwn]; rfl
  replace a1 : At s0 h (inst v junk) l s1 := by
    have : inst v junk = { inst w junk with needed_bytes := some (n - size) } := by
      rw [hw, ← hvn]; rfl
    rw [this]; exact a1
  have hend : ¬ (v.need = some 0 ∧ v.phase = .handshake) → ¬ (v.need = some 0 ∧ v.phase = .live) →
      Q () s1 := by
    intro h1 h2
    refine hk _ _ _ a1 (saysC_of a.nz hv ht rfl hj fun _ => ⟨hrcv, hwh⟩) fun c => hre _ ?_
    unfold gives
    rw [if_neg h1, if_neg h2]
    exact ends_leave c
  refine wp_rd a1 rfl ?_
  have hph : ∀ p, v.phase = p → p ≠ .handshake → p ≠ .live → Q () s1 := by
    intro p hp h1 h2
    exact hend (fun h => h1 (hp.symm.trans h.2)) (fun h => h2 (hp.symm.trans h.2))
  cases hp : v.phase <;> simp only [Phase.state]
  case idle | opening | shut | broken => exact hph _ hp (by simp) (by simp)
  case handshake =>
    refine wp_rd a1 (x := n - size) hvn ?_
    split
    next h0 =>
      have h0 : n - size = 0 := h0
      exact handshake_spec a1 hv ht hj hrcv hrec hwh hp (by rw [hvn, h0]) hre hk
    next h0 =>
      refine hend (fun h => h0 ?_) (by rw [hp]; intro h; cases h.2)
      have := h.1
      rw [hvn] at this
      injection this
  case live =>
    refine wp_rd a1 (x := n - size) hvn ?_
    split
    next h0 =>
      have h0 : n - size = 0 := h0
      exact data_spec a1 hv ht hj hrcv hrec hwh hp (by rw [hvn, h0]) hre hk
    next h0 =>
      refine hend (by rw [hp]; intro h; cases h.2) (fun h => h0 ?_)
      have := h.1
      rw [hvn] at this
      injection this

end

theorem uBytes_fin {s : S} {h : Nat} {bs : Bytes} {b : Bool} (hi : Inv s)
    (hl : (s.heap h).isSome = true) (hb : bs.length < 2 ^ 56)
    (hrec : (view h s.log).receiving = false) (hneed : (view h s.log).need.isSome = true) :
    wp (sys std) pf (Fin s (.uBytes h bs) b) (body (.uBytes h bs)) (s.add (.enter (.uBytes h bs))) := by
  obtain ⟨ht, junk, hj, a⟩ := hi.at hl (.uBytes h bs) rfl (Or.inr hrec)
  have ha : h ∈ alives (s.add (.enter (.uBytes h bs))).log := (hi.alive h).2 hl
  have ha' : h ∈ alives (.enter (.uBytes h bs) :: s.log) := ha
  have hw : ∀ n, (Call.uBytes h bs).handle n = h := fun _ => rfl
  have hz := a.nz
  have hrec' : (view h (s.add (.enter (.uBytes h bs))).log.tail).receiving = false := hrec
  have hfits := ht.fits
  have hsmall := ht.small
  have hchunk := ht.chunk
  have hwh : Whole (view h s.log) := ht.whole hrec
  have hfin : Done (s.add (.enter (.uBytes h bs))) h
      (fun _ s' => wp (sys std) pf (Fin s (.uBytes h bs) b)
        (wr h (fun i => { i with receiving := false }) >>= fun _ => pure 0) s') := by
    rintro i' l' s' a' ⟨⟨-, t', junk', rfl, hj'⟩, hcl⟩ he
    refine wp_wr a' fun s2 a2 => ?_
    refine a2.fin' (says_of (v := { view h l' with receiving := false }) (junk := junk') hz
      (by vw) ⟨t'.chunk, t'.fits, t'.small, t'.sec, t'.cred, t'.need,
        fun _ => (hcl ⟨_, _, rfl⟩).2⟩ rfl hj') hw rfl ⟨he _, trivial⟩
      (Or.inr hrec)
  refine wp_wr a fun s1 a1 => ?_
  refine wp_bind _ _ _ ?_
  unfold on_underlying_io_bytes_received
  refine wp_rd a1 rfl ?_
  rw [Nat.mod_eq_of_lt (by omega : (view h s.log).pend.length + bs.length < 2 ^ 64)]
  replace a1 : At (s.add (.enter (.uBytes h bs))) h (inst { view h s.log with receiving := true } junk) _ s1 := a1
  have hve : view h (.enter (.uBytes h bs) :: s.log) =
      if (view h s.log).pend.length + bs.length ≤ (view h s.log).cap then
        { view h s.log with receiving := true }.absorb bs
      else { view h s.log with receiving := true, chunk := some bs } := by
    rw [view_same (show subject (.enter (.uBytes h bs)) = h from rfl)]; rfl
  generalize hV : view h s.log = V at *
  have habs : ({ V with receiving := true }.absorb bs).need = V.need.map (· - bs.length) := rfl
  have hab2 : ({ V with receiving := true }.absorb bs).pend = V.pend ++ bs := rfl
  have hwa : ∀ v' : View, v'.pend = V.pend ++ bs → v'.raw = V.raw ++ bs → v'.spoilt = V.spoilt →
      Whole v' := by
    intro v' h1 h2 h3 hs
    rw [h1, h2, hwh (h3 ▸ hs)]
  have hnm : (V.need.map (· - bs.length)).isSome = true := by simpa using hneed
  refine wp_bind _ _ _ ?_
  refine resize_spec a1 (by show _ ≤ V.pend.length + bs.length; exact Nat.le_add_right _ _)
    (Or.inr (Or.inr ⟨hrec', fun _ h => by cases h⟩)) ?_ ?_ ?_ ?_
  · intro hlt
    replace hlt : V.cap < V.pend.length + bs.length := hlt
    refine ⟨?_, ?_, ha', by show V.pend.length + bs.length ≠ 0; omega, fun _ => ⟨bs, s.log, rfl, by rw [hV], by rw [hV]; exact hlt⟩,
      by simp⟩
    · simp only [Reacts, hV]
      rw [if_neg (by omega)]; trivial
    · rw [hve, if_neg (by omega)]
  · intro hle
    replace hle : V.pend.length + bs.length ≤ V.cap := hle
    rw [if_pos hle] at hve
    have hadd := block_add V.pend bs junk (by omega)
    simp only [if_true]
    refine wp_st a1 hadd fun s2 a2 => ?_
    refine wp_wr a2 fun s3 a3 => ?_
    refine use_spec (w := { { V with receiving := true }.absorb bs with need := V.need })
      (v := { V with receiving := true }.absorb bs) (junk := junk.drop bs.length) (size := bs.length) ?_ rfl hneed rfl hve
      ⟨rfl, ?_, hsmall, ht.sec, ht.cred, fun _ => hnm, fun _ => hwa _ rfl rfl rfl⟩ ?_ rfl hrec' (hwa _ rfl rfl rfl) ?_ hfin
    · have : inst { { V with receiving := true }.absorb bs with need := V.need } (junk.drop bs.length) =
        { inst { V with receiving := true } junk with
          block := (V.pend ++ bs).map some ++ junk.drop bs.length,
          received_byte_count := some (V.pend.length + bs.length) } := by
        simp [inst, View.absorb]
      rw [this]; exact a3
    · rw [hab2, List.length_append]; exact hle
    · rw [hab2, List.length_append, List.length_drop]; show _ = V.cap; omega
    · intro e he
      simp only [Reacts, hV]
      rw [if_pos hle, hve]
      exact he
  · intro bs2 s2 hlt a2
    replace hlt : V.cap < V.pend.length + bs.length := hlt
    rw [if_neg (by omega)] at hve
    simp only [Bool.false_eq_true, if_false]
    refine hfin _ _ _ a2 (saysC_of (v := { V with receiving := true }) hz ?_ ?_ rfl hj
      fun _ => ⟨rfl, hwh⟩) ?_
    · rw [view_ret, view_call, hve]; simp [View.next, View.resized, hchunk]
    · exact ⟨hchunk, hfits, hsmall, ht.sec, ht.cred, ht.need, fun _ => hwh⟩
    · intro c
      simp only [Reacts]
      rw [if_pos trivial]
      exact ends_leave c
  · intro q bs2 s2 junk2 hlt hq hsm hl2 a2
    replace hlt : V.cap < V.pend.length + bs.length := hlt
    replace hl2 : V.pend.length + junk2.length = V.pend.length + bs.length := hl2
    rw [if_neg (by omega)] at hve
    have hadd := block_add V.pend bs junk2 (by omega)
    simp only [if_true]
    refine wp_st a2 hadd fun s3 a3 => ?_
    refine wp_wr a3 fun s4 a4 => ?_
    have hv4 : view h (.ret h (.realloc .chunk V.buf (V.pend.length + bs.length)) (q : Int) bs2 ::
        .call h (.realloc .chunk V.buf (V.pend.length + bs.length)) :: .enter (.uBytes h bs) :: s.log) =
        { V with receiving := true, buf := q, cap := V.pend.length + bs.length }.absorb bs := by
      rw [view_ret, view_call, hve]
      simp [View.next, View.resized, hq, View.absorb]
    refine use_spec (w := { { V with receiving := true, buf := q, cap := V.pend.length + bs.length }.absorb bs with need := V.need })
      (v := { V with receiving := true, buf := q, cap := V.pend.length + bs.length }.absorb bs)
      (junk := junk2.drop bs.length) (size := bs.length) ?_ rfl hneed rfl hv4
      ⟨rfl, ?_, hsm, ht.sec, ht.cred, fun _ => hnm, fun _ => hwa _ rfl rfl rfl⟩ ?_ rfl hrec' (hwa _ rfl rfl rfl) ?_ hfin
    · have : inst { { V with receiving := true, buf := q, cap := V.pend.length + bs.length }.absorb bs with need := V.need } (junk2.drop bs.length) =
        { inst { V with receiving := true, buf := q, cap := V.pend.length + bs.length } junk2 with
          block := (V.pend ++ bs).map some ++ junk2.drop bs.length,
          received_byte_count := some (V.pend.length + bs.length) } := by
        simp [inst, View.absorb]
      rw [this]; exact a4
    · show (V.pend ++ bs).length ≤ V.pend.length + bs.length
      rw [List.length_append]; exact Nat.le_refl _
    · show (V.pend ++ bs).length + _ = V.pend.length + bs.length
      rw [List.length_append, List.length_drop]; omega
    · intro e he
      simp only [Reacts]
      rw [if_neg (by omega)]
      rw [← hv4] at he
      exact he


/-! ### The interface -/

theorem open_fin {s : S} {h : Nat} {cbs : Cbs} {b : Bool} (hi : Inv s)
    (hl : h = 0 ∨ (s.heap h).isSome = true) :
    wp (sys std) pf (Fin s (.open h cbs) b) (body (.open h cbs)) (s.add (.enter (.open h cbs))) := by
  show wp _ _ _ (tlsio_schannel_open h cbs) _
  unfold tlsio_schannel_open
  by_cases hz : h = 0
  · rw [if_pos hz]
    subst hz
    exact fin_null hi rfl rfl (by intro _ _ h; cases h) (by spec)
  · rw [if_neg hz]
    have hl := hl.resolve_left hz
    obtain ⟨ht, junk, hj, a⟩ := hi.at hl (.open h cbs) rfl
    have ha : h ∈ alives (s.add (.enter (.open h cbs))).log := (hi.alive h).2 hl
    have hw : ∀ n, (Call.open h cbs).handle n = h := fun _ => rfl
    refine wp_rd a rfl ?_
    split
    next hp =>
      have hp : (view h s.log).phase ≠ .idle := fun h => hp (by rw [h]; rfl)
      exact a.fin (says_of hz (by vw) ht rfl hj) hw rfl (by spec)
    next hp =>
      have hp : (view h s.log).phase = .idle := by
        have := Classical.not_not.1 hp
        exact state_inj (q := .idle) this
      iterate 7 refine wp_wr (by assumption) fun _ _ => ?_
      rename_i s7 a7
      refine wp_rd a7 rfl ?_
      refine wp_re a7 rfl (says_of (v := { view h s.log with phase := .opening, cbs := cbs }) hz
        (by vw) (ht.of rfl rfl rfl ⟨by simp, by simp⟩) rfl hj) ?_ ?_
      · refine ⟨?_, cbs, _, rfl, hp, rfl, rfl, rfl, rfl⟩
        simp only [Reacts, phase]
        rw [if_pos ⟨hz, hp⟩]
        trivial
      intro n bs l' s' junk' _ a' t' hj' _ _
      split
      next hn => exact a'.fin (says_of hz (by vw) t' rfl hj') hw rfl ⟨⟨_, _, rfl, by
        constructor
        · intro h; cases h
        · intro h; exact absurd h hn⟩, trivial⟩
      next hn => exact a'.fin (says_of hz (by vw) t' rfl hj') hw rfl ⟨⟨_, _, rfl, by
        constructor
        · intro _; exact Classical.not_not.1 hn
        · intro _; rfl⟩, trivial⟩

theorem close_fin {s : S} {h fn ctx : Nat} {b : Bool} (hi : Inv s)
    (hl : h = 0 ∨ (s.heap h).isSome = true) :
    wp (sys std) pf (Fin s (.close h fn ctx) b) (body (.close h fn ctx))
      (s.add (.enter (.close h fn ctx))) := by
  show wp _ _ _ (tlsio_schannel_close h fn ctx) _
  unfold tlsio_schannel_close
  by_cases hz : h = 0
  · rw [if_pos hz]
    subst hz
    exact fin_null hi rfl rfl (by intro _ _ h; cases h) (by spec)
  · rw [if_neg hz]
    have hl := hl.resolve_left hz
    obtain ⟨ht, junk, hj, a⟩ := hi.at hl (.close h fn ctx) rfl
    have ha : h ∈ alives (s.add (.enter (.close h fn ctx))).log := (hi.alive h).2 hl
    have hw : ∀ n, (Call.close h fn ctx).handle n = h := fun _ => rfl
    refine wp_rd a rfl ?_
    split
    next hp =>
      have hp : (view h s.log).phase = .idle ∨ (view h s.log).phase = .shut :=
        hp.imp (state_inj (q := .idle)) (state_inj (q := .shut))
      refine a.fin (says_of hz ?_ ht rfl hj) hw rfl ⟨?_, trivial⟩
      · simp [view, View.next, subject, Call.handle, hp]
      · simp only [Reacts]
        rw [if_neg (by rintro ⟨-, h1, h2⟩; exact hp.elim h1 h2)]
        exact ⟨_, _, by decide, rfl⟩
    next hp =>
      have hp1 : (view h s.log).phase ≠ .idle := fun h => hp (Or.inl (by rw [h]; rfl))
      have hp2 : (view h s.log).phase ≠ .shut := fun h => hp (Or.inr (by rw [h]; rfl))
      iterate 3 refine wp_wr (by assumption) fun _ _ => ?_
      rename_i s7 a7
      refine wp_rd a7 rfl ?_
      have hv7 : view h (.enter (.close h fn ctx) :: s.log) =
          { view h s.log with phase := .shut, closeFn := fn, closeCtx := ctx } := by vw
      refine wp_re a7 rfl (says_of (v := { view h s.log with
        phase := .shut, closeFn := fn, closeCtx := ctx }) hz
        (by rw [view_call, hv7]; rfl) (ht.of rfl rfl rfl ⟨by simp, by simp⟩) rfl hj) ?_ ?_
      · refine ⟨?_, by rw [hv7], rfl, _, _, _, rfl, hp1, hp2⟩
        simp only [Reacts, phase]
        rw [if_pos ⟨hz, hp1, hp2⟩]
        trivial
      intro n bs l' s' junk' _ a' t' hj' _ _
      split
      next hn => exact a'.fin (says_of hz (by vw) t' rfl hj') hw rfl ⟨⟨_, _, rfl, by
        constructor
        · intro h; cases h
        · intro h; exact absurd h hn⟩, trivial⟩
      next hn => exact a'.fin (says_of hz (by vw) t' rfl hj') hw rfl ⟨⟨_, _, rfl, by
        constructor
        · intro _; exact Classical.not_not.1 hn
        · intro _; rfl⟩, trivial⟩

theorem dowork_fin {s : S} {h : Nat} {b : Bool} (hi : Inv s)
    (hl : h = 0 ∨ (s.heap h).isSome = true) :
    wp (sys std) pf (Fin s (.dowork h) b) (body (.dowork h)) (s.add (.enter (.dowork h))) := by
  refine wp_bind _ _ _ ?_
  unfold tlsio_schannel_dowork
  by_cases hz : h = 0
  · rw [if_pos hz]
    subst hz
    exact fin_null hi rfl rfl (by intro _ _ h; cases h) (by spec)
  · rw [if_neg hz]
    have hl := hl.resolve_left hz
    obtain ⟨ht, junk, hj, a⟩ := hi.at hl (.dowork h) rfl
    have ha : h ∈ alives (s.add (.enter (.dowork h))).log := (hi.alive h).2 hl
    have hw : ∀ n, (Call.dowork h).handle n = h := fun _ => rfl
    refine wp_rd a rfl ?_
    refine wp_re a rfl (says_of hz (by vw) ht rfl hj) (by spec) ?_
    intro n bs l' s' junk' _ a' t' hj' _ _
    exact a'.fin (says_of hz (by vw) t' rfl hj') hw rfl ⟨ends_leave _, trivial⟩

theorem setoption_fin {s : S} {h : Nat} {name : Option Bytes} {value : Nat} {b : Bool} (hi : Inv s)
    (hl : h = 0 ∨ (s.heap h).isSome = true) :
    wp (sys std) pf (Fin s (.setoption h name value) b) (body (.setoption h name value))
      (s.add (.enter (.setoption h name value))) := by
  show wp _ _ _ (tlsio_schannel_setoption h name value) _
  unfold tlsio_schannel_setoption
  by_cases hz : h = 0
  · subst hz
    cases name with
    | none => exact fin_null hi rfl rfl (by intro _ _ h; cases h) (by spec)
    | some nm =>
      dsimp only
      rw [if_pos rfl]
      exact fin_null hi rfl rfl (by intro _ _ h; cases h) (by spec)
  · have hl := hl.resolve_left hz
    obtain ⟨ht, junk, hj, a⟩ := hi.at hl (.setoption h name value) rfl
    have ha : h ∈ alives (s.add (.enter (.setoption h name value))).log := (hi.alive h).2 hl
    have hw : ∀ n, (Call.setoption h name value).handle n = h := fun _ => rfl
    cases name with
    | none => exact a.fin (says_of hz (by vw) ht rfl hj) hw rfl (by spec)
    | some nm =>
      dsimp only
      rw [if_neg hz]
      refine wp_rd a rfl ?_
      refine wp_open a rfl (says_of hz (by vw) ht rfl hj) (by spec) ?_
      intro n bs l' s' junk' _ a' t' hj' _ _
      exact a'.fin (says_of hz (by vw) t' rfl hj') hw rfl ⟨⟨_, rfl⟩, trivial⟩

/-! ### Sending -/

theorem sendsOn_iff {l : List Event} {h h' : Nat} {null : Bool} {whole sent cur : Bytes}
    {fn ctx : Nat} {fs : List Fr} {e : Event}
    (hf : frames l = ⟨.send h' null whole fn ctx, sent, cur⟩ :: fs) :
    sendsOn l h e ↔ if sent = whole then ends e
      else if h ≠ 0 ∧ null = false ∧ phase h l = .live then
        e = .call h (.querySizes ((view h l).sec.getD 0))
      else fails e := by
  unfold sendsOn
  rw [hf]

section
variable {Q : Bool → S → Prop} {s0 s : S} {h : Nat} {l : List Event}
  {whole sent cur bs : Bytes} {fn0 fn ctx : Nat} {fs : List Fr} {v : View}
  {junk : List (Option UInt8)}

/-- The answers of `send_chunk`: not sent. -/
def NotSent (s0 : S) (h : Nat) (c : Call) (sent : Bytes) (fs : List Fr) (Q : Bool → S → Prop) : Prop :=
  ∀ l v junk s cur, At s0 h (inst v junk) l s → view h l = v → Tidy v →
    v.pend.length + junk.length = v.cap → frames l = ⟨c, sent, cur⟩ :: fs →
    (∀ e, fails e → Reacts l e) → Q false s

/-- The answers of `send_chunk`: sent. -/
def IsSent (s0 : S) (h : Nat) (c : Call) (sent : Bytes) (fs : List Fr) (Q : Bool → S → Prop) : Prop :=
  ∀ l v junk s cur, At s0 h (inst v junk) l s → view h l = v → Tidy v →
    v.pend.length + junk.length = v.cap → frames l = ⟨c, sent, cur⟩ :: fs →
    (∀ e, sendsOn l h e → Reacts l e) → Q true s

theorem send_record_spec {hdr trl p : Nat} (a : At s0 h (inst v junk) l s) (hv : view h l = v)
    (ht : Tidy v) (hj : v.pend.length + junk.length = v.cap)
    (hf : frames l = ⟨.send h false whole fn0 ctx, sent, cur⟩ :: fs)
    (hc : ∀ sec, v.sec = some sec → Claim l (.call h (.encrypt sec hdr bs trl)))
    (hlive : v.phase = .live) (hp0 : p ≠ 0)
    (hfn : fn = if sent ++ bs = whole then fn0 else 0)
    (hno : NotSent s0 h (.send h false whole fn0 ctx) sent fs Q)
    (hyes : IsSent s0 h (.send h false whole fn0 ctx) (sent ++ bs) fs Q)
    (ha : h ∈ alives s0.log := by assumption) :
    wp (sys std) pf Q (send_record h p hdr bs trl fn ctx) s := by
  obtain ⟨sec, hsec⟩ := Option.isSome_iff_exists.1 (ht.sec (Or.inr hlive))
  unfold send_record
  refine wp_rd a (x := sec) hsec ?_
  refine wp_callB a rfl (Or.inl rfl) (hc sec hsec) ?_
  intro n rec s1 hval a1
  have hf1 : frames (.ret h (.encrypt sec hdr bs trl) n rec :: .call h (.encrypt sec hdr bs trl) :: l) =
      ⟨.send h false whole fn0 ctx, sent, bs⟩ :: fs := by
    simp only [frames, hf]
  have hvc : view h (.call h (.encrypt sec hdr bs trl) :: l) = v := by rw [view_call, hv]; rfl
  have hv1 : view h (.ret h (.encrypt sec hdr bs trl) n rec :: .call h (.encrypt sec hdr bs trl) :: l) = v := by
    rw [view_ret, hvc]; rfl
  dsimp only
  split
  next hn =>
    refine wp_call a1 rfl (Or.inl rfl) ⟨?_, hp0⟩ ?_
    · simp only [Reacts]
      rw [if_pos hn]
      exact ⟨p, rfl⟩
    intro n2 bs2 s2 _ a2
    refine hno _ v junk s2 bs a2 ?_ ht hj ?_ ?_
    · rw [view_ret, view_call, hv1]; rfl
    · simp only [frames, hf]
    · intro e he
      exact he
  next hn =>
    refine wp_rd a1 rfl ?_
    refine wp_re a1 rfl (says_of a.nz (by rw [view_call, hv1]; rfl) ht rfl hj) ?_ ?_
    · refine ⟨?_, by rw [hv1], ⟨_, _, _, _, _, _, rfl, by omega⟩, whole, fn0, sent, bs, fs, hf1, hfn⟩
      simp only [Reacts]
      rw [if_neg hn, hvc]
      exact ⟨_, _, rfl⟩
    intro r bsr l' s2 junk2 _ a2 t2 hj2 _ hfr
    rw [hf1] at hfr
    refine wp_call a2 rfl (Or.inl rfl) ⟨⟨p, rfl⟩, hp0⟩ ?_
    intro n3 bs3 s3 _ a3
    have hv3 : view h (.ret h (.freeOut p) n3 bs3 :: .call h (.freeOut p) ::
        .ret h (.xioSend .data v.io rec fn ctx) r bsr :: l') = view h l' := by
      rw [view_ret, view_call, view_ret]; rfl
    by_cases hr : r = 0
    · rw [show (r == 0) = true by simp [hr]]
      refine hyes _ _ junk2 s3 bs a3 hv3 t2 hj2 ?_ ?_
      · simp only [frames, hfr, hr]
        simp
      · intro e he
        simp only [Reacts]
        rw [if_pos hr]
        exact he
    · rw [show (r == 0) = false by simp [hr]]
      refine hno _ _ junk2 s3 bs a3 hv3 t2 hj2 ?_ ?_
      · simp only [frames, hfr, hr]
        simp
      · intro e he
        simp only [Reacts]
        rw [if_neg hr]
        exact he

theorem send_chunk_spec {null : Bool} (a : At s0 h (inst v junk) l s) (hv : view h l = v)
    (ht : Tidy v) (hj : v.pend.length + junk.length = v.cap)
    (hf : frames l = ⟨.send h null whole fn0 ctx, sent, cur⟩ :: fs)
    (hr : ∀ e, sendsOn l h e → Reacts l e)
    (hpre : sent <+: whole) (hbs : bs = piece whole sent) (hne : bs ≠ [])
    (hfn : fn = if sent ++ bs = whole then fn0 else 0)
    (hno : NotSent s0 h (.send h null whole fn0 ctx) sent fs Q)
    (hyes : IsSent s0 h (.send h null whole fn0 ctx) (sent ++ bs) fs Q)
    (ha : h ∈ alives s0.log := by assumption) :
    wp (sys std) pf Q (send_chunk h null bs fn ctx) s := by
  have hlen : bs.length ≤ 16384 := by rw [hbs]; unfold piece; simp; omega
  have hl0 : bs.length ≠ 0 := by simpa using hne
  have hsw : sent ≠ whole := by
    rintro rfl
    apply hne
    rw [hbs]; simp [piece]
  have hz := a.nz
  unfold send_chunk
  split
  next h1 =>
    have hnull : null = true := by
      rcases h1 with h1 | h1 | h1
      · exact absurd h1 hz
      · exact h1
      · exact absurd h1 hl0
    refine hno l v junk s cur a hv ht hj hf fun e he => hr e ?_
    rw [sendsOn_iff hf, if_neg hsw, if_neg (by simp [hnull])]
    exact he
  next h1 =>
    have hnull : null = false := by
      cases null
      · rfl
      · exact absurd (Or.inr (Or.inl rfl)) h1
    subst hnull
    clear h1
    refine wp_rd a rfl ?_
    split
    next hp =>
      have hp : v.phase ≠ .live := fun h => hp (by rw [h]; rfl)
      refine hno l v junk s cur a hv ht hj hf fun e he => hr e ?_
      rw [sendsOn_iff hf, if_neg hsw, if_neg (by rw [phase, hv]; exact fun h => hp h.2.2)]
      exact he
    next hp =>
      have hp : v.phase = .live := state_inj (q := .live) (Classical.not_not.1 hp)
      obtain ⟨sec, hsec⟩ := Option.isSome_iff_exists.1 (ht.sec (Or.inr hp))
      refine wp_rd a (x := sec) hsec ?_
      refine wp_call a rfl (Or.inl rfl) ⟨hr _ ?_, by rw [hv]; exact hsec, by rw [phase, hv]; exact hp⟩ ?_
      · rw [sendsOn_iff hf, if_neg hsw, if_pos (by rw [phase, hv]; exact ⟨hz, rfl, hp⟩), hv, hsec]
        rfl
      intro n1 bs1 s1 _ a1
      have hv1 : view h (.ret h (.querySizes sec) n1 bs1 :: .call h (.querySizes sec) :: l) = v := by
        rw [view_ret, view_call, hv]; rfl
      have hf1 : frames (.ret h (.querySizes sec) n1 bs1 :: .call h (.querySizes sec) :: l) = 
        ⟨.send h false whole fn0 ctx, sent, cur⟩ :: fs := hf
      split
      next h2 =>
        refine hno _ v junk s1 cur a1 hv1 ht hj hf1 ?_
        intro e he
        simp only [Reacts]
        rw [if_neg h2]
        exact he
      next h2 =>
        have h2 : n1 = 0 := Classical.not_not.1 h2
        refine wp_callP a1 rfl (Or.inl rfl) ⟨by simp only [Reacts]; rw [if_pos h2]; trivial, trivial⟩ ?_
        intro n2 bs2 s2 hv2 a2
        refine wp_callP a2 rfl (Or.inl rfl) ⟨rfl, trivial⟩ ?_
        intro n3 bs3 s3 hv3 a3
        simp only [valid, decide_eq_true_eq] at hv2 hv3
        rw [Nat.mod_eq_of_lt (by omega)]
        refine wp_callP a3 rfl (Or.inl rfl) ⟨trivial, trivial⟩ ?_
        intro n4 bs4 s4 hv4 a4
        simp only [valid, isPtr, decide_eq_true_eq] at hv4
        have hve : view h (.ret h (.mallocOut (n2.toNat + bs.length + n3.toNat)) n4 bs4 ::
            .call h (.mallocOut (n2.toNat + bs.length + n3.toNat)) ::
            .ret h .trailer n3 bs3 :: .call h .trailer :: .ret h .header n2 bs2 :: .call h .header ::
            .ret h (.querySizes sec) n1 bs1 :: .call h (.querySizes sec) :: l) = v := by
          simp only [view_ret, view_call, hv]; rfl
        split
        next h5 =>
          refine hno _ v junk s4 cur a4 hve ht hj hf ?_
          intro e he
          simp only [Reacts]
          intro _
          exact he
        next h5 =>
          have h5 : n4.toNat ≠ 0 := h5
          refine send_record_spec a4 hve ht hj hf ?_ hp h5 hfn hno hyes
          intro sec' hsec'
          refine ⟨?_, by rw [phase, hve]; exact hp, by rw [hve]; exact hsec',
            whole, fn0, ctx, sent, cur, fs, hf, hpre, hbs, hne,
            _, _, _, _, _, _, _, _, _, _, rfl, ?_, ?_, ?_⟩
          · simp only [Reacts]
            intro h; exact absurd h h5
          · omega
          · omega
          · omega

end

theorem send_loop {s0 : S} {h : Nat} {null : Bool} {whole : Bytes} {fn ctx : Nat} {b : Bool}
    {fs : List Fr} (ha : h ∈ alives (s0.add (.enter (.send h null whole fn ctx))).log) :
    ∀ (n : Nat) (bs sent cur : Bytes) (l : List Event) (s : S) (v : View) (junk : List (Option UInt8)),
      bs.length ≤ n → sent ++ bs = whole →
      At (s0.add (.enter (.send h null whole fn ctx))) h (inst v junk) l s → view h l = v → Tidy v →
      v.pend.length + junk.length = v.cap →
      frames l = ⟨.send h null whole fn ctx, sent, cur⟩ :: fs →
      (∀ e, sendsOn l h e → Reacts l e) →
      wp (sys std) pf (Fin s0 (.send h null whole fn ctx) b) (tlsio_schannel_send h null bs fn ctx) s := by
  intro n
  induction n with
  | zero =>
    intro bs sent cur l s v junk hn hsum a hv ht hj hf hr
    have : bs = [] := List.eq_nil_of_length_eq_zero (Nat.le_zero.1 hn)
    subst this
    rw [List.append_nil] at hsum
    subst hsum
    rw [tlsio_schannel_send]
    rw [dif_neg (by simp)]
    refine a.fin (says_of a.nz hv ht rfl hj) (fun _ => rfl) rfl ⟨hr _ ?_, _, _, _, _, hf,
      List.prefix_refl _, by simp⟩
    rw [sendsOn_iff hf, if_pos rfl]
    exact ends_leave _
  | succ n ih =>
    intro bs sent cur l s v junk hn hsum a hv ht hj hf hr
    by_cases hz : bs.length > 0
    · rw [tlsio_schannel_send, dif_pos hz]
      dsimp only
      generalize hT : (if 16 * 1024 > bs.length then bs.length else 16 * 1024) = T at *
      have hT1 : 0 < T := by rw [← hT]; split <;> omega
      have hT2 : T ≤ bs.length := by rw [← hT]; split <;> omega
      have hpre : sent <+: whole := ⟨bs, hsum⟩
      have hbs : bs.take T = piece whole sent := by
        unfold piece
        rw [← hsum, List.drop_left]
        by_cases hx : 16 * 1024 > bs.length
        · rw [← hT, if_pos hx, List.take_of_length_le (Nat.le_refl _), List.take_of_length_le (by omega)]
        · rw [← hT, if_neg hx]
      have hfull : sent ++ bs.take T = whole ↔ T = bs.length := by
        rw [← hsum]
        constructor
        · intro hh
          have := congrArg List.length (List.append_cancel_left hh)
          simp at this
          omega
        · intro hh
          rw [List.take_of_length_le (by omega)]
      have hws : sent ≠ whole := by
        intro hh
        rw [← hh] at hsum
        have := congrArg List.length hsum
        simp at this
        rw [this] at hz
        simp at hz
      refine wp_bind _ _ _ ?_
      refine send_chunk_spec a hv ht hj hf hr hpre hbs ?_ ?_ ?_ ?_
      · intro hh
        have := congrArg List.length hh
        simp at this
        rcases this with h1 | h1
        · omega
        · rw [h1] at hz; simp at hz
      · by_cases hx : T = bs.length
        · rw [if_pos hx, if_pos (hfull.2 hx)]
        · rw [if_neg hx, if_neg (fun h => hx (hfull.1 h))]
      · intro l' v' junk' s' cur' a' hv' ht' hj' hf' hr'
        simp only [Bool.false_eq_true, if_false]
        refine a'.fin (says_of a.nz hv' ht' rfl hj') (fun _ => rfl) rfl
          ⟨hr' _ ⟨_, _, by decide, rfl⟩, _, _, _, _, hf', hpre, ?_⟩
        constructor
        · intro h; cases h
        · intro h; exact absurd h hws
      · intro l' v' junk' s' cur' a' hv' ht' hj' hf' hr'
        simp only [if_true]
        refine ih (bs.drop T) (sent ++ bs.take T) cur' l' s' v' junk' (by simp; omega) ?_ a' hv' ht' hj' hf' hr'
        rw [List.append_assoc, List.take_append_drop, hsum]
    · have : bs = [] := List.eq_nil_of_length_eq_zero (by omega)
      subst this
      exact ih [] sent cur l s v junk (by simp) hsum a hv ht hj hf hr

theorem send_fin {s : S} {h : Nat} {null : Bool} {bs : Bytes} {fn ctx : Nat} {b : Bool} (hi : Inv s)
    (hl : h = 0 ∨ (s.heap h).isSome = true) :
    wp (sys std) pf (Fin s (.send h null bs fn ctx) b) (body (.send h null bs fn ctx))
      (s.add (.enter (.send h null bs fn ctx))) := by
  show wp _ _ _ (tlsio_schannel_send h null bs fn ctx) _
  by_cases hz : h = 0
  · subst hz
    rw [tlsio_schannel_send]
    have hf : frames (.enter (.send 0 null bs fn ctx) :: s.log) =
      ⟨.send 0 null bs fn ctx, [], []⟩ :: frames s.log := rfl
    split
    next hb =>
      unfold send_chunk
      refine wp_bind _ _ _ ?_
      rw [if_pos (Or.inl rfl)]
      refine fin_null hi rfl rfl (by intro _ _ h; cases h) ⟨?_, _, _, _, _, hf, List.nil_prefix, ?_⟩
      · simp only [Reacts]
        rw [sendsOn_iff hf, if_neg, if_neg (by simp)]
        · exact ⟨_, _, by decide, rfl⟩
        · intro h; rw [← h] at hb; simp at hb
      · constructor
        · intro h; cases h
        · intro h; rw [← h] at hb; simp at hb
    next hb =>
      have : bs = [] := List.eq_nil_of_length_eq_zero (by omega)
      subst this
      refine fin_null hi rfl rfl (by intro _ _ h; cases h) ⟨?_, _, _, _, _, hf, List.nil_prefix, by simp⟩
      simp only [Reacts]
      rw [sendsOn_iff hf, if_pos rfl]
      exact ends_leave _
  · have hl := hl.resolve_left hz
    obtain ⟨ht, junk, hj, a⟩ := hi.at hl (.send h null bs fn ctx) rfl
    have ha : h ∈ alives (s.add (.enter (.send h null bs fn ctx))).log := (hi.alive h).2 hl
    exact send_loop ha bs.length bs [] [] _ _ _ junk (Nat.le_refl _) rfl a (by vw) ht hj rfl
      (fun _ h => h)

end Verif.Schan
