import Verif.Tls.Spec

/-
Every function of `src/tlsio_openssl.c` keeps to the specification, whatever the environment does.
-/
namespace Verif.Tls
open Verif.Game

abbrev S := St Inst Op Call

/-- The state the code keeps for a phase. -/
def Phase.state : Phase → State
  | .idle => .notOpen
  | .opening => .openingUnderlyingIo
  | .handshake => .inHandshake
  | .live => .opened
  | .shut => .closing
  | .broken => .error

/-- What the memory of a TLS IO holds. -/
def inst (v : View) : Inst where
  underlying_io := some v.io
  on_bytes_received := some v.cbs.bytesFn
  on_io_open_complete := some v.cbs.openFn
  on_io_close_complete := some v.closeFn
  on_io_error := some v.cbs.errFn
  on_bytes_received_context := some v.cbs.bytesCtx
  on_io_open_complete_context := some v.cbs.openCtx
  on_io_close_complete_context := some v.closeCtx
  on_io_error_context := some v.cbs.errCtx
  logger_log := some v.logger
  ssl := some v.ssl
  ssl_context := some v.ctx
  in_bio := some v.inBio
  out_bio := some v.outBio
  tlsio_state := some v.phase.state

/-- While bytes are being processed, what allows their delivery is not lost. -/
def Keeps (v v' : View) : Prop := v'.depth = v.depth ∧ (0 < v.depth → v.flows → v'.flows)

theorem Keeps.refl (v : View) : Keeps v v := ⟨rfl, fun _ h => h⟩

theorem Keeps.trans {v1 v2 v3 : View} (a : Keeps v1 v2) (b : Keeps v2 v3) : Keeps v1 v3 :=
  ⟨b.1.trans a.1, fun h1 h2 => b.2 (by rw [a.1]; exact h1) (a.2 h1 h2)⟩

/-- Every instance in memory is as the log tells. -/
structure Inv (s : S) : Prop where
  says : ∀ h i, s.heap h = some i → h ≠ 0 ∧ i = inst (view h s.log)
  alive : ∀ h, h ∈ alives s.log ↔ (s.heap h).isSome = true

/-- What the environment can do: no instance dies. -/
def Rely (s s' : S) : Prop :=
  s.log <:+ s'.log ∧ ∀ h, (s.heap h).isSome → (s'.heap h).isSome ∧ Keeps (view h s.log) (view h s'.log)

/-- Before a round of the loop, and after the last. -/
def Loop (h : Nat) (more : Bool) (s : S) : Prop :=
  (s.heap h).isSome ∧ 0 < (view h s.log).depth ∧
  if more then (view h s.log).flows ∧ Reacts s.log (.call h (.sslRead (view h s.log).ssl 64))
  else ∃ ssl num n bs l', s.log = .ret h (.sslRead ssl num) n bs :: l' ∧ n ≤ 0

def pf : Proof Inst Op Call := ⟨Inv, Rely, Loop, Claim⟩

/-- In the course of a function that works on the instance `h`, begun in `s0`. -/
structure At (s0 : S) (h : Nat) (i : Inst) (l : List Event) (s : S) : Prop where
  log : s.log = l
  here : s.heap h = some i
  nz : h ≠ 0
  others : ∀ h' i', h' ≠ h → s.heap h' = some i' → h' ≠ 0 ∧ i' = inst (view h' l)
  rely : ∀ h', h' ≠ h → (s0.heap h').isSome →
    (s.heap h').isSome ∧ Keeps (view h' s0.log) (view h' l)
  keeps : Keeps (view h s0.log) (view h l)
  suf : s0.log <:+ l
  alv : ∀ h', h' ≠ h → (h' ∈ alives l ↔ (s.heap h').isSome = true)
  self : h ∈ alives s0.log → h ∈ alives l

theorem view_cons (h : Nat) (e : Event) (l : List Event) :
    view h (e :: l) = if subject e = h then (view h l).next e else view h l := rfl

theorem view_other {h : Nat} {e : Event} {l : List Event} (he : subject e ≠ h) :
    view h (e :: l) = view h l := if_neg he

theorem view_same {h : Nat} {e : Event} {l : List Event} (he : subject e = h) :
    view h (e :: l) = (view h l).next e := if_pos he

/-- The events that say where a delivery begins and ends, or that a TLS IO is new or gone. -/
def marks : Event → Bool
  | .enter (.uBytes ..) | .leave (.uBytes ..) _ | .leave (.create ..) _
  | .leave (.destroy _) _ => true
  | _ => false

theorem Keeps.next (v : View) {e : Event} (he : marks e = false) : Keeps v (v.next e) := by
  unfold View.next
  split
  all_goals first
    | (cases he; done)
    | exact Keeps.refl v
    | exact ⟨rfl, fun _ h => h⟩
    | skip
  · split
    · exact ⟨rfl, fun _ h => by rcases h with h | h <;> simp_all [View.flows]⟩
    · exact Keeps.refl v
  · split
    · exact ⟨rfl, fun _ h => by rcases h with h | h <;> simp_all [View.flows]⟩
    · split
      · exact ⟨rfl, fun _ h => Or.inl rfl⟩
      · exact Keeps.refl v
  · split
    · exact ⟨rfl, fun _ h => by rcases h with h | h <;> simp_all [View.flows]⟩
    · exact Keeps.refl v
  · split
    · exact ⟨rfl, fun _ h => by rcases h with h | h <;> simp_all [View.flows]⟩
    · exact Keeps.refl v
  · split
    · exact Keeps.refl v
    · refine ⟨rfl, fun hd h => Or.inr ?_⟩
      have : (v.depth != 0) = true := by simp; omega
      rcases h with h | h <;> simp [this, h]
  · split
    · refine ⟨rfl, fun hd h => Or.inr ?_⟩
      have : (v.depth != 0) = true := by simp; omega
      rcases h with h | h <;> simp [this, h]
    · exact Keeps.refl v

theorem Keeps.view (h : Nat) (l : List Event) {e : Event} (he : marks e = false) :
    Keeps (view h l) (Verif.Tls.view h (e :: l)) := by
  by_cases hs : subject e = h
  · rw [view_same hs]; exact Keeps.next _ he
  · rw [view_other hs]; exact Keeps.refl _

/-- The events that do not say that a TLS IO is new or gone. -/
theorem alives_other {e : Event} {l : List Event} (h1 : ∀ cfg lg r, e ≠ .leave (.create cfg lg) r)
    (h2 : ∀ h r, e ≠ .leave (.destroy h) r) : alives (e :: l) = alives l := by
  cases e with
  | leave c r =>
    cases c <;> first | rfl | (exact absurd rfl (h1 _ _ _)) | (exact absurd rfl (h2 _ _))
  | _ => rfl

theorem alives_add {e : Event} {l : List Event} (hm : marks e = false) :
    alives (e :: l) = alives l := by
  refine alives_other ?_ ?_
  · rintro cfg lg r rfl; cases hm
  · rintro h r rfl; cases hm

theorem At.add {s0 s : S} {h : Nat} {i : Inst} {l : List Event} (a : At s0 h i l s) {e : Event}
    (he : subject e = h) (hm : marks e = false) : At s0 h i (e :: l) (s.add e) where
  log := by rw [St.add, a.log]
  here := a.here
  nz := a.nz
  others h' i' hne hi := by
    rw [view_other (by rw [he]; exact hne.symm)]
    exact a.others h' i' hne hi
  rely h' hne hi := by
    rw [view_other (by rw [he]; exact hne.symm)]
    exact a.rely h' hne hi
  keeps := a.keeps.trans (Keeps.view h l hm)
  suf := a.suf.trans (List.suffix_cons e l)
  alv h' hne := by rw [alives_add hm]; exact a.alv h' hne
  self hs := by rw [alives_add hm]; exact a.self hs

theorem At.set {s0 s : S} {h : Nat} {i : Inst} {l : List Event} (a : At s0 h i l s) (i' : Inst) :
    At s0 h i' l { s with heap := s.heap.set h (some i') } where
  log := a.log
  here := by simp [Heap.set]
  nz := a.nz
  others h' i'' hne hi := by
    simp only [Heap.set, if_neg hne] at hi
    exact a.others h' i'' hne hi
  rely h' hne hi := by
    simp only [Heap.set, if_neg hne]
    exact a.rely h' hne hi
  keeps := a.keeps
  suf := a.suf
  alv h' hne := by simp only [Heap.set, if_neg hne]; exact a.alv h' hne
  self := a.self

theorem At.inv {s0 s : S} {h : Nat} {i : Inst} {l : List Event} (a : At s0 h i l s)
    (hi : i = inst (view h l)) (ha : h ∈ alives s0.log) : Inv s := by
  refine ⟨fun h' i' hh => ?_, fun h' => ?_⟩
  · by_cases hne : h' = h
    · subst hne
      rw [a.here] at hh
      injection hh with hh
      exact ⟨a.nz, by rw [a.log, ← hh]; exact hi⟩
    · rw [a.log]
      exact a.others h' i' hne hh
  · rw [a.log]
    by_cases hne : h' = h
    · subst hne
      rw [a.here]
      simp [a.self ha]
    · exact a.alv h' hne

/-- After the environment has had its way. -/
theorem At.later {s0 s : S} {h : Nat} {i : Inst} {l : List Event} (a : At s0 h i l s) {s2 : S}
    (hi : Inv s2) (hr : Rely s s2) : At s0 h (inst (view h s2.log)) s2.log s2 := by
  have h1 := hr.2 h (by rw [a.here]; rfl)
  obtain ⟨i2, h2⟩ := Option.isSome_iff_exists.1 h1.1
  refine ⟨rfl, ?_, a.nz, fun h' i' _ hh => hi.says h' i' hh, fun h' hne hh => ?_, ?_, ?_,
    fun h' _ => hi.alive h', fun _ => (hi.alive h).2 h1.1⟩
  · rw [h2, (hi.says h i2 h2).2]
  · have h3 := a.rely h' hne hh
    have h4 := hr.2 h' h3.1
    rw [a.log] at h4
    exact ⟨h4.1, h3.2.trans h4.2⟩
  · have := h1.2
    rw [a.log] at this
    exact a.keeps.trans this
  · have := hr.1
    rw [a.log] at this
    exact a.suf.trans this

theorem Inv.at {s : S} (hi : Inv s) {h : Nat} (hh : (s.heap h).isSome = true) (c : Call)
    (hc : c.handle 0 = h) :
    At (s.add (.enter c)) h (inst (view h s.log)) (.enter c :: s.log) (s.add (.enter c)) := by
  obtain ⟨i, h2⟩ := Option.isSome_iff_exists.1 hh
  refine ⟨rfl, ?_, (hi.says h i h2).1, fun h' i' hne h3 => ?_, fun h' _ h3 => ⟨h3, Keeps.refl _⟩,
    Keeps.refl _, List.suffix_refl _, fun h' _ => hi.alive h', fun h => h⟩
  · show s.heap h = _
    rw [h2, (hi.says h i h2).2]
  · rw [view_other (by show c.handle 0 ≠ h'; rw [hc]; exact hne.symm)]
    exact hi.says h' i' h3

/-! ### Rules -/

section
variable {α β : Type} {Q : β → S → Prop} {s0 s : S} {h : Nat} {i : Inst} {l : List Event}

theorem wp_rd {f : Inst → Option α} {k : α → P β} {x : α} (a : At s0 h i l s)
    (hx : f i = some x) (hk : wp (sys std) pf Q (k x) s) :
    wp (sys std) pf Q (rd h f >>= k) s := by
  refine ⟨i, a.here, ?_⟩
  show wp _ _ _ (Prog.bind (match f i with | none => .ub | some v => .ret v) k) s
  rw [hx]
  exact hk

theorem wp_wr {f : Inst → Inst} {k : Unit → P β} (a : At s0 h i l s)
    (hk : ∀ s', At s0 h (f i) l s' → wp (sys std) pf Q (k ()) s') :
    wp (sys std) pf Q (wr h f >>= k) s :=
  ⟨i, a.here, hk _ (a.set _)⟩

theorem makes_ok {o : Op} (hc : Calls l h o) (hm : o.makes = true) :
    h ∉ alives (.call h o :: l) := by
  cases o <;> first
    | (cases hm; done)
    | exact hc
    | exact hc.2

theorem makes_re {o : Op} (ho : std.reenters o = true) : o.makes = false := by
  cases o <;> first | rfl | cases ho

/-- A call that does not come back in. -/
theorem wp_plain {o : Op} {k : Int → Bytes → P β} (a : At s0 h i l s) (ho : std.reenters o = false)
    (hc : Claim l (.call h o))
    (hk : ∀ n bs s', valid s'.heap o n bs = true →
      At s0 h i (.ret h o n bs :: .call h o :: l) s' → wp (sys std) pf Q (k n bs) s') :
    wp (sys std) pf Q (.call h o k) s := by
  refine ⟨?_, ?_⟩
  · rw [a.log]; exact hc
  · have : (sys std).reenters o = false := ho
    rw [this]
    simp only [Bool.false_eq_true, if_false]
    intro n bs hv
    exact ⟨fun hm => by rw [a.log]; exact makes_ok hc.2 hm,
      hk n bs _ hv ((a.add rfl rfl).add rfl rfl)⟩

/-- A call that may come back in. -/
theorem wp_open {o : Op} {k : Int → Bytes → P β} (a : At s0 h i l s) (ho : std.reenters o = true)
    (hi : i = inst (view h (.call h o :: l))) (hc : Claim l (.call h o))
    (hk : ∀ n bs l' s', valid s'.heap o n bs = true →
      At s0 h (inst (view h l')) (.ret h o n bs :: l') s' →
      (view h (.call h o :: l)).depth = (view h l').depth →
      (0 < (view h l').depth → (view h (.call h o :: l)).flows → (view h l').flows) →
      (.call h o :: l) <:+ l' →
      wp (sys std) pf Q (k n bs) s')
    (ha : h ∈ alives s0.log := by assumption) :
    wp (sys std) pf Q (.call h o k) s := by
  refine ⟨?_, ?_⟩
  · rw [a.log]; exact hc
  · have : (sys std).reenters o = true := ho
    rw [if_pos this]
    have a1 : At s0 h i (.call h o :: l) (s.add (.call h o)) := a.add rfl rfl
    refine ⟨a1.inv hi ha, fun s2 hi2 hr n bs hv =>
      ⟨fun hm => (by rw [makes_re ho] at hm; cases hm), ?_⟩⟩
    have h1 := (hr.2 h (by rw [a1.here]; rfl)).2
    rw [a1.log] at h1
    refine hk n bs s2.log _ hv ((a1.later hi2 hr).add rfl rfl) h1.1.symm
      (fun hd => h1.2 (by rw [← h1.1]; exact hd)) ?_
    have := hr.1
    rw [a1.log] at this
    exact this

theorem wp_call {o : Op} {k : Int → P β} (a : At s0 h i l s) (ho : std.reenters o = false)
    (hc : Claim l (.call h o))
    (hk : ∀ n bs s', valid s'.heap o n bs = true →
      At s0 h i (.ret h o n bs :: .call h o :: l) s' → wp (sys std) pf Q (k n) s') :
    wp (sys std) pf Q (call h o >>= k) s :=
  wp_plain (k := fun n _ => k n) a ho hc hk

theorem wp_callP {o : Op} {k : Nat → P β} (a : At s0 h i l s) (ho : std.reenters o = false)
    (hc : Claim l (.call h o))
    (hk : ∀ n bs s', valid s'.heap o n bs = true →
      At s0 h i (.ret h o n bs :: .call h o :: l) s' → wp (sys std) pf Q (k n.toNat) s') :
    wp (sys std) pf Q (callP h o >>= k) s :=
  wp_plain (k := fun n _ => k n.toNat) a ho hc hk

theorem wp_callB {o : Op} {k : Int × Bytes → P β} (a : At s0 h i l s) (ho : std.reenters o = false)
    (hc : Claim l (.call h o))
    (hk : ∀ n bs s', valid s'.heap o n bs = true →
      At s0 h i (.ret h o n bs :: .call h o :: l) s' → wp (sys std) pf Q (k (n, bs)) s') :
    wp (sys std) pf Q (callB h o >>= k) s :=
  wp_plain (k := fun n bs => k (n, bs)) a ho hc hk

theorem wp_re {o : Op} {k : Int → P β} (a : At s0 h i l s) (ho : std.reenters o = true)
    (hi : i = inst (view h (.call h o :: l))) (hc : Claim l (.call h o))
    (hk : ∀ n bs l' s', valid s'.heap o n bs = true →
      At s0 h (inst (view h l')) (.ret h o n bs :: l') s' →
      (view h (.call h o :: l)).depth = (view h l').depth →
      (0 < (view h l').depth → (view h (.call h o :: l)).flows → (view h l').flows) →
      (.call h o :: l) <:+ l' →
      wp (sys std) pf Q (k n) s')
    (ha : h ∈ alives s0.log := by assumption) :
    wp (sys std) pf Q (call h o >>= k) s :=
  wp_open (k := fun n _ => k n) a ho hi hc hk ha

end

/-- What the claim and the invariant ask for at the end of a function. -/
def Fin (s : S) (c : Call) (b : Bool) (r : Int) (s' : S) : Prop :=
  Claim s'.log (.leave c r) ∧ Inv (s'.add (.leave c r)) ∧ (b = false → Rely s (s'.add (.leave c r)))

/-- All but create and destroy. -/
def Call.works : Call → Bool
  | .create .. | .destroy _ => false
  | _ => true

theorem inst_leave (v : View) (c : Call) (r : Int) (hw : c.works = true) :
    inst (v.next (.leave c r)) = inst v := by
  cases c <;> first | (cases hw; done) | rfl

theorem Keeps.frame (v v' : View) (c : Call) (r : Int) (hw : c.works = true)
    (hk : Keeps (v.next (.enter c)) v') : Keeps v (v'.next (.leave c r)) := by
  by_cases hm : marks (.enter c) = false
  · have h2 : marks (.leave c r) = false := by
      cases c <;> first | (cases hw; done) | (cases hm; done) | rfl
    exact ((Keeps.next v hm).trans hk).trans (Keeps.next v' h2)
  · cases c <;> first | (exact absurd rfl hm) | (cases hw; done) | skip
    obtain ⟨h1, h2⟩ := hk
    have h1' : v'.depth = v.depth + 1 := h1
    refine ⟨by show v'.depth - 1 = _; omega, fun hd hf => ?_⟩
    rcases h2 (Nat.succ_pos _) hf with h | h
    · exact Or.inl h
    · refine Or.inr ?_
      show (v'.cut && v'.depth != 1) = true
      have : (v'.depth != 1) = true := by simp; omega
      rw [h, this]; rfl

theorem At.fin {s s' : S} {h : Nat} {l : List Event} {c : Call} {b : Bool} {r : Int} {i : Inst}
    (a : At (s.add (.enter c)) h i l s') (hi : i = inst (view h l)) (hc : ∀ n, c.handle n = h)
    (hw : c.works = true) (hcl : Claim l (.leave c r))
    (ha : h ∈ alives (s.add (.enter c)).log := by assumption) : Fin s c b r s' := by
  have hsub : subject (.leave c r) = h := hc r
  have hal : alives (.leave c r :: l) = alives l := by
    cases c <;> first | (cases hw; done) | rfl
  refine ⟨by rw [a.log]; exact hcl, ⟨?_, ?_⟩, fun _ => ⟨?_, ?_⟩⟩
  rotate_left
  · intro h'
    show h' ∈ alives (.leave c r :: s'.log) ↔ (s'.heap h').isSome = true
    rw [a.log, hal]
    by_cases hne : h' = h
    · subst hne
      rw [a.here]
      simp [a.self ha]
    · exact a.alv h' hne
  rotate_right
  · intro h' i' hh
    by_cases hne : h' = h
    · subst hne
      have hh' : s'.heap h' = some i' := hh
      rw [a.here] at hh'
      injection hh' with hh'
      refine ⟨a.nz, ?_⟩
      show i' = inst (view h' (_ :: s'.log))
      rw [a.log, view_same hsub, inst_leave _ _ _ hw, ← hh']
      exact hi
    · show _ ∧ i' = inst (view h' (_ :: s'.log))
      rw [a.log, view_other (by rw [hsub]; exact fun e => hne e.symm)]
      exact a.others h' i' hne hh
  · show s.log <:+ .leave c r :: s'.log
    rw [a.log]
    exact ((List.suffix_cons _ _).trans a.suf).trans (List.suffix_cons _ _)
  · intro h' hh
    by_cases hne : h' = h
    · subst hne
      refine ⟨by show (s'.heap h').isSome = true; rw [a.here]; rfl, ?_⟩
      show Keeps _ (view h' (_ :: s'.log))
      rw [a.log, view_same hsub]
      refine Keeps.frame _ _ _ _ hw ?_
      have := a.keeps
      simp only [St.add] at this
      rwa [view_same (show subject (.enter c) = h' from hc 0)] at this
    · have := a.rely h' hne hh
      refine ⟨this.1, ?_⟩
      show Keeps _ (view h' (_ :: s'.log))
      rw [a.log, view_other (by rw [hsub]; exact fun e => hne e.symm)]
      have h2 := this.2
      simp only [St.add] at h2
      rwa [view_other (show subject (.enter c) ≠ h' by
        show c.handle 0 ≠ h'; rw [hc]; exact fun e => hne e.symm)] at h2

/-- A function called with NULL does nothing. -/
theorem fin_null {s : S} (hi : Inv s) {c : Call} {b : Bool} {r : Int}
    (hc0 : c.handle 0 = 0) (hcr : c.handle r = 0)
    (hcl : Claim (.enter c :: s.log) (.leave c r)) :
    Fin s c b r (s.add (.enter c)) := by
  have key : ∀ h, h ≠ 0 → view h (.leave c r :: .enter c :: s.log) = view h s.log := by
    intro h hh
    rw [view_other (by show c.handle r ≠ h; rw [hcr]; exact hh.symm),
      view_other (by show c.handle 0 ≠ h; rw [hc0]; exact hh.symm)]
  refine ⟨hcl, ⟨?_, ?_⟩, fun _ => ⟨?_, ?_⟩⟩
  rotate_left
  · intro h
    refine Iff.trans ?_ (show h ∈ alives s.log ↔ (s.heap h).isSome = true from hi.alive h)
    show h ∈ alives (.leave c r :: .enter c :: s.log) ↔ _
    cases c with
    | create cfg lg =>
      have hr : r.toNat = 0 := hcr
      simp only [alives]
      split
      · rfl
      · exact absurd hcl.2 (by
          intro hx
          simp only [Leaves] at hx
          split at hx
          · contradiction
          · omega)
    | destroy h' =>
      have hr : h' = 0 := hcr
      subst hr
      simp only [alives, List.mem_filter, decide_not, Bool.not_eq_eq_eq_not, Bool.not_true,
        decide_eq_false_iff_not]
      refine ⟨fun h => h.1, fun hh => ⟨hh, ?_⟩⟩
      obtain ⟨i, hx⟩ := Option.isSome_iff_exists.1 ((hi.alive h).1 hh)
      exact (hi.says h i hx).1
    | _ => rfl
  rotate_right
  · intro h i hh
    have := hi.says h i hh
    refine ⟨this.1, ?_⟩
    show i = inst (view h (.leave c r :: .enter c :: s.log))
    rw [key h this.1]
    exact this.2
  · exact (List.suffix_cons _ _).trans (List.suffix_cons _ _)
  · intro h hh
    refine ⟨hh, ?_⟩
    obtain ⟨i, h2⟩ := Option.isSome_iff_exists.1 hh
    show Keeps _ (view h (.leave c r :: .enter c :: s.log))
    rw [key h (hi.says h i h2).1]
    exact Keeps.refl _

end Verif.Tls
