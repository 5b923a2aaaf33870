import Verif.Wolf.Spec

/-
Every function of `src/tlsio_wolfssl.c` keeps to the specification, whatever the environment does:
the rules.
-/
namespace Verif.Wolf
open Verif.Game

abbrev S := St Inst Op Call

/-- The state the code keeps for a phase. -/
def Phase.state : Phase → State
  | .idle => .notOpen
  | .opening => .openingUnderlyingIo
  | .handshake => .inHandshake
  | .live => .opened
  | .shut => .closing
  | .broken => .error

/-- What the memory of a TLS IO holds; `junk` is what is left in the block after the bytes that
wait. -/
def inst (v : View) (junk : List (Option UInt8)) : Inst where
  socket_io := some v.io
  on_bytes_received := some v.cbs.bytesFn
  on_io_open_complete := some v.cbs.openFn
  on_io_close_complete := some v.closeFn
  on_io_error := some v.cbs.errFn
  on_bytes_received_context := some v.cbs.bytesCtx
  on_io_open_complete_context := some v.cbs.openCtx
  on_io_close_complete_context := some v.closeCtx
  on_io_error_context := some v.cbs.errCtx
  logger_log := some v.logger
  ssl := some v.ssl
  ssl_context := some v.ctx
  tlsio_state := some v.phase.state
  socket_io_read_bytes := some v.buf
  socket_io_read_byte_count := some v.pend.length
  on_send_complete := some v.sendFn
  on_send_complete_callback_context := some v.sendCtx
  block := v.pend.map some ++ junk

/-- What is true between two functions. -/
structure Tidy (v : View) : Prop where
  chunk : v.chunk = none
  small : v.pend.length < 2 ^ 56
  block : v.pend ≠ [] → v.buf ≠ 0

/-- The instance is as the log tells. -/
def Says (h : Nat) (l : List Event) (i : Inst) : Prop :=
  h ≠ 0 ∧ Tidy (view h l) ∧ ∃ junk, i = inst (view h l) junk

/-- Every instance in memory is as the log tells. -/
structure Inv (s : S) : Prop where
  says : ∀ h i, s.heap h = some i → Says h s.log i
  alive : ∀ h, h ∈ alives s.log ↔ (s.heap h).isSome = true

/-- What the environment can do: no instance dies, and it comes back where it started. -/
structure Rely (s s' : S) : Prop where
  suf : s.log <:+ s'.log
  run : running s'.log = running s.log
  live : ∀ h, (s.heap h).isSome → (s'.heap h).isSome

theorem Rely.refl (s : S) : Rely s s := ⟨List.suffix_refl _, rfl, fun _ h => h⟩

theorem Rely.trans {s1 s2 s3 : S} (a : Rely s1 s2) (b : Rely s2 s3) : Rely s1 s3 :=
  ⟨a.suf.trans b.suf, b.run.trans a.run, fun h hh => b.live h (a.live h hh)⟩

/-- Before a round of the loop that reads (even), and after the last round. -/
def LoopRead (h : Nat) (more : Bool) (s : S) : Prop :=
  (s.heap h).isSome = true ∧ (running s.log).head? = some (.dowork h) ∧
  if more then Claim s.log (.call h (.sslRead (view h s.log).ssl 64))
  else ∃ ssl num n bs l', s.log = .ret h (.sslRead ssl num) n bs :: l' ∧ n ≤ 0

/-- Before a round of the loop that waits for bytes (odd), and after the last round. -/
def LoopWait (h : Nat) (more : Bool) (s : S) : Prop :=
  (s.heap h).isSome = true ∧ ∃ buf sz, (running s.log).head? = some (.wRecv h buf sz) ∧
  (¬ more ∨ (view h s.log).pend ≠ [] → ∀ e, fetches (view h s.log) h buf sz e → Reacts s.log e) ∧
  (more → (view h s.log).pend = [] →
    Reacts s.log (.call h (.xioDowork (view h s.log).io))) ∧
  (∀ r, Recv s.log r ↔ r ≤ 0)

/-- Before a round of a loop, and after the last. -/
def Loop (j : Nat) (more : Bool) (s : S) : Prop :=
  if j % 2 = 0 then LoopRead (j / 2) more s else LoopWait (j / 2) more s

def pf : Proof Inst Op Call := ⟨Inv, Rely, Loop, Claim⟩

/-- In the course of a function that works on the instance `h`, begun in `s0`. -/
structure At (s0 : S) (h : Nat) (i : Inst) (l : List Event) (s : S) : Prop where
  log : s.log = l
  here : s.heap h = some i
  nz : h ≠ 0
  others : ∀ h' i', h' ≠ h → s.heap h' = some i' → Says h' l i'
  rely : ∀ h', h' ≠ h → (s0.heap h').isSome → (s.heap h').isSome
  run : running l = running s0.log
  suf : s0.log <:+ l
  alv : ∀ h', h' ≠ h → (h' ∈ alives l ↔ (s.heap h').isSome = true)
  self : h ∈ alives s0.log → h ∈ alives l

theorem view_cons (h : Nat) (e : Event) (l : List Event) :
    view h (e :: l) = if subject e = h then (view h l).next e else view h l := rfl

theorem view_other {h : Nat} {e : Event} {l : List Event} (he : subject e ≠ h) :
    view h (e :: l) = view h l := if_neg he

theorem view_same {h : Nat} {e : Event} {l : List Event} (he : subject e = h) :
    view h (e :: l) = (view h l).next e := if_pos he

theorem Says.other {h : Nat} {l : List Event} {i : Inst} {e : Event} (hs : Says h l i)
    (he : subject e ≠ h) : Says h (e :: l) i := by
  unfold Says
  rw [view_other he]
  exact hs

/-- The events inside a function. -/
def inner : Event → Bool
  | .call .. | .ret .. => true
  | _ => false

theorem alives_inner {e : Event} {l : List Event} (he : inner e = true) :
    alives (e :: l) = alives l := by
  cases e <;> first | rfl | cases he

theorem running_inner {e : Event} {l : List Event} (he : inner e = true) :
    running (e :: l) = running l := by
  cases e <;> first | rfl | cases he

theorem At.add {s0 s : S} {h : Nat} {i : Inst} {l : List Event} (a : At s0 h i l s) {e : Event}
    (he : subject e = h) (hm : inner e = true) : At s0 h i (e :: l) (s.add e) where
  log := by rw [St.add, a.log]
  here := a.here
  nz := a.nz
  others h' i' hne hi := (a.others h' i' hne hi).other (by rw [he]; exact hne.symm)
  rely := a.rely
  run := by rw [running_inner hm]; exact a.run
  suf := a.suf.trans (List.suffix_cons e l)
  alv h' hne := by rw [alives_inner hm]; exact a.alv h' hne
  self hs := by rw [alives_inner hm]; exact a.self hs

theorem At.set {s0 s : S} {h : Nat} {i : Inst} {l : List Event} (a : At s0 h i l s) (i' : Inst) :
    At s0 h i' l { s with heap := s.heap.set h (some i') } where
  log := a.log
  here := by simp [Heap.set]
  nz := a.nz
  others h' i'' hne hi := by
    simp only [Heap.set, if_neg hne] at hi
    exact a.others h' i'' hne hi
  rely h' hne hi := by
    simp only [Heap.set, if_neg hne]
    exact a.rely h' hne hi
  run := a.run
  suf := a.suf
  alv h' hne := by simp only [Heap.set, if_neg hne]; exact a.alv h' hne
  self := a.self

theorem At.inv {s0 s : S} {h : Nat} {i : Inst} {l : List Event} (a : At s0 h i l s)
    (hi : Says h l i) (ha : h ∈ alives s0.log) : Inv s := by
  refine ⟨fun h' i' hh => ?_, fun h' => ?_⟩
  · rw [a.log]
    by_cases hne : h' = h
    · subst hne
      rw [a.here] at hh
      injection hh with hh
      exact hh ▸ hi
    · exact a.others h' i' hne hh
  · rw [a.log]
    by_cases hne : h' = h
    · subst hne
      rw [a.here]
      simp [a.self ha]
    · exact a.alv h' hne

/-- After the environment has had its way. -/
theorem At.later {s0 s : S} {h : Nat} {i : Inst} {l : List Event} (a : At s0 h i l s) {s2 : S}
    (hi : Inv s2) (hr : Rely s s2) :
    Tidy (view h s2.log) ∧ ∃ junk, At s0 h (inst (view h s2.log) junk) s2.log s2 := by
  have h1 := hr.live h (by rw [a.here]; rfl)
  obtain ⟨i2, h2⟩ := Option.isSome_iff_exists.1 h1
  obtain ⟨-, ht, junk, h3⟩ := hi.says h i2 h2
  refine ⟨ht, junk, rfl, by rw [h2, h3], a.nz, fun h' i' _ hh => hi.says h' i' hh,
    fun h' hne hh => hr.live h' (a.rely h' hne hh), ?_, ?_, fun h' _ => hi.alive h',
    fun _ => (hi.alive h).2 h1⟩
  · have := hr.run
    rw [a.log] at this
    exact this.trans a.run
  · have := hr.suf
    rw [a.log] at this
    exact a.suf.trans this

theorem Inv.at {s : S} (hi : Inv s) {h : Nat} (hh : (s.heap h).isSome = true) (c : Call)
    (hc : c.handle 0 = h) : Tidy (view h s.log) ∧ ∃ junk,
    At (s.add (.enter c)) h (inst (view h s.log) junk) (.enter c :: s.log) (s.add (.enter c)) := by
  obtain ⟨i, h2⟩ := Option.isSome_iff_exists.1 hh
  obtain ⟨hz, ht, junk, h3⟩ := hi.says h i h2
  refine ⟨ht, junk, rfl, ?_, hz, fun h' i' hne h3 => ?_, fun h' _ h3 => h3, rfl,
    List.suffix_refl _, fun h' _ => hi.alive h', fun h => h⟩
  · show s.heap h = _
    rw [h2, h3]
  · exact (hi.says h' i' h3).other (by show c.handle 0 ≠ h'; rw [hc]; exact hne.symm)

/-! ### Rules -/

section
variable {α β : Type} {Q : β → S → Prop} {s0 s : S} {h : Nat} {i : Inst} {l : List Event}

theorem wp_rd {f : Inst → Option α} {k : α → P β} {x : α} (a : At s0 h i l s)
    (hx : f i = some x) (hk : wp (sys std) pf Q (k x) s) :
    wp (sys std) pf Q (rd h f >>= k) s := by
  refine ⟨i, a.here, ?_⟩
  show wp _ _ _ (Prog.bind (match f i with | none => .ub | some v => .ret v) k) s
  rw [hx]
  exact hk

theorem wp_wr {f : Inst → Inst} {k : Unit → P β} (a : At s0 h i l s)
    (hk : ∀ s', At s0 h (f i) l s' → wp (sys std) pf Q (k ()) s') :
    wp (sys std) pf Q (wr h f >>= k) s :=
  ⟨i, a.here, hk _ (a.set _)⟩

theorem wp_st {f : List (Option UInt8) → Option (List (Option UInt8))} {k : Unit → P β}
    {b : List (Option UInt8)} (a : At s0 h i l s) (hb : f i.block = some b)
    (hk : ∀ s', At s0 h { i with block := b } l s' → wp (sys std) pf Q (k ()) s') :
    wp (sys std) pf Q (st h f >>= k) s := by
  refine ⟨i, a.here, ?_⟩
  show wp _ _ _ (Prog.bind (match f i.block with
    | none => .ub
    | some b => .modify h (fun i => { i with block := b }) (.ret ())) k) s
  rw [hb]
  exact ⟨i, a.here, hk _ (a.set _)⟩

theorem ret_ok {o : Op} {n : Int} {bs : Bytes} (hc : Calls l h o) :
    Claim (.call h o :: l) (.ret h o n bs) := by
  refine ⟨fun hm => ?_, ?_, fun _ => rfl⟩
  · cases o <;> first
      | (cases hm; done)
      | exact hc
      | exact hc.2
  · rintro p m rfl
    refine ⟨?_, ?_⟩
    · rw [view_same (show subject (.call h (.realloc p m)) = h from rfl)]; exact hc.1
    · rw [alives_inner rfl]; exact hc.2.1

theorem ret_re {o : Op} {n : Int} {bs : Bytes} (ho : reenters o = true) :
    Claim l (.ret h o n bs) := by
  refine ⟨fun hm => ?_, ?_, fun h => by rw [ho] at h; cases h⟩
  · cases o <;> first | (cases hm; done) | (cases ho; done)
  · rintro p m rfl; cases ho

/-- A call that does not come back in. -/
theorem wp_plain {o : Op} {k : Int → Bytes → P β} (a : At s0 h i l s) (ho : reenters o = false)
    (hc : Claim l (.call h o))
    (hk : ∀ n bs s', valid s'.heap o n bs = true →
      At s0 h i (.ret h o n bs :: .call h o :: l) s' → wp (sys std) pf Q (k n bs) s') :
    wp (sys std) pf Q (.call h o k) s := by
  refine ⟨?_, ?_⟩
  · rw [a.log]; exact hc
  · have : (sys std).reenters o = false := ho
    rw [this]
    simp only [Bool.false_eq_true, if_false]
    intro n bs hv
    refine ⟨?_, hk n bs _ hv ((a.add rfl rfl).add rfl rfl)⟩
    rw [a.log]
    exact ret_ok (n := n) (bs := bs) hc.2

/-- A call that may come back in. -/
theorem wp_open {o : Op} {k : Int → Bytes → P β} (a : At s0 h i l s) (ho : reenters o = true)
    (hi : Says h (.call h o :: l) i) (hc : Claim l (.call h o))
    (hk : ∀ n bs l' s' junk, valid s'.heap o n bs = true →
      At s0 h (inst (view h l') junk) (.ret h o n bs :: l') s' → Tidy (view h l') →
      (.call h o :: l) <:+ l' → running l' = running s0.log →
      wp (sys std) pf Q (k n bs) s')
    (ha : h ∈ alives s0.log := by assumption) :
    wp (sys std) pf Q (.call h o k) s := by
  refine ⟨?_, ?_⟩
  · rw [a.log]; exact hc
  · have : (sys std).reenters o = true := ho
    rw [if_pos this]
    have a1 : At s0 h i (.call h o :: l) (s.add (.call h o)) := a.add rfl rfl
    refine ⟨a1.inv hi ha, fun s2 hi2 hr n bs hv => ⟨ret_re (n := n) (bs := bs) ho, ?_⟩⟩
    obtain ⟨ht, junk, a2⟩ := a1.later hi2 hr
    refine hk n bs s2.log _ junk hv (a2.add rfl rfl) ht ?_ a2.run
    have := Rely.suf hr
    rw [a1.log] at this
    exact this

theorem wp_call {o : Op} {k : Int → P β} (a : At s0 h i l s) (ho : reenters o = false)
    (hc : Claim l (.call h o))
    (hk : ∀ n bs s', valid s'.heap o n bs = true →
      At s0 h i (.ret h o n bs :: .call h o :: l) s' → wp (sys std) pf Q (k n) s') :
    wp (sys std) pf Q (call h o >>= k) s :=
  wp_plain (k := fun n _ => k n) a ho hc hk

theorem wp_callP {o : Op} {k : Nat → P β} (a : At s0 h i l s) (ho : reenters o = false)
    (hc : Claim l (.call h o))
    (hk : ∀ n bs s', valid s'.heap o n bs = true →
      At s0 h i (.ret h o n bs :: .call h o :: l) s' → wp (sys std) pf Q (k n.toNat) s') :
    wp (sys std) pf Q (callP h o >>= k) s :=
  wp_plain (k := fun n _ => k n.toNat) a ho hc hk

theorem wp_re {o : Op} {k : Int → P β} (a : At s0 h i l s) (ho : reenters o = true)
    (hi : Says h (.call h o :: l) i) (hc : Claim l (.call h o))
    (hk : ∀ n bs l' s' junk, valid s'.heap o n bs = true →
      At s0 h (inst (view h l') junk) (.ret h o n bs :: l') s' → Tidy (view h l') →
      (.call h o :: l) <:+ l' → running l' = running s0.log →
      wp (sys std) pf Q (k n) s')
    (ha : h ∈ alives s0.log := by assumption) :
    wp (sys std) pf Q (call h o >>= k) s :=
  wp_open (k := fun n _ => k n) a ho hi hc hk ha

theorem wp_reB {o : Op} {k : Int × Bytes → P β} (a : At s0 h i l s) (ho : reenters o = true)
    (hi : Says h (.call h o :: l) i) (hc : Claim l (.call h o))
    (hk : ∀ n bs l' s' junk, valid s'.heap o n bs = true →
      At s0 h (inst (view h l') junk) (.ret h o n bs :: l') s' → Tidy (view h l') →
      (.call h o :: l) <:+ l' → running l' = running s0.log →
      wp (sys std) pf Q (k (n, bs)) s')
    (ha : h ∈ alives s0.log := by assumption) :
    wp (sys std) pf Q (callB h o >>= k) s :=
  wp_open (k := fun n bs => k (n, bs)) a ho hi hc hk ha

end

/-- What the claim and the invariant ask for at the end of a function. -/
def Fin (s : S) (c : Call) (b : Bool) (r : Int) (s' : S) : Prop :=
  Claim s'.log (.leave c r) ∧ Inv (s'.add (.leave c r)) ∧ (b = false → Rely s (s'.add (.leave c r)))

/-- All but create and destroy. -/
def Call.works : Call → Bool
  | .create .. | .destroy _ => false
  | _ => true

theorem next_leave (v : View) (c : Call) (r : Int) (hw : c.works = true) :
    v.next (.leave c r) = v := by
  cases c <;> first | (cases hw; done) | rfl

theorem At.fin {s s' : S} {h : Nat} {l : List Event} {c : Call} {b : Bool} {r : Int} {i : Inst}
    (a : At (s.add (.enter c)) h i l s') (hi : Says h l i) (hc : ∀ n, c.handle n = h)
    (hw : c.works = true) (hcl : Reacts l (.leave c r) ∧ Leaves l c r)
    (ha : h ∈ alives (s.add (.enter c)).log := by assumption) : Fin s c b r s' := by
  have hsub : subject (.leave c r) = h := hc r
  have hal : alives (.leave c r :: l) = alives l := by
    cases c <;> first | (cases hw; done) | rfl
  have hrun : running l = c :: running s.log := a.run
  refine ⟨?_, ⟨?_, ?_⟩, fun _ => ⟨?_, ?_, ?_⟩⟩
  · rw [a.log]
    exact ⟨by rw [hrun]; rfl, hcl⟩
  · intro h' i' hh
    show Says h' (_ :: s'.log) i'
    rw [a.log]
    by_cases hne : h' = h
    · subst hne
      have hh' : s'.heap h' = some i' := hh
      rw [a.here] at hh'
      injection hh' with hh'
      unfold Says
      rw [view_same hsub, next_leave _ _ _ hw, ← hh']
      exact hi
    · exact (a.others h' i' hne hh).other (by rw [hsub]; exact fun e => hne e.symm)
  · intro h'
    show h' ∈ alives (.leave c r :: s'.log) ↔ (s'.heap h').isSome = true
    rw [a.log, hal]
    by_cases hne : h' = h
    · subst hne
      rw [a.here]
      simp [a.self ha]
    · exact a.alv h' hne
  · show s.log <:+ .leave c r :: s'.log
    rw [a.log]
    exact ((List.suffix_cons _ _).trans a.suf).trans (List.suffix_cons _ _)
  · show (running s'.log).tail = _
    rw [a.log, hrun]
    rfl
  · intro h' hh
    by_cases hne : h' = h
    · subst hne
      show (s'.heap h').isSome = true
      rw [a.here]; rfl
    · exact a.rely h' hne hh

/-- A function called with NULL does nothing. -/
theorem fin_null {s : S} (hi : Inv s) {c : Call} {b : Bool} {r : Int}
    (hc0 : c.handle 0 = 0) (hcr : c.handle r = 0) (hcr' : ∀ cfg lg, c = .create cfg lg → r = 0)
    (hcl : Reacts (.enter c :: s.log) (.leave c r) ∧ Leaves (.enter c :: s.log) c r) :
    Fin s c b r (s.add (.enter c)) := by
  refine ⟨⟨rfl, hcl⟩, ⟨?_, ?_⟩, fun _ => ⟨?_, rfl, fun _ h => h⟩⟩
  · intro h i hh
    have h1 := hi.says h i hh
    refine (h1.other ?_).other ?_
    · show c.handle 0 ≠ h; rw [hc0]; exact h1.1.symm
    · show c.handle r ≠ h; rw [hcr]; exact h1.1.symm
  · intro h
    refine Iff.trans ?_ (show h ∈ alives s.log ↔ (s.heap h).isSome = true from hi.alive h)
    show h ∈ alives (.leave c r :: .enter c :: s.log) ↔ _
    cases c with
    | create cfg lg =>
      rw [hcr' _ _ rfl]
      rfl
    | destroy h' =>
      have hr : h' = 0 := hcr
      subst hr
      simp only [alives, List.mem_filter, decide_not, Bool.not_eq_eq_eq_not, Bool.not_true,
        decide_eq_false_iff_not]
      refine ⟨fun h => h.1, fun hh => ⟨hh, ?_⟩⟩
      obtain ⟨i, hx⟩ := Option.isSome_iff_exists.1 ((hi.alive h).1 hh)
      exact (hi.says h i hx).1
    | _ => rfl
  · exact (List.suffix_cons _ _).trans (List.suffix_cons _ _)

end Verif.Wolf
