import Verif.Schan.Spec

/-
Every function of `src/tlsio_schannel.c` keeps to the specification, whatever the environment does:
the rules.
-/
namespace Verif.Schan
open Verif.Game

abbrev S := St Inst Op Call

/-- The state the code keeps for a phase. -/
def Phase.state : Phase → State
  | .idle => .notOpen
  | .opening => .openingUnderlyingIo
  | .handshake => .clientHelloSent
  | .live => .opened
  | .shut => .closing
  | .broken => .error

/-- What the memory of a TLS IO holds; `junk` is what is left in the block after the bytes that
wait. -/
def inst (v : View) (junk : List (Option UInt8)) : Inst where
  socket_io := some v.io
  on_io_open_complete := some v.cbs.openFn
  on_io_close_complete := some v.closeFn
  on_bytes_received := some v.cbs.bytesFn
  on_io_error := some v.cbs.errFn
  on_io_open_complete_context := some v.cbs.openCtx
  on_io_close_complete_context := some v.closeCtx
  on_bytes_received_context := some v.cbs.bytesCtx
  on_io_error_context := some v.cbs.errCtx
  logger_log := some v.logger
  security_context := v.sec
  tlsio_state := some v.phase.state
  host_name := some v.host
  credential_handle := v.cred
  credential_handle_allocated := some v.cred.isSome
  received_bytes := some v.buf
  received_byte_count := some v.pend.length
  buffer_size := some v.cap
  needed_bytes := v.need
  block := v.pend.map some ++ junk
  receiving := v.receiving

/-- The bytes that wait are as they came. -/
def Whole (v : View) : Prop := v.spoilt = false → v.pend = v.raw

/-- What is true between two functions. -/
structure Tidy (v : View) : Prop where
  chunk : v.chunk = none
  fits : v.pend.length ≤ v.cap
  small : v.cap < 2 ^ 32
  sec : v.phase = .handshake ∨ v.phase = .live → v.sec.isSome = true
  cred : v.phase = .handshake ∨ v.phase = .live → v.cred.isSome = true
  need : v.phase = .handshake ∨ v.phase = .live → v.need.isSome = true
  whole : v.receiving = false → Whole v

/-- The instance is as the log tells. -/
def Says (h : Nat) (l : List Event) (i : Inst) : Prop :=
  h ≠ 0 ∧ Tidy (view h l) ∧ ∃ junk, i = inst (view h l) junk ∧
    (view h l).pend.length + junk.length = (view h l).cap

/-- Every instance in memory is as the log tells. -/
structure Inv (s : S) : Prop where
  says : ∀ h i, s.heap h = some i → Says h s.log i
  alive : ∀ h, h ∈ alives s.log ↔ (s.heap h).isSome = true

/-- What stays of a TLS IO while the environment has its way. -/
structure Keeps (v v' : View) : Prop where
  sec : v.sec.isSome = true → v'.sec.isSome = true
  cred : v.cred.isSome = true → v'.cred.isSome = true
  need : v.need.isSome = true → v'.need.isSome = true
  same : v.receiving = true →
    v'.receiving = true ∧ v'.pend = v.pend ∧ v'.raw = v.raw ∧ v'.given = v.given ∧
      v'.spoilt = v.spoilt

theorem Keeps.refl (v : View) : Keeps v v := ⟨id, id, id, fun h => ⟨h, rfl, rfl, rfl, rfl⟩⟩

theorem Keeps.trans {v1 v2 v3 : View} (a : Keeps v1 v2) (b : Keeps v2 v3) : Keeps v1 v3 :=
  ⟨fun h => b.sec (a.sec h), fun h => b.cred (a.cred h), fun h => b.need (a.need h), fun h => by
    obtain ⟨h1, h2, h3, h4, h4'⟩ := a.same h
    obtain ⟨h5, h6, h7, h8, h8'⟩ := b.same h1
    exact ⟨h5, h6.trans h2, h7.trans h3, h8.trans h4, h8'.trans h4'⟩⟩

/-- What the environment can do: no instance dies, and it comes back where it started. -/
structure Rely (s s' : S) : Prop where
  suf : s.log <:+ s'.log
  run : frames s'.log = frames s.log
  live : ∀ h, (s.heap h).isSome → (s'.heap h).isSome
  keep : ∀ h, (s.heap h).isSome → Keeps (view h s.log) (view h s'.log)

theorem Rely.refl (s : S) : Rely s s :=
  ⟨List.suffix_refl _, rfl, fun _ h => h, fun _ _ => Keeps.refl _⟩

theorem Rely.trans {s1 s2 s3 : S} (a : Rely s1 s2) (b : Rely s2 s3) : Rely s1 s3 :=
  ⟨a.suf.trans b.suf, b.run.trans a.run, fun h hh => b.live h (a.live h hh),
    fun h hh => (a.keep h hh).trans (b.keep h (a.live h hh))⟩

def pf : Proof Inst Op Call := ⟨Inv, Rely, fun _ _ _ => False, Claim⟩

/-- All but create and destroy. -/
def Call.works : Call → Bool
  | .create .. | .destroy _ => false
  | _ => true

/-- The function in progress is neither create nor destroy. -/
def Works (s0 : S) : Prop := ∃ c, (running s0.log).head? = some c ∧ c.works = true

/-- In the course of a function that works on the instance `h`, begun in `s0`. -/
structure At (s0 : S) (h : Nat) (i : Inst) (l : List Event) (s : S) : Prop where
  log : s.log = l
  here : s.heap h = some i
  nz : h ≠ 0
  others : ∀ h' i', h' ≠ h → s.heap h' = some i' → Says h' l i'
  rely : ∀ h', h' ≠ h → (s0.heap h').isSome → (s.heap h').isSome
  run : running l = running s0.log
  rest : (frames l).tail = (frames s0.log).tail
  suf : s0.log <:+ l
  alv : ∀ h', h' ≠ h → (h' ∈ alives l ↔ (s.heap h').isSome = true)
  self : h ∈ alives s0.log → h ∈ alives l
  keep : ∀ h', h' ≠ h → (s0.heap h').isSome → Keeps (view h' s0.log) (view h' l)
  mine : Works s0 → Keeps (view h s0.log.tail) (view h l)

theorem view_cons (h : Nat) (e : Event) (l : List Event) :
    view h (e :: l) = if subject e = h then (view h l).next e else view h l := rfl

theorem view_other {h : Nat} {e : Event} {l : List Event} (he : subject e ≠ h) :
    view h (e :: l) = view h l := if_neg he

theorem view_same {h : Nat} {e : Event} {l : List Event} (he : subject e = h) :
    view h (e :: l) = (view h l).next e := if_pos he

theorem Says.other {h : Nat} {l : List Event} {i : Inst} {e : Event} (hs : Says h l i)
    (he : subject e ≠ h) : Says h (e :: l) i := by
  unfold Says
  rw [view_other he]
  exact hs

/-- The events inside a function. -/
def inner : Event → Bool
  | .call .. | .ret .. => true
  | _ => false

theorem alives_inner {e : Event} {l : List Event} (he : inner e = true) :
    alives (e :: l) = alives l := by
  cases e <;> first | rfl | cases he

theorem frames_inner {e : Event} {l : List Event} (he : inner e = true) :
    (frames (e :: l)).tail = (frames l).tail ∧ running (e :: l) = running l := by
  unfold running
  cases e with
  | call h o =>
    cases o <;> first | exact ⟨rfl, rfl⟩ | skip
    rw [show frames (.call h (.encrypt _ _ _ _) :: l) = _ from rfl]
    simp only [frames]
    cases frames l <;> exact ⟨rfl, rfl⟩
  | ret h o n bs =>
    cases o with
    | xioSend w _ _ _ _ =>
      cases w <;> first | exact ⟨rfl, rfl⟩ | skip
      simp only [frames]
      cases frames l with
      | nil => exact ⟨rfl, rfl⟩
      | cons f fs => refine ⟨rfl, ?_⟩; dsimp only [List.map]; split <;> rfl
    | _ => exact ⟨rfl, rfl⟩
  | _ => cases he

theorem running_inner {e : Event} {l : List Event} (he : inner e = true) :
    running (e :: l) = running l := (frames_inner he).2

/-- The calls that leave alone what is received, and the credentials. -/
def calm : Op → Bool
  | .hsExtra _ | .decExtra _ _ | .decrypt _ _ | .realloc .chunk _ _ | .freeCred _
  | .plain => false
  | _ => true

/-- The event is about such a call, or there is nothing to leave alone. -/
def Soft (s0 : S) (h : Nat) (o : Op) : Prop :=
  calm o = true ∨ ¬ Works s0 ∨ ((view h s0.log.tail).receiving = false ∧ ∀ p, o ≠ .freeCred p)

theorem keeps_call {v : View} {h : Nat} {o : Op} (hc : calm o = true) :
    Keeps v (v.next (.call h o)) := by
  cases o <;> first
    | exact Keeps.refl v
    | exact ⟨id, id, id, fun h => ⟨h, rfl, rfl, rfl, rfl⟩⟩
    | (cases hc; done)

theorem keeps_ret {v : View} {h : Nat} {o : Op} {n : Int} {bs : Bytes} (hc : calm o = true) :
    Keeps v (v.next (.ret h o n bs)) := by
  cases o with
  | realloc site p m =>
    cases site <;> first
      | (cases hc; done)
      | (simp only [View.next, View.resized]; split <;> exact ⟨id, id, id, fun h => ⟨h, rfl, rfl, rfl, rfl⟩⟩)
  | xioSend w _ _ _ _ =>
    cases w <;> simp only [View.next]
    · split
      · exact ⟨id, id, id, fun h => ⟨h, rfl, rfl, rfl, rfl⟩⟩
      · split <;> exact ⟨id, id, fun _ => rfl, fun h => ⟨h, rfl, rfl, rfl, rfl⟩⟩
    · split <;> exact ⟨id, id, id, fun h => ⟨h, rfl, rfl, rfl, rfl⟩⟩
    · exact Keeps.refl v
  | acquire =>
    simp only [View.next]
    split
    · exact ⟨id, id, id, fun h => ⟨h, rfl, rfl, rfl, rfl⟩⟩
    · exact ⟨id, fun _ => rfl, id, fun h => ⟨h, rfl, rfl, rfl, rfl⟩⟩
  | ctxMade => exact ⟨fun _ => rfl, id, id, fun h => ⟨h, rfl, rfl, rfl, rfl⟩⟩
  | hsMissing | decMissing => exact ⟨id, id, fun _ => rfl, fun h => ⟨h, rfl, rfl, rfl, rfl⟩⟩
  | initNext =>
    simp only [View.next]; split <;> exact ⟨id, id, id, fun h => ⟨h, rfl, rfl, rfl, rfl⟩⟩
  | _ => first
    | exact Keeps.refl v
    | exact ⟨id, id, id, fun h => ⟨h, rfl, rfl, rfl, rfl⟩⟩
    | (cases hc; done)

/-- What only grows. -/
structure Grows (v v' : View) : Prop where
  sec : v.sec.isSome = true → v'.sec.isSome = true
  cred : v.cred.isSome = true → v'.cred.isSome = true
  need : v.need.isSome = true → v'.need.isSome = true

theorem Keeps.grows {v v' : View} (k : Keeps v v') : Grows v v' := ⟨k.sec, k.cred, k.need⟩

theorem grows_ret {v : View} {h : Nat} {o : Op} {n : Int} {bs : Bytes} :
    Grows v (v.next (.ret h o n bs)) := by
  by_cases hc : calm o = true
  · exact (keeps_ret hc).grows
  · cases o with
    | realloc site p m =>
      cases site <;> first
        | (exact absurd rfl hc)
        | skip
      simp only [View.next, View.resized, View.absorb]
      split
      · exact ⟨id, id, id⟩
      · exact ⟨id, id, by simp⟩
    | hsExtra | decExtra => exact ⟨id, id, fun _ => rfl⟩
    | decrypt | freeCred => exact ⟨id, id, id⟩
    | plain => simp only [View.next]; split <;> exact ⟨id, id, id⟩
    | _ => exact absurd rfl hc

theorem grows_call {v : View} {h : Nat} {o : Op} (hc : ∀ p, o ≠ .freeCred p) :
    Grows v (v.next (.call h o)) := by
  cases o <;> first | exact ⟨id, id, id⟩ | exact absurd rfl (hc _)

theorem Keeps.of_grows {v v' v'' : View} (k : Keeps v v') (hr : v.receiving = false)
    (g : Grows v' v'') : Keeps v v'' :=
  ⟨fun h => g.sec (k.sec h), fun h => g.cred (k.cred h), fun h => g.need (k.need h),
    fun h => by rw [hr] at h; cases h⟩

theorem At.add {s0 s : S} {h : Nat} {i : Inst} {l : List Event} (a : At s0 h i l s) {e : Event}
    (he : subject e = h) (hm : inner e = true)
    (hk : Works s0 → ∀ v0, Keeps v0 (view h l) → v0 = view h s0.log.tail →
      Keeps v0 ((view h l).next e)) : At s0 h i (e :: l) (s.add e) where
  log := by rw [St.add, a.log]
  here := a.here
  nz := a.nz
  others h' i' hne hi := (a.others h' i' hne hi).other (by rw [he]; exact hne.symm)
  rely := a.rely
  run := by rw [running_inner hm]; exact a.run
  rest := by rw [(frames_inner hm).1]; exact a.rest
  suf := a.suf.trans (List.suffix_cons e l)
  alv h' hne := by rw [alives_inner hm]; exact a.alv h' hne
  self hs := by rw [alives_inner hm]; exact a.self hs
  keep h' hne hh := by
    rw [view_other (by rw [he]; exact hne.symm)]
    exact a.keep h' hne hh
  mine hw := by
    rw [view_same he]
    exact hk hw _ (a.mine hw) rfl

theorem At.call {s0 s : S} {h : Nat} {i : Inst} {l : List Event} (a : At s0 h i l s) {o : Op}
    (hs : Soft s0 h o) : At s0 h i (.call h o :: l) (s.add (.call h o)) :=
  a.add rfl rfl fun hw v0 hk hv => by
    rcases hs with hs | hs | ⟨hs, hn⟩
    · exact hk.trans (keeps_call hs)
    · exact absurd hw hs
    · exact hk.of_grows (hv ▸ hs) (grows_call hn)

theorem At.ret {s0 s : S} {h : Nat} {i : Inst} {l : List Event} (a : At s0 h i l s) {o : Op}
    {n : Int} {bs : Bytes} (hs : Soft s0 h o) :
    At s0 h i (.ret h o n bs :: l) (s.add (.ret h o n bs)) :=
  a.add rfl rfl fun hw v0 hk hv => by
    rcases hs with hs | hs | ⟨hs, hn⟩
    · exact hk.trans (keeps_ret hs)
    · exact absurd hw hs
    · exact hk.of_grows (hv ▸ hs) grows_ret

theorem At.set {s0 s : S} {h : Nat} {i : Inst} {l : List Event} (a : At s0 h i l s) (i' : Inst) :
    At s0 h i' l { s with heap := s.heap.set h (some i') } where
  log := a.log
  here := by simp [Heap.set]
  nz := a.nz
  others h' i'' hne hi := by
    simp only [Heap.set, if_neg hne] at hi
    exact a.others h' i'' hne hi
  rely h' hne hi := by
    simp only [Heap.set, if_neg hne]
    exact a.rely h' hne hi
  run := a.run
  rest := a.rest
  suf := a.suf
  alv h' hne := by simp only [Heap.set, if_neg hne]; exact a.alv h' hne
  self := a.self
  keep := a.keep
  mine := a.mine

theorem At.inv {s0 s : S} {h : Nat} {i : Inst} {l : List Event} (a : At s0 h i l s)
    (hi : Says h l i) (ha : h ∈ alives s0.log) : Inv s := by
  refine ⟨fun h' i' hh => ?_, fun h' => ?_⟩
  · rw [a.log]
    by_cases hne : h' = h
    · subst hne
      rw [a.here] at hh
      injection hh with hh
      exact hh ▸ hi
    · exact a.others h' i' hne hh
  · rw [a.log]
    by_cases hne : h' = h
    · subst hne
      rw [a.here]
      simp [a.self ha]
    · exact a.alv h' hne

/-- After the environment has had its way. -/
theorem At.later {s0 s : S} {h : Nat} {i : Inst} {l : List Event} (a : At s0 h i l s) {s2 : S}
    (hi : Inv s2) (hr : Rely s s2) :
    Tidy (view h s2.log) ∧ ∃ junk, (view h s2.log).pend.length + junk.length = (view h s2.log).cap ∧
      At s0 h (inst (view h s2.log) junk) s2.log s2 := by
  have h1 := hr.live h (by rw [a.here]; rfl)
  obtain ⟨i2, h2⟩ := Option.isSome_iff_exists.1 h1
  obtain ⟨-, ht, junk, h3, h4⟩ := hi.says h i2 h2
  have hrun := hr.run
  rw [a.log] at hrun
  refine ⟨ht, junk, h4, rfl, by rw [h2, h3], a.nz, fun h' i' _ hh => hi.says h' i' hh,
    fun h' hne hh => hr.live h' (a.rely h' hne hh), ?_, ?_, ?_, fun h' _ => hi.alive h',
    fun _ => (hi.alive h).2 h1, fun h' hne hh => ?_, fun hw => ?_⟩
  · unfold running; rw [hrun]; exact a.run
  · rw [hrun]; exact a.rest
  · have := hr.suf
    rw [a.log] at this
    exact a.suf.trans this
  · have := hr.keep h' (a.rely h' hne hh)
    rw [a.log] at this
    exact (a.keep h' hne hh).trans this
  · have := hr.keep h (by rw [a.here]; rfl)
    rw [a.log] at this
    exact (a.mine hw).trans this

theorem keeps_enter {v : View} {c : Call} (hc : (∀ h bs, c ≠ .uBytes h bs) ∨ v.receiving = false) :
    Keeps v (v.next (.enter c)) := by
  cases c with
  | uBytes h bs =>
    have hr := hc.resolve_left (fun hh => hh h bs rfl)
    simp only [View.next]
    split <;> refine ⟨id, id, ?_, fun h => by rw [hr] at h; cases h⟩ <;> simp [View.absorb]
  | «open» _ _ | uOpen _ _ | close _ _ _ | uClose _ | uError _ =>
    simp only [View.next]; split <;> exact ⟨id, id, id, fun h => ⟨h, rfl, rfl, rfl, rfl⟩⟩
  | _ => exact Keeps.refl v

theorem Inv.at {s : S} (hi : Inv s) {h : Nat} (hh : (s.heap h).isSome = true) (c : Call)
    (hc : c.handle 0 = h)
    (hb : (∀ h bs, c ≠ .uBytes h bs) ∨ (view h s.log).receiving = false :=
      by exact Or.inl (by intro _ _ h; cases h)) : Tidy (view h s.log) ∧ ∃ junk,
      (view h s.log).pend.length + junk.length = (view h s.log).cap ∧
    At (s.add (.enter c)) h (inst (view h s.log) junk) (.enter c :: s.log) (s.add (.enter c)) := by
  obtain ⟨i, h2⟩ := Option.isSome_iff_exists.1 hh
  obtain ⟨hz, ht, junk, h3, h4⟩ := hi.says h i h2
  refine ⟨ht, junk, h4, rfl, ?_, hz, fun h' i' hne h3 => ?_, fun h' _ h3 => h3, rfl, rfl,
    List.suffix_refl _, fun h' _ => hi.alive h', fun h => h, fun _ _ _ => Keeps.refl _, fun _ => ?_⟩
  · show s.heap h = _
    rw [h2, h3]
  · exact (hi.says h' i' h3).other (by show c.handle 0 ≠ h'; rw [hc]; exact hne.symm)
  · show Keeps (view h s.log) (view h (.enter c :: s.log))
    rw [view_same (show subject (.enter c) = h from hc)]
    exact keeps_enter hb

/-! ### Rules -/

section
variable {α β : Type} {Q : β → S → Prop} {s0 s : S} {h : Nat} {i : Inst} {l : List Event}

theorem wp_rd {f : Inst → Option α} {k : α → P β} {x : α} (a : At s0 h i l s)
    (hx : f i = some x) (hk : wp (sys std) pf Q (k x) s) :
    wp (sys std) pf Q (rd h f >>= k) s := by
  refine ⟨i, a.here, ?_⟩
  show wp _ _ _ (Prog.bind (match f i with | none => .ub | some v => .ret v) k) s
  rw [hx]
  exact hk

theorem wp_wr {f : Inst → Inst} {k : Unit → P β} (a : At s0 h i l s)
    (hk : ∀ s', At s0 h (f i) l s' → wp (sys std) pf Q (k ()) s') :
    wp (sys std) pf Q (wr h f >>= k) s :=
  ⟨i, a.here, hk _ (a.set _)⟩

/-- An assignment at the end. -/
theorem wp_wr0 {Q : Unit → S → Prop} {f : Inst → Inst} (a : At s0 h i l s)
    (hk : ∀ s', At s0 h (f i) l s' → Q () s') :
    wp (sys std) pf Q (wr h f) s :=
  ⟨i, a.here, hk _ (a.set _)⟩

theorem wp_st {f : List (Option UInt8) → Option (List (Option UInt8))} {k : Unit → P β}
    {b : List (Option UInt8)} (a : At s0 h i l s) (hb : f i.block = some b)
    (hk : ∀ s', At s0 h { i with block := b } l s' → wp (sys std) pf Q (k ()) s') :
    wp (sys std) pf Q (st h f >>= k) s := by
  refine ⟨i, a.here, ?_⟩
  show wp _ _ _ (Prog.bind (match f i.block with
    | none => .ub
    | some b => .modify h (fun i => { i with block := b }) (.ret ())) k) s
  rw [hb]
  exact ⟨i, a.here, hk _ (a.set _)⟩

theorem fair_of {heap : Heap Inst} {o : Op} {n : Int} {bs : Bytes} (hv : valid heap o n bs = true) :
    Fair o n bs := by
  cases o with
  | hsExtra m =>
    simp only [valid, decide_eq_true_eq] at hv
    exact hv.2
  | decExtra before after =>
    simp only [valid, Bool.and_eq_true, decide_eq_true_eq, Bool.or_eq_true, beq_iff_eq] at hv
    refine ⟨hv.1.2, ?_⟩
    rcases hv.2 with h | h
    · exact Or.inl (by omega)
    by_cases hn : n < 0
    · exact Or.inl hn
    refine Or.inr ?_
    unfold lastN
    by_cases hl : before.length = after.length
    · rw [← hl]; exact h
    · have := congrArg List.length h
      simp at this
      have h1 : n ≤ before.length := hv.1.2
      have h0 : n.toNat ≤ before.length := by omega
      by_cases hz : n.toNat = 0
      · rw [hz]; simp
      · omega
  | decrypt s bs =>
    simp only [valid, Bool.and_eq_true, Bool.or_eq_true, beq_iff_eq] at hv
    exact ⟨hv.1.2, fun hn => hv.2.resolve_left hn⟩
  | _ => trivial

theorem ret_ok {heap : Heap Inst} {o : Op} {n : Int} {bs : Bytes} (hc : Calls l h o)
    (hv : valid heap o n bs = true) :
    Claim (.call h o :: l) (.ret h o n bs) := by
  refine ⟨fun hm => ?_, ?_, ?_, fun _ => rfl, fair_of hv⟩
  · cases o <;> first
      | (cases hm; done)
      | exact hc.1
      | exact hc.2
  · rintro site p m rfl
    refine ⟨?_, ?_⟩
    · rw [view_same (show subject (.call h (.realloc site p m)) = h from rfl)]; exact hc.1
    · rw [alives_inner rfl]; exact hc.2.1
  · rintro rfl
    rw [alives_inner rfl]; exact hc.2

theorem ret_re {heap : Heap Inst} {o : Op} {n : Int} {bs : Bytes} (ho : reenters o = true)
    (hv : valid heap o n bs = true) : Claim l (.ret h o n bs) := by
  refine ⟨fun hm => ?_, ?_, ?_, (fun h => by rw [ho] at h; cases h), fair_of hv⟩
  · cases o <;> first | (cases hm; done) | (cases ho; done)
  · rintro site p m rfl; cases ho
  · rintro rfl; cases ho

theorem soft_re {o : Op} (ho : reenters o = true) : Soft s0 h o := by
  left
  cases o <;> first | rfl | cases ho

/-- A call that does not come back in. -/
theorem wp_plain {o : Op} {k : Int → Bytes → P β} (a : At s0 h i l s) (ho : reenters o = false)
    (hs : Soft s0 h o) (hc : Claim l (.call h o))
    (hk : ∀ n bs s', valid s'.heap o n bs = true →
      At s0 h i (.ret h o n bs :: .call h o :: l) s' → wp (sys std) pf Q (k n bs) s') :
    wp (sys std) pf Q (.call h o k) s := by
  refine ⟨?_, ?_⟩
  · rw [a.log]; exact hc
  · have : (sys std).reenters o = false := ho
    rw [this]
    simp only [Bool.false_eq_true, if_false]
    intro n bs hv
    refine ⟨?_, hk n bs _ hv ((a.call hs).ret hs)⟩
    rw [a.log]
    exact ret_ok (n := n) (bs := bs) hc.2 hv

/-- A call that may come back in. -/
theorem wp_open {o : Op} {k : Int → Bytes → P β} (a : At s0 h i l s) (ho : reenters o = true)
    (hi : Says h (.call h o :: l) i) (hc : Claim l (.call h o))
    (hk : ∀ n bs l' s' junk, valid s'.heap o n bs = true →
      At s0 h (inst (view h l') junk) (.ret h o n bs :: l') s' → Tidy (view h l') →
      (view h l').pend.length + junk.length = (view h l').cap →
      Keeps (view h l) (view h l') → frames l' = frames l →
      wp (sys std) pf Q (k n bs) s')
    (ha : h ∈ alives s0.log := by assumption) :
    wp (sys std) pf Q (.call h o k) s := by
  refine ⟨?_, ?_⟩
  · rw [a.log]; exact hc
  · have : (sys std).reenters o = true := ho
    rw [if_pos this]
    have a1 : At s0 h i (.call h o :: l) (s.add (.call h o)) := a.call (soft_re ho)
    refine ⟨a1.inv hi ha, fun s2 hi2 hr n bs hv => ⟨ret_re (n := n) (bs := bs) ho hv, ?_⟩⟩
    obtain ⟨ht, junk, hj, a2⟩ := a1.later hi2 hr
    have hkeep := Rely.keep hr h (by rw [a1.here]; rfl)
    rw [a1.log, view_same (show subject (.call h o) = h from rfl)] at hkeep
    have hrun := Rely.run hr
    rw [a1.log] at hrun
    refine hk n bs s2.log _ junk hv (a2.ret (soft_re ho)) ht hj ?_ ?_
    · cases o <;> first | exact hkeep | cases ho
    · cases o <;> first | exact hrun | cases ho

theorem wp_call {o : Op} {k : Int → P β} (a : At s0 h i l s) (ho : reenters o = false)
    (hs : Soft s0 h o) (hc : Claim l (.call h o))
    (hk : ∀ n bs s', valid s'.heap o n bs = true →
      At s0 h i (.ret h o n bs :: .call h o :: l) s' → wp (sys std) pf Q (k n) s') :
    wp (sys std) pf Q (call h o >>= k) s :=
  wp_plain (k := fun n _ => k n) a ho hs hc hk

theorem wp_callP {o : Op} {k : Nat → P β} (a : At s0 h i l s) (ho : reenters o = false)
    (hs : Soft s0 h o) (hc : Claim l (.call h o))
    (hk : ∀ n bs s', valid s'.heap o n bs = true →
      At s0 h i (.ret h o n bs :: .call h o :: l) s' → wp (sys std) pf Q (k n.toNat) s') :
    wp (sys std) pf Q (callP h o >>= k) s :=
  wp_plain (k := fun n _ => k n.toNat) a ho hs hc hk

theorem wp_callB {o : Op} {k : Int × Bytes → P β} (a : At s0 h i l s) (ho : reenters o = false)
    (hs : Soft s0 h o) (hc : Claim l (.call h o))
    (hk : ∀ n bs s', valid s'.heap o n bs = true →
      At s0 h i (.ret h o n bs :: .call h o :: l) s' → wp (sys std) pf Q (k (n, bs)) s') :
    wp (sys std) pf Q (callB h o >>= k) s :=
  wp_plain (k := fun n bs => k (n, bs)) a ho hs hc hk

theorem wp_re {o : Op} {k : Int → P β} (a : At s0 h i l s) (ho : reenters o = true)
    (hi : Says h (.call h o :: l) i) (hc : Claim l (.call h o))
    (hk : ∀ n bs l' s' junk, valid s'.heap o n bs = true →
      At s0 h (inst (view h l') junk) (.ret h o n bs :: l') s' → Tidy (view h l') →
      (view h l').pend.length + junk.length = (view h l').cap →
      Keeps (view h l) (view h l') → frames l' = frames l →
      wp (sys std) pf Q (k n) s')
    (ha : h ∈ alives s0.log := by assumption) :
    wp (sys std) pf Q (call h o >>= k) s :=
  wp_open (k := fun n _ => k n) a ho hi hc hk ha

end

/-- What the claim and the invariant ask for at the end of a function. -/
def Fin (s : S) (c : Call) (b : Bool) (r : Int) (s' : S) : Prop :=
  Claim s'.log (.leave c r) ∧ Inv (s'.add (.leave c r)) ∧ (b = false → Rely s (s'.add (.leave c r)))

theorem Keeps.leave {v v' : View} {c : Call} {r : Int} (k : Keeps v v') (hw : c.works = true)
    (hb : (∀ h bs, c ≠ .uBytes h bs) ∨ v.receiving = false) : Keeps v (v'.next (.leave c r)) := by
  cases c with
  | uBytes h bs =>
    have hr := hb.resolve_left (fun hh => hh h bs rfl)
    exact ⟨k.sec, k.cred, k.need, fun h => by rw [hr] at h; cases h⟩
  | _ => first | (cases hw; done) | exact k

theorem At.fin' {s s' : S} {h : Nat} {l : List Event} {c : Call} {b : Bool} {r : Int} {i : Inst}
    (a : At (s.add (.enter c)) h i l s') (hi : Says h (.leave c r :: l) i)
    (hc : ∀ n, c.handle n = h) (hw : c.works = true) (hcl : Reacts l (.leave c r) ∧ Leaves l c r)
    (hb : (∀ h bs, c ≠ .uBytes h bs) ∨ (view h s.log).receiving = false)
    (ha : h ∈ alives (s.add (.enter c)).log := by assumption) : Fin s c b r s' := by
  have hsub : subject (.leave c r) = h := hc r
  have hal : alives (.leave c r :: l) = alives l := by
    cases c <;> first | (cases hw; done) | rfl
  have hrun : running l = c :: running s.log := a.run
  have hrest : (frames l).tail = frames s.log := a.rest
  refine ⟨?_, ⟨?_, ?_⟩, fun _ => ⟨?_, ?_, ?_, ?_⟩⟩
  · rw [a.log]
    exact ⟨by rw [hrun]; rfl, hcl⟩
  · intro h' i' hh
    show Says h' (_ :: s'.log) i'
    rw [a.log]
    by_cases hne : h' = h
    · subst hne
      have hh' : s'.heap h' = some i' := hh
      rw [a.here] at hh'
      injection hh' with hh'
      rw [← hh']
      exact hi
    · exact (a.others h' i' hne hh).other (by rw [hsub]; exact fun e => hne e.symm)
  · intro h'
    show h' ∈ alives (.leave c r :: s'.log) ↔ (s'.heap h').isSome = true
    rw [a.log, hal]
    by_cases hne : h' = h
    · subst hne
      rw [a.here]
      simp [a.self ha]
    · exact a.alv h' hne
  · show s.log <:+ .leave c r :: s'.log
    rw [a.log]
    exact ((List.suffix_cons _ _).trans a.suf).trans (List.suffix_cons _ _)
  · show (frames s'.log).tail = _
    rw [a.log, hrest]
  · intro h' hh
    by_cases hne : h' = h
    · subst hne
      show (s'.heap h').isSome = true
      rw [a.here]; rfl
    · exact a.rely h' hne hh
  · intro h' hh
    show Keeps (view h' s.log) (view h' (.leave c r :: s'.log))
    rw [a.log]
    by_cases hne : h' = h
    · subst hne
      rw [view_same hsub]
      exact (a.mine ⟨c, rfl, hw⟩).leave hw hb
    · rw [view_other (by rw [hsub]; exact fun e => hne e.symm)]
      have := a.keep h' hne hh
      rw [show (s.add (.enter c)).log = .enter c :: s.log from rfl,
        view_other (by show c.handle 0 ≠ h'; rw [hc]; exact fun e => hne e.symm)] at this
      exact this
theorem Says.leave {h : Nat} {l : List Event} {i : Inst} {c : Call} {r : Int} (hs : Says h l i)
    (hw : c.works = true) (hb : ∀ h bs, c ≠ .uBytes h bs) : Says h (.leave c r :: l) i := by
  by_cases he : subject (.leave c r) = h
  · unfold Says
    rw [view_same he]
    cases c <;> first | (cases hw; done) | exact absurd rfl (hb _ _) | exact hs
  · exact hs.other he

theorem At.fin {s s' : S} {h : Nat} {l : List Event} {c : Call} {b : Bool} {r : Int} {i : Inst}
    (a : At (s.add (.enter c)) h i l s') (hi : Says h l i)
    (hc : ∀ n, c.handle n = h) (hw : c.works = true) (hcl : Reacts l (.leave c r) ∧ Leaves l c r)
    (hb : ∀ h bs, c ≠ .uBytes h bs := by exact (by intro _ _ h; cases h))
    (ha : h ∈ alives (s.add (.enter c)).log := by assumption) : Fin s c b r s' :=
  a.fin' (hi.leave hw hb) hc hw hcl (Or.inl hb) ha

/-- A function called with NULL does nothing. -/
theorem fin_null {s : S} (hi : Inv s) {c : Call} {b : Bool} {r : Int}
    (hc0 : c.handle 0 = 0) (hcr : c.handle r = 0) (hcr' : ∀ cfg lg, c = .create cfg lg → r = 0)
    (hcl : Reacts (.enter c :: s.log) (.leave c r) ∧ Leaves (.enter c :: s.log) c r) :
    Fin s c b r (s.add (.enter c)) := by
  have hother : ∀ h, (s.heap h).isSome = true →
      subject (.leave c r) ≠ h ∧ subject (.enter c) ≠ h := by
    intro h hh
    obtain ⟨i, h2⟩ := Option.isSome_iff_exists.1 hh
    have h1 := hi.says h i h2
    refine ⟨?_, ?_⟩
    · show c.handle r ≠ h; rw [hcr]; exact h1.1.symm
    · show c.handle 0 ≠ h; rw [hc0]; exact h1.1.symm
  refine ⟨⟨rfl, hcl⟩, ⟨?_, ?_⟩, fun _ => ⟨?_, rfl, fun _ h => h, ?_⟩⟩
  · intro h i hh
    have h1 := hi.says h i hh
    have h2 := hother h (by rw [show s.heap h = some i from hh]; rfl)
    exact (h1.other h2.2).other h2.1
  · intro h
    refine Iff.trans ?_ (show h ∈ alives s.log ↔ (s.heap h).isSome = true from hi.alive h)
    show h ∈ alives (.leave c r :: .enter c :: s.log) ↔ _
    cases c with
    | create cfg lg =>
      rw [hcr' _ _ rfl]
      rfl
    | destroy h' =>
      have hr : h' = 0 := hcr
      subst hr
      simp only [alives, List.mem_filter, decide_not, Bool.not_eq_eq_eq_not, Bool.not_true,
        decide_eq_false_iff_not]
      refine ⟨fun h => h.1, fun hh => ⟨hh, ?_⟩⟩
      obtain ⟨i, hx⟩ := Option.isSome_iff_exists.1 ((hi.alive h).1 hh)
      exact (hi.says h i hx).1
    | _ => rfl
  · exact (List.suffix_cons _ _).trans (List.suffix_cons _ _)
  · intro h hh
    have h2 := hother h hh
    show Keeps (view h s.log) (view h (.leave c r :: .enter c :: s.log))
    rw [view_other h2.1, view_other h2.2]
    exact Keeps.refl _

end Verif.Schan
