/-
Open programs: C functions that call out to code which may call back.

A C module such as `src/tlsio_openssl.c` is entered in two ways (by its user through its public
functions, and by a lower layer through the callbacks the module registered) and it calls out to a
library, to the lower layer and to the callbacks of its user.  A call out may come back *into* the
module before it returns.  This file gives the semantics of such modules with no bound on the
depth of re-entrance, the number of calls or the number of iterations of a loop:

* `Prog` : the body of a function, as a tree of memory accesses and calls out;
* `Mach` : the state between two events: the instances in memory, the log of all the events so far
  (newest first), and the stack of the functions that wait for a call out to return;
* `step` : one move of the environment: enter a function, let the pending call out return, or let
  the pending loop go round once more.

Nothing in this file is about one particular module.
-/
namespace Verif.Game

/-- The bytes a call passes or returns. -/
abbrev Bytes := List UInt8

/-- The instances in memory, by address. -/
abbrev Heap (I : Type) := Nat → Option I

/-- The memory `h` with the instance at `p` replaced. -/
def Heap.set {I : Type} (h : Heap I) (p : Nat) (v : Option I) : Heap I :=
  fun q => if q = p then v else h q

/-- The body of a C function.  `I` is the C structure the module allocates, `O` the calls out. -/
inductive Prog (I O : Type) (α : Type) where
  /-- Return. -/
  | ret (a : α)
  /-- Undefined behaviour: reading a field never written, say. -/
  | ub
  /-- Read the instance at `h`; undefined if there is none. -/
  | load (h : Nat) (k : I → Prog I O α)
  /-- Assign to a field of the instance at `h`; undefined if there is none. -/
  | modify (h : Nat) (f : I → I) (k : Prog I O α)
  /-- The block at `p`, fresh from `malloc`, is now an instance, not yet initialised. -/
  | init (p : Nat) (i : I) (k : Prog I O α)
  /-- The block of the instance at `h` has been freed; undefined if there is none. -/
  | dispose (h : Nat) (k : Prog I O α)
  /-- Call out, on behalf of the instance `h` (`0`: of none); the answer is a number and the
  bytes stored through the pointers passed. -/
  | call (h : Nat) (o : O) (k : Int → Bytes → Prog I O α)
  /-- Run the loop of the module for the instance `h`, then go on. -/
  | spin (h : Nat) (k : Prog I O α)

namespace Prog
variable {I O α β : Type}

/-- Sequencing. -/
def bind : Prog I O α → (α → Prog I O β) → Prog I O β
  | .ret a, f => f a
  | .ub, _ => .ub
  | .load h k, f => .load h fun i => (k i).bind f
  | .modify h g k, f => .modify h g (k.bind f)
  | .init p i k, f => .init p i (k.bind f)
  | .dispose h k, f => .dispose h (k.bind f)
  | .call h o k, f => .call h o fun n bs => (k n bs).bind f
  | .spin h k, f => .spin h (k.bind f)

instance : Monad (Prog I O) where
  pure := .ret
  bind := bind

end Prog

/-- What can be seen from outside. -/
inductive Ev (O C : Type) where
  /-- A function of the module is called: `c` is the function and its arguments. -/
  | enter (c : C)
  /-- It returns. -/
  | leave (c : C) (r : Int)
  /-- The module calls out, on behalf of the instance `h`. -/
  | call (h : Nat) (o : O)
  /-- The call out returns. -/
  | ret (h : Nat) (o : O) (n : Int) (bs : Bytes)
  deriving DecidableEq, Repr

/-- The state as the module sees it, and the log. -/
structure St (I O C : Type) where
  heap : Heap I
  log : List (Ev O C)

/-- The state with one more event. -/
def St.add {I O C : Type} (s : St I O C) (e : Ev O C) : St I O C := { s with log := e :: s.log }

/-- A function that has not returned: it waits for a call out, or is about to begin a round of the
loop. -/
inductive Frame (I O C : Type) where
  | wait (h : Nat) (o : O) (k : Int → Bytes → Prog I O Int) (c : C)
  | spin (h : Nat) (k : Prog I O Int) (c : C)

/-- A module and the rules its environment plays by. -/
structure Sys (I O C : Type) where
  /-- The functions. -/
  body : C → Prog I O Int
  /-- One round of the loop: `true`, go round again. -/
  loop : Nat → Prog I O Bool
  /-- The answers a call out may give. -/
  valid : Heap I → O → Int → Bytes → Bool
  /-- The calls out that may come back in before they return. -/
  reenters : O → Bool
  /-- The functions that may be entered; the flag says that no other is in progress. -/
  legal : Bool → Heap I → C → Bool

/-- The machine. -/
structure Mach (I O C : Type) where
  st : St I O C
  stack : List (Frame I O C)
  /-- Undefined behaviour has happened. -/
  wrong : Bool

section
variable {I O C : Type}

/-- Run a body until the next event. -/
def exec (c : C) (stack : List (Frame I O C)) : Prog I O Int → St I O C → Mach I O C
  | .ret r, s => ⟨s.add (.leave c r), stack, false⟩
  | .ub, s => ⟨s, stack, true⟩
  | .load h k, s =>
    match s.heap h with
    | none => ⟨s, stack, true⟩
    | some i => exec c stack (k i) s
  | .modify h f k, s =>
    match s.heap h with
    | none => ⟨s, stack, true⟩
    | some i => exec c stack k { s with heap := s.heap.set h (some (f i)) }
  | .init p i k, s => exec c stack k { s with heap := s.heap.set p (some i) }
  | .dispose h k, s =>
    match s.heap h with
    | none => ⟨s, stack, true⟩
    | some _ => exec c stack k { s with heap := s.heap.set h none }
  | .call h o k, s => ⟨s.add (.call h o), .wait h o k c :: stack, false⟩
  | .spin h k, s => ⟨s, .spin h k c :: stack, false⟩

/-- A move of the environment. -/
inductive Move (C : Type) where
  | enter (c : C)
  | answer (n : Int) (bs : Bytes)
  | tau

/-- May a function be entered on top of this stack? -/
def open? (sys : Sys I O C) : List (Frame I O C) → Bool
  | [] => true
  | .wait _ o _ _ :: _ => sys.reenters o
  | .spin .. :: _ => false

/-- One move; `none`: not a move the rules allow. -/
def step (sys : Sys I O C) (m : Mach I O C) : Move C → Option (Mach I O C)
  | .enter c =>
    if !m.wrong && open? sys m.stack && sys.legal m.stack.isEmpty m.st.heap c then
      some (exec c m.stack (sys.body c) (m.st.add (.enter c)))
    else none
  | .answer n bs =>
    match m.stack with
    | .wait h o k c :: rest =>
      if !m.wrong && sys.valid m.st.heap o n bs then
        some (exec c rest (k n bs) (m.st.add (.ret h o n bs)))
      else none
    | _ => none
  | .tau =>
    match m.stack with
    | .spin h k c :: rest =>
      if !m.wrong then
        some (exec c rest ((sys.loop h).bind fun more => if more then .spin h k else k) m.st)
      else none
    | _ => none

/-- Nothing has happened yet. -/
def start : Mach I O C := ⟨⟨fun _ => none, []⟩, [], false⟩

/-- A whole play. -/
def play (sys : Sys I O C) (m : Mach I O C) : List (Move C) → Option (Mach I O C)
  | [] => some m
  | v :: vs =>
    match step sys m v with
    | none => none
    | some m' => play sys m' vs

/-- The states some play leads to. -/
def Reach (sys : Sys I O C) (m : Mach I O C) : Prop := ∃ vs, play sys start vs = some m

/-! ### Proving things about all plays -/

/-- What is to be proved, and what the proof knows between two events. -/
structure Proof (I O C : Type) where
  /-- Holds whenever the environment is free to enter. -/
  Inv : St I O C → Prop
  /-- What the environment does to the state between a call out and its return. -/
  Rely : St I O C → St I O C → Prop
  /-- Holds before every round of the loop (`true`), and after the last (`false`). -/
  Loop : Nat → Bool → St I O C → Prop
  /-- The claim: given the log so far, the next event may be this one. -/
  Claim : List (Ev O C) → Ev O C → Prop

/-- What must hold before a body runs for it to satisfy the claim and end in `Q`. -/
def wp {α : Type} (sys : Sys I O C) (pf : Proof I O C) (Q : α → St I O C → Prop) :
    Prog I O α → St I O C → Prop
  | .ret a, s => Q a s
  | .ub, _ => False
  | .load h k, s => ∃ i, s.heap h = some i ∧ wp sys pf Q (k i) s
  | .modify h f k, s =>
    ∃ i, s.heap h = some i ∧ wp sys pf Q k { s with heap := s.heap.set h (some (f i)) }
  | .init p i k, s => wp sys pf Q k { s with heap := s.heap.set p (some i) }
  | .dispose h k, s => (∃ i, s.heap h = some i) ∧ wp sys pf Q k { s with heap := s.heap.set h none }
  | .call h o k, s =>
    pf.Claim s.log (.call h o) ∧
    if sys.reenters o then
      pf.Inv (s.add (.call h o)) ∧ ∀ s2, pf.Inv s2 → pf.Rely (s.add (.call h o)) s2 →
        ∀ n bs, sys.valid s2.heap o n bs = true →
          pf.Claim s2.log (.ret h o n bs) ∧ wp sys pf Q (k n bs) (s2.add (.ret h o n bs))
    else
      ∀ n bs, sys.valid s.heap o n bs = true →
        pf.Claim (.call h o :: s.log) (.ret h o n bs) ∧
        wp sys pf Q (k n bs) ((s.add (.call h o)).add (.ret h o n bs))
  | .spin h k, s =>
    pf.Inv s ∧ pf.Loop h true s ∧ ∀ s2, pf.Inv s2 → pf.Loop h false s2 → pf.Rely s s2 → wp sys pf Q k s2

theorem wp_mono {α : Type} {sys : Sys I O C} {pf : Proof I O C} {Q Q' : α → St I O C → Prop}
    (hQ : ∀ a s, Q a s → Q' a s) (p : Prog I O α) :
    ∀ s, wp sys pf Q p s → wp sys pf Q' p s := by
  induction p with
  | ret a => intro s h; exact hQ _ _ h
  | ub => intro s h; exact h
  | load h k ih => rintro s ⟨i, h1, h2⟩; exact ⟨i, h1, ih i _ h2⟩
  | modify h f k ih => rintro s ⟨i, h1, h2⟩; exact ⟨i, h1, ih _ h2⟩
  | init p i k ih => intro s h; exact ih _ h
  | dispose h k ih => rintro s ⟨h1, h2⟩; exact ⟨h1, ih _ h2⟩
  | call h o k ih =>
    rintro s ⟨h1, h2⟩
    refine ⟨h1, ?_⟩
    split
    next hr =>
      rw [if_pos hr] at h2
      refine ⟨h2.1, fun s2 hi hR n bs hv => ?_⟩
      have := h2.2 s2 hi hR n bs hv
      exact ⟨this.1, ih _ _ _ this.2⟩
    next hr =>
      rw [if_neg hr] at h2
      intro n bs hv
      have := h2 n bs hv
      exact ⟨this.1, ih _ _ _ this.2⟩
  | spin h k ih =>
    rintro s ⟨h1, h2, h3⟩
    exact ⟨h1, h2, fun s2 hi hl hR => ih _ (h3 s2 hi hl hR)⟩

theorem wp_bind {α β : Type} {sys : Sys I O C} {pf : Proof I O C} {Q : β → St I O C → Prop}
    (p : Prog I O α) (f : α → Prog I O β) :
    ∀ s, wp sys pf (fun a s' => wp sys pf Q (f a) s') p s → wp sys pf Q (p.bind f) s := by
  induction p with
  | ret a => intro s h; exact h
  | ub => intro s h; exact h
  | load h k ih => rintro s ⟨i, h1, h2⟩; exact ⟨i, h1, ih i _ h2⟩
  | modify h g k ih => rintro s ⟨i, h1, h2⟩; exact ⟨i, h1, ih _ h2⟩
  | init p i k ih => intro s h; exact ih _ h
  | dispose h k ih => rintro s ⟨h1, h2⟩; exact ⟨h1, ih _ h2⟩
  | call h o k ih =>
    rintro s ⟨h1, h2⟩
    refine ⟨h1, ?_⟩
    split
    next hr =>
      rw [if_pos hr] at h2
      refine ⟨h2.1, fun s2 hi hR n bs hv => ?_⟩
      have := h2.2 s2 hi hR n bs hv
      exact ⟨this.1, ih _ _ _ this.2⟩
    next hr =>
      rw [if_neg hr] at h2
      intro n bs hv
      have := h2 n bs hv
      exact ⟨this.1, ih _ _ _ this.2⟩
  | spin h k ih =>
    rintro s ⟨h1, h2, h3⟩
    exact ⟨h1, h2, fun s2 hi hl hR => ih _ (h3 s2 hi hl hR)⟩

/-- A stack can go on from the state `s`. -/
def Ready (sys : Sys I O C) (pf : Proof I O C) : List (Frame I O C) → St I O C → Prop
  | [], s => pf.Inv s
  | .wait h o k c :: rest, s =>
    if sys.reenters o then
      pf.Inv s ∧ ∀ s2, pf.Inv s2 → pf.Rely s s2 → ∀ n bs, sys.valid s2.heap o n bs = true →
        pf.Claim s2.log (.ret h o n bs) ∧
        wp sys pf (fun r s' => pf.Claim s'.log (.leave c r) ∧ Ready sys pf rest (s'.add (.leave c r)))
          (k n bs) (s2.add (.ret h o n bs))
    else
      ∀ n bs, sys.valid s.heap o n bs = true →
        pf.Claim s.log (.ret h o n bs) ∧
        wp sys pf (fun r s' => pf.Claim s'.log (.leave c r) ∧ Ready sys pf rest (s'.add (.leave c r)))
          (k n bs) (s.add (.ret h o n bs))
  | .spin h k c :: rest, s =>
    pf.Inv s ∧ pf.Loop h true s ∧ ∀ s2, pf.Inv s2 → pf.Loop h false s2 → pf.Rely s s2 →
      wp sys pf (fun r s' => pf.Claim s'.log (.leave c r) ∧ Ready sys pf rest (s'.add (.leave c r)))
        k s2

/-- Every event of the log was allowed by the claim when it happened. -/
def Holds (P : List (Ev O C) → Ev O C → Prop) : List (Ev O C) → Prop
  | [] => True
  | e :: l => P l e ∧ Holds P l

theorem Holds.at {P : List (Ev O C) → Ev O C → Prop} {e : Ev O C} {l2 : List (Ev O C)} :
    ∀ {l1 : List (Ev O C)}, Holds P (l1 ++ e :: l2) → P l2 e
  | [], h => h.1
  | _ :: _, h => Holds.at h.2

theorem Holds.tail {P : List (Ev O C) → Ev O C → Prop} {l2 : List (Ev O C)} :
    ∀ {l1 : List (Ev O C)}, Holds P (l1 ++ l2) → Holds P l2
  | [], h => h
  | _ :: _, h => Holds.tail h.2

/-- What holds of the machine between two moves. -/
structure Good (sys : Sys I O C) (pf : Proof I O C) (m : Mach I O C) : Prop where
  right : m.wrong = false
  ready : Ready sys pf m.stack m.st
  holds : Holds pf.Claim m.st.log

theorem exec_good {sys : Sys I O C} {pf : Proof I O C} {c : C} {rest : List (Frame I O C)}
    (p : Prog I O Int) :
    ∀ s, wp sys pf (fun r s' => pf.Claim s'.log (.leave c r) ∧
        Ready sys pf rest (s'.add (.leave c r))) p s →
      Holds pf.Claim s.log → Good sys pf (exec c rest p s) := by
  induction p with
  | ret a => rintro s ⟨h1, h2⟩ hl; exact ⟨rfl, h2, h1, hl⟩
  | ub => intro s h; exact h.elim
  | load h k ih => rintro s ⟨i, h1, h2⟩ hl; simp only [exec, h1]; exact ih i _ h2 hl
  | modify h g k ih => rintro s ⟨i, h1, h2⟩ hl; simp only [exec, h1]; exact ih _ h2 hl
  | init p i k ih => intro s h hl; exact ih _ h hl
  | dispose h k ih => rintro s ⟨⟨i, h1⟩, h2⟩ hl; simp only [exec, h1]; exact ih _ h2 hl
  | call h o k ih =>
    rintro s ⟨h1, h2⟩ hl
    refine ⟨rfl, ?_, h1, hl⟩
    simp only [exec, Ready]
    split
    next hr => rw [if_pos hr] at h2; exact h2
    next hr => rw [if_neg hr] at h2; exact h2
  | spin h k ih => intro s hs hl; exact ⟨rfl, hs, hl⟩

/-- What is to be shown of a module, once and for all. -/
structure Sound (sys : Sys I O C) (pf : Proof I O C) : Prop where
  init : pf.Inv ⟨fun _ => none, []⟩
  refl : ∀ s, pf.Rely s s
  trans : ∀ s1 s2 s3, pf.Rely s1 s2 → pf.Rely s2 s3 → pf.Rely s1 s3
  /-- Every function, entered when the environment may enter. -/
  body : ∀ s c b, pf.Inv s → sys.legal b s.heap c = true →
    pf.Claim s.log (.enter c) ∧
    wp sys pf (fun r s' => pf.Claim s'.log (.leave c r) ∧ pf.Inv (s'.add (.leave c r)) ∧
      (b = false → pf.Rely s (s'.add (.leave c r)))) (sys.body c) (s.add (.enter c))
  /-- Every round of the loop. -/
  loop : ∀ s h, pf.Inv s → pf.Loop h true s →
    wp sys pf (fun more s' => pf.Inv s' ∧ pf.Loop h more s' ∧ pf.Rely s s') (sys.loop h) s

theorem Ready.later {sys : Sys I O C} {pf : Proof I O C} (hs : Sound sys pf) :
    ∀ {stack : List (Frame I O C)} {s s2 : St I O C}, open? sys stack = true →
      Ready sys pf stack s → pf.Inv s2 → (stack.isEmpty = false → pf.Rely s s2) →
      Ready sys pf stack s2
  | [], _, _, _, _, hi, _ => hi
  | .wait h o k c :: rest, s, s2, ho, hr, hi, hR => by
    have ho' : sys.reenters o = true := ho
    simp only [Ready, if_pos ho'] at hr ⊢
    exact ⟨hi, fun s3 hi3 hR3 => hr.2 s3 hi3 (hs.trans _ _ _ (hR rfl) hR3)⟩
  | .spin .. :: _, _, _, ho, _, _, _ => by cases ho

theorem Ready.inv {sys : Sys I O C} {pf : Proof I O C} :
    ∀ {stack : List (Frame I O C)} {s : St I O C}, open? sys stack = true →
      Ready sys pf stack s → pf.Inv s
  | [], _, _, h => h
  | .wait h o k c :: rest, s, ho, hr => by
    have ho' : sys.reenters o = true := ho
    simp only [Ready, if_pos ho'] at hr
    exact hr.1
  | .spin .. :: _, _, ho, _ => by cases ho

theorem step_good {sys : Sys I O C} {pf : Proof I O C} (hs : Sound sys pf) {m m' : Mach I O C}
    {v : Move C} (hg : Good sys pf m) (h : step sys m v = some m') : Good sys pf m' := by
  cases v with
  | enter c =>
    simp only [step] at h
    split at h
    next hc =>
      injection h with h
      subst h
      simp only [Bool.and_eq_true, Bool.not_eq_true'] at hc
      obtain ⟨⟨_, ho⟩, hl⟩ := hc
      have hi := hg.ready.inv ho
      have hb := hs.body m.st c _ hi hl
      refine exec_good _ _ (wp_mono ?_ _ _ hb.2) ⟨hb.1, hg.holds⟩
      rintro r s' ⟨h1, h2, h3⟩
      exact ⟨h1, hg.ready.later hs ho h2 h3⟩
    next => cases h
  | answer n bs =>
    obtain ⟨st, stack, wrong⟩ := m
    simp only [step] at h
    split at h
    next x h' o k c rest =>
      split at h
      next hc =>
        injection h with h
        subst h
        simp only [Bool.and_eq_true, Bool.not_eq_true'] at hc
        have hr := hg.ready
        simp only [Ready] at hr
        by_cases hre : sys.reenters o = true
        · rw [if_pos hre] at hr
          have := hr.2 st hr.1 (hs.refl st) n bs hc.2
          exact exec_good _ _ this.2 ⟨this.1, hg.holds⟩
        · rw [if_neg hre] at hr
          have := hr n bs hc.2
          exact exec_good _ _ this.2 ⟨this.1, hg.holds⟩
      next => cases h
    next => cases h
  | tau =>
    obtain ⟨st, stack, wrong⟩ := m
    simp only [step] at h
    split at h
    next x h' k c rest =>
      split at h
      next hc =>
        injection h with h
        subst h
        obtain ⟨hi, hl, hk⟩ := hg.ready
        refine exec_good _ _ (wp_bind _ _ _ (wp_mono ?_ _ _ (hs.loop st h' hi hl))) hg.holds
        rintro more s' ⟨hi', hl', hR⟩
        cases more with
        | true => exact ⟨hi', hl', fun s2 a b d => hk s2 a b (hs.trans _ _ _ hR d)⟩
        | false => exact hk s' hi' hl' hR
      next => cases h
    next => cases h

theorem play_good {sys : Sys I O C} {pf : Proof I O C} (hs : Sound sys pf) :
    ∀ {vs : List (Move C)} {m m' : Mach I O C}, Good sys pf m → play sys m vs = some m' →
      Good sys pf m'
  | [], _, _, hg, h => by injection h with h; exact h ▸ hg
  | v :: vs, m, m', hg, h => by
    simp only [play] at h
    split at h
    next => cases h
    next m1 h1 => exact play_good hs (step_good hs hg h1) h

/-- Every state every play leads to is good: no undefined behaviour, and every event was allowed
by the claim when it happened. -/
theorem Sound.reach {sys : Sys I O C} {pf : Proof I O C} (hs : Sound sys pf) {m : Mach I O C}
    (h : Reach sys m) : Good sys pf m := by
  obtain ⟨vs, h⟩ := h
  exact play_good hs (m := start) ⟨rfl, hs.init, trivial⟩ h

/-! ### The module answers before anything else happens -/

/-- The events after which it is the turn of the module. -/
def Ev.asks : Ev O C → Bool
  | .enter _ | .ret .. => true
  | _ => false

/-- It is the turn of the environment: the module was not asked anything last. -/
def Quiet (l : List (Ev O C)) : Prop := ∀ e l', l = e :: l' → e.asks = false

/-- The module runs, or it is the turn of the environment. -/
def Turn (m : Mach I O C) : Prop :=
  m.wrong = true ∨ (∃ h k c rest, m.stack = .spin h k c :: rest) ∨ Quiet m.st.log

theorem exec_turn (c : C) (stack : List (Frame I O C)) (p : Prog I O Int) :
    ∀ s, Turn (exec c stack p s) ∧ (s.log = (exec c stack p s).st.log ∨
      ∃ e, e.asks = false ∧ (exec c stack p s).st.log = e :: s.log) := by
  induction p with
  | ret a =>
    intro s
    refine ⟨Or.inr (Or.inr ?_), Or.inr ⟨_, rfl, rfl⟩⟩
    intro e l' h; injection h with h; exact h ▸ rfl
  | ub => intro s; exact ⟨Or.inl rfl, Or.inl rfl⟩
  | load h k ih =>
    intro s
    simp only [exec]
    split
    · exact ⟨Or.inl rfl, Or.inl rfl⟩
    · exact ih _ s
  | modify h g k ih =>
    intro s
    simp only [exec]
    split
    · exact ⟨Or.inl rfl, Or.inl rfl⟩
    · exact ih _
  | init p i k ih => intro s; exact ih _
  | dispose h k ih =>
    intro s
    simp only [exec]
    split
    · exact ⟨Or.inl rfl, Or.inl rfl⟩
    · exact ih _
  | call h o k ih =>
    intro s
    refine ⟨Or.inr (Or.inr ?_), Or.inr ⟨_, rfl, rfl⟩⟩
    intro e l' h; injection h with h; exact h ▸ rfl
  | spin h k ih => intro s; exact ⟨Or.inr (Or.inl ⟨_, _, _, _, rfl⟩), Or.inl rfl⟩

/-- The environment acts only when it is its turn. -/
def Polite (l : List (Ev O C)) (e : Ev O C) : Prop := e.asks = true → Quiet l

theorem exec_polite {c : C} {stack : List (Frame I O C)} {p : Prog I O Int} {s : St I O C}
    (h : Holds Polite s.log) : Turn (exec c stack p s) ∧ Holds Polite (exec c stack p s).st.log := by
  obtain ⟨h1, h2⟩ := exec_turn c stack p s
  refine ⟨h1, ?_⟩
  rcases h2 with h2 | ⟨e, he, h2⟩
  · exact h2 ▸ h
  · rw [h2]
    exact ⟨fun ha => (by rw [he] at ha; cases ha), h⟩

theorem step_polite {sys : Sys I O C} {m m' : Mach I O C} {v : Move C} (ht : Turn m)
    (hp : Holds Polite m.st.log) (h : step sys m v = some m') :
    Turn m' ∧ Holds Polite m'.st.log := by
  cases v with
  | enter c =>
    simp only [step] at h
    split at h
    next hc =>
      injection h with h
      subst h
      simp only [Bool.and_eq_true, Bool.not_eq_true'] at hc
      refine exec_polite ⟨fun _ => ?_, hp⟩
      rcases ht with ht | ⟨_, _, _, _, ht⟩ | ht
      · rw [hc.1.1] at ht; cases ht
      · rw [ht] at hc; cases hc.1.2
      · exact ht
    next => cases h
  | answer n bs =>
    obtain ⟨st, stack, wrong⟩ := m
    simp only [step] at h
    split at h
    next =>
      split at h
      next hc =>
        injection h with h
        subst h
        simp only [Bool.and_eq_true, Bool.not_eq_true'] at hc
        refine exec_polite ⟨fun _ => ?_, hp⟩
        rcases ht with ht | ⟨_, _, _, _, ht⟩ | ht
        · rw [hc.1] at ht; cases ht
        · cases ht
        · exact ht
      next => cases h
    next => cases h
  | tau =>
    obtain ⟨st, stack, wrong⟩ := m
    simp only [step] at h
    split at h
    next =>
      split at h
      next hc =>
        injection h with h
        subst h
        exact exec_polite hp
      next => cases h
    next => cases h

theorem play_polite {sys : Sys I O C} :
    ∀ {vs : List (Move C)} {m m' : Mach I O C}, Turn m → Holds Polite m.st.log →
      play sys m vs = some m' → Turn m' ∧ Holds Polite m'.st.log
  | [], _, _, ht, hp, h => by injection h with h; exact h ▸ ⟨ht, hp⟩
  | v :: vs, m, m', ht, hp, h => by
    simp only [play] at h
    split at h
    next => cases h
    next m1 h1 =>
      have := step_polite ht hp h1
      exact play_polite this.1 this.2 h

/-- What follows an entrance, or the return of a call out, is an event of the module. -/
theorem Reach.turns {sys : Sys I O C} {m : Mach I O C} (h : Reach sys m)
    {l1 l2 : List (Ev O C)} {e e' : Ev O C} (hl : m.st.log = l1 ++ e :: e' :: l2)
    (he : e'.asks = true) : e.asks = false := by
  obtain ⟨vs, h⟩ := h
  have hp := (play_polite (m := start)
    (Or.inr (Or.inr fun _ _ h => by cases h)) trivial h).2
  rw [hl] at hp
  have : Polite (e' :: l2) e := hp.at
  cases hea : e.asks with
  | false => rfl
  | true => rw [this hea e' l2 rfl] at he; cases he

/-! ### A function is entered only from a call out that may come back in -/

/-- The call out that was made last is the one that is waited for. -/
def Waits (m : Mach I O C) : Prop :=
  m.wrong = true ∨ ∀ h o l, m.st.log = .call h o :: l → ∃ k c rest, m.stack = .wait h o k c :: rest

/-- What follows a call out: its return, or a function is entered, if the call may come back in. -/
def Invited (sys : Sys I O C) (l : List (Ev O C)) (e : Ev O C) : Prop :=
  ∀ h o l', l = .call h o :: l' →
    (∃ c, e = .enter c ∧ sys.reenters o = true) ∨ ∃ n bs, e = .ret h o n bs

theorem exec_waits {sys : Sys I O C} (c : C) (stack : List (Frame I O C)) (p : Prog I O Int) :
    ∀ s : St I O C, (∀ h o l, s.log ≠ .call h o :: l) → Holds (Invited sys) s.log →
      Waits (exec c stack p s) ∧ Holds (Invited sys) (exec c stack p s).st.log := by
  induction p with
  | ret a =>
    intro s hs hl
    exact ⟨Or.inr fun h o l hx => (by injection hx with hx; cases hx),
      fun h o l' hx => absurd hx (hs _ _ _), hl⟩
  | ub => intro s _ hl; exact ⟨Or.inl rfl, hl⟩
  | load h k ih =>
    intro s hs hl
    simp only [exec]
    split
    · exact ⟨Or.inl rfl, hl⟩
    · exact ih _ s hs hl
  | modify h g k ih =>
    intro s hs hl
    simp only [exec]
    split
    · exact ⟨Or.inl rfl, hl⟩
    · exact ih _ hs hl
  | init p i k ih => intro s hs hl; exact ih _ hs hl
  | dispose h k ih =>
    intro s hs hl
    simp only [exec]
    split
    · exact ⟨Or.inl rfl, hl⟩
    · exact ih _ hs hl
  | call h o k ih =>
    intro s hs hl
    refine ⟨Or.inr fun h' o' l hx => ?_, fun h o l' hx => absurd hx (hs _ _ _), hl⟩
    injection hx with hx
    injection hx with h1 h2
    subst h1 h2
    exact ⟨_, _, _, rfl⟩
  | spin h k ih =>
    intro s hs hl
    exact ⟨Or.inr fun h' o' l hx => absurd hx (hs _ _ _), hl⟩

theorem step_waits {sys : Sys I O C} {m m' : Mach I O C} {v : Move C} (ht : Waits m)
    (hp : Holds (Invited sys) m.st.log) (h : step sys m v = some m') :
    Waits m' ∧ Holds (Invited sys) m'.st.log := by
  cases v with
  | enter c =>
    simp only [step] at h
    split at h
    next hc =>
      injection h with h
      subst h
      simp only [Bool.and_eq_true, Bool.not_eq_true'] at hc
      refine exec_waits _ _ _ _ (fun _ _ _ hx => (by cases hx)) ⟨?_, hp⟩
      intro h o l' hl
      refine Or.inl ⟨c, rfl, ?_⟩
      rcases ht with ht | ht
      · rw [hc.1.1] at ht; cases ht
      · obtain ⟨k, c2, rest, h3⟩ := ht h o l' hl
        have h4 := hc.1.2
        rw [h3] at h4
        exact h4
    next => cases h
  | answer n bs =>
    obtain ⟨st, stack, wrong⟩ := m
    simp only [step] at h
    split at h
    next =>
      split at h
      next hc =>
        injection h with h
        subst h
        refine exec_waits _ _ _ _ (fun _ _ _ hx => (by cases hx)) ⟨fun h o l' hx => ?_, hp⟩
        rcases ht with ht | ht
        · simp only [Bool.and_eq_true, Bool.not_eq_true'] at hc; rw [hc.1] at ht; cases ht
        · obtain ⟨_, _, _, h3⟩ := ht h o l' hx
          injection h3 with h3
          injection h3 with h4 h5
          subst h4 h5
          exact Or.inr ⟨n, bs, rfl⟩
      next => cases h
    next => cases h
  | tau =>
    obtain ⟨st, stack, wrong⟩ := m
    simp only [step] at h
    split at h
    next =>
      split at h
      next hc =>
        injection h with h
        subst h
        refine exec_waits _ _ _ _ (fun h o l hx => ?_) hp
        rcases ht with ht | ht
        · simp only [Bool.not_eq_true'] at hc; rw [hc] at ht; cases ht
        · obtain ⟨_, _, _, h3⟩ := ht h o l hx
          cases h3
      next => cases h
    next => cases h

theorem play_waits {sys : Sys I O C} :
    ∀ {vs : List (Move C)} {m m' : Mach I O C}, Waits m → Holds (Invited sys) m.st.log →
      play sys m vs = some m' → Waits m' ∧ Holds (Invited sys) m'.st.log
  | [], _, _, ht, hp, h => by injection h with h; exact h ▸ ⟨ht, hp⟩
  | v :: vs, m, m', ht, hp, h => by
    simp only [play] at h
    split at h
    next => cases h
    next m1 h1 =>
      obtain ⟨a, b⟩ := step_waits ht hp h1
      exact play_waits a b h

/-- What follows a call out is its return, or the entrance of a function, if the call out may come
back in. -/
theorem Reach.invited {sys : Sys I O C} {m : Mach I O C} (h : Reach sys m)
    {l1 l2 : List (Ev O C)} {e : Ev O C} {h' : Nat} {o : O}
    (hl : m.st.log = l1 ++ e :: .call h' o :: l2) :
    (∃ c, e = .enter c ∧ sys.reenters o = true) ∨ ∃ n bs, e = .ret h' o n bs := by
  obtain ⟨vs, h⟩ := h
  have := (play_waits (m := start) (Or.inr fun _ _ _ hx => (by cases hx)) trivial h).2
  rw [hl] at this
  exact this.at h' o l2 rfl

/-! ### Keeping books

What a module takes and gives back is counted by a weight of the events.  The functions are of two
kinds: the *plain* ones give back what they take, whatever happens in between; the others make no
call that comes back in, and what they take is known when they return. -/

/-- The sum of the weights. -/
def total (w : Ev O C → Int) : List (Ev O C) → Int
  | [] => 0
  | e :: l => w e + total w l

/-- On every way through the body, what is held at the end satisfies `Q`, if `d` is held now. -/
def Bal {α : Type} (sys : Sys I O C) (w : Ev O C → Int) (Q : α → Int → Prop) :
    Prog I O α → Int → Prop
  | .ret a, d => Q a d
  | .ub, _ => True
  | .load _ k, d => ∀ i, Bal sys w Q (k i) d
  | .modify _ _ k, d => Bal sys w Q k d
  | .init _ _ k, d => Bal sys w Q k d
  | .dispose _ k, d => Bal sys w Q k d
  | .call h o k, d => ∀ heap n bs, sys.valid heap o n bs = true →
      Bal sys w Q (k n bs) (d + w (.call h o) + w (.ret h o n bs))
  | .spin _ k, d => Bal sys w Q k d

theorem Bal.mono {α : Type} {sys : Sys I O C} {w : Ev O C → Int} {Q Q' : α → Int → Prop}
    (hQ : ∀ a d, Q a d → Q' a d) (p : Prog I O α) : ∀ d, Bal sys w Q p d → Bal sys w Q' p d := by
  induction p with
  | ret a => intro d h; exact hQ _ _ h
  | ub => intro d h; exact h
  | load h k ih => intro d h i; exact ih i _ (h i)
  | modify h f k ih => intro d h; exact ih _ h
  | init p i k ih => intro d h; exact ih _ h
  | dispose h k ih => intro d h; exact ih _ h
  | call h o k ih => intro d h heap n bs hv; exact ih _ _ _ (h heap n bs hv)
  | spin h k ih => intro d h; exact ih _ h

theorem Bal.bind {α β : Type} {sys : Sys I O C} {w : Ev O C → Int} {Q : β → Int → Prop}
    (p : Prog I O α) (f : α → Prog I O β) :
    ∀ d, Bal sys w (fun a d' => Bal sys w Q (f a) d') p d → Bal sys w Q (p.bind f) d := by
  induction p with
  | ret a => intro d h; exact h
  | ub => intro d h; exact h
  | load h k ih => intro d h i; exact ih i _ (h i)
  | modify h f k ih => intro d h; exact ih _ h
  | init p i k ih => intro d h; exact ih _ h
  | dispose h k ih => intro d h; exact ih _ h
  | call h o k ih => intro d h heap n bs hv; exact ih _ _ _ (h heap n bs hv)
  | spin h k ih => intro d h; exact ih _ h

/-- No call that comes back in, no loop. -/
def Shut {α : Type} (sys : Sys I O C) : Prog I O α → Prop
  | .ret _ => True
  | .ub => True
  | .load _ k => ∀ i, Shut sys (k i)
  | .modify _ _ k => Shut sys k
  | .init _ _ k => Shut sys k
  | .dispose _ k => Shut sys k
  | .call _ o k => sys.reenters o = false ∧ ∀ n bs, Shut sys (k n bs)
  | .spin _ _ => False

theorem Shut.bind {α β : Type} {sys : Sys I O C} (p : Prog I O α) (f : α → Prog I O β) :
    Shut sys p → (∀ a, Shut sys (f a)) → Shut sys (p.bind f) := by
  induction p with
  | ret a => intro _ h; exact h a
  | ub => intro h _; exact h
  | load h k ih => intro h hf i; exact ih i (h i) hf
  | modify h f k ih => intro h hf; exact ih h hf
  | init p i k ih => intro h hf; exact ih h hf
  | dispose h k ih => intro h hf; exact ih h hf
  | call h o k ih => intro h hf; exact ⟨h.1, fun n bs => ih n bs (h.2 n bs) hf⟩
  | spin h k ih => intro h; exact h.elim

/-- What the functions in progress hold is `z`, and they will give it back. -/
def Books (sys : Sys I O C) (w : Ev O C → Int) (plain : C → Bool) :
    List (Frame I O C) → Int → Prop
  | [], z => z = 0
  | .wait h o k c :: rest, z => plain c = true ∧ ∃ d,
      (∀ heap n bs, sys.valid heap o n bs = true →
        Bal sys w (fun _ d => d = 0) (k n bs) (d + w (.ret h o n bs))) ∧
      Books sys w plain rest (z - d)
  | .spin _ k c :: rest, z => plain c = true ∧ ∃ d,
      Bal sys w (fun _ d => d = 0) k d ∧ Books sys w plain rest (z - d)

/-- The log before the function entered last. -/
def before : List (Ev O C) → List (Ev O C)
  | [] => []
  | .enter _ :: l => l
  | _ :: l => before l

/-- What the books say, minus what they should say. -/
def off (w : Ev O C → Int) (due : List (Ev O C) → Int) (l : List (Ev O C)) : Int := total w l - due l

/-- What is known of a module whose books are kept: `P` says which events may follow a log. -/
structure Kept (sys : Sys I O C) (P : List (Ev O C) → Ev O C → Prop) (w : Ev O C → Int)
    (due : List (Ev O C) → Int) (plain : C → Bool) : Prop where
  enter : ∀ c, w (.enter c) = 0
  leave : ∀ c r, w (.leave c r) = 0
  nil : due [] = 0
  body : ∀ c, plain c = true → Bal sys w (fun _ d => d = 0) (sys.body c) 0
  loop : ∀ h, Bal sys w (fun _ d => d = 0) (sys.loop h) 0
  shut : ∀ c, plain c = false → Shut sys (sys.body c)
  /-- What is due changes only when a function that is not plain returns ... -/
  steady : ∀ l e, P l e → Holds P l → (∀ c r, e = .leave c r → plain c = true) →
    due (e :: l) = due l
  /-- ... and then by as much as it holds. -/
  close : ∀ l c r, P l (.leave c r) → Holds P l → plain c = false →
    due (.leave c r :: l) = due l + (total w l - total w (before l))

section
variable {sys : Sys I O C} {P : List (Ev O C) → Ev O C → Prop} {w : Ev O C → Int}
  {due : List (Ev O C) → Int} {plain : C → Bool}

theorem Bal.shift {α : Type} {Q : α → Int → Prop} (e : Int) (p : Prog I O α) :
    ∀ d, Bal sys w Q p d → Bal sys w (fun a d' => Q a (d' - e)) p (d + e) := by
  induction p with
  | ret a => intro d h; show Q a (d + e - e); rwa [Int.add_sub_cancel]
  | ub => intro d h; exact h
  | load h k ih => intro d h i; exact ih i _ (h i)
  | modify h f k ih => intro d h; exact ih _ h
  | init p i k ih => intro d h; exact ih _ h
  | dispose h k ih => intro d h; exact ih _ h
  | call h o k ih =>
    intro d hh heap n bs hv
    have := ih _ _ _ (hh heap n bs hv)
    rwa [show d + w (.call h o) + w (.ret h o n bs) + e =
      d + e + w (.call h o) + w (.ret h o n bs) by omega] at this
  | spin h k ih => intro d h; exact ih _ h

/-- The books of the machine. -/
def Booked (sys : Sys I O C) (w : Ev O C → Int) (due : List (Ev O C) → Int) (plain : C → Bool)
    (m : Mach I O C) : Prop :=
  m.wrong = false → Books sys w plain m.stack (off w due m.st.log) ∨
    ∃ h o k c rest, m.stack = .wait h o k c :: rest ∧ plain c = false ∧ sys.reenters o = false ∧
      (∀ n bs, Shut sys (k n bs)) ∧ Books sys w plain rest (off w due (before m.st.log)) ∧
      due m.st.log = due (before m.st.log)

theorem exec_plain (hk : Kept sys P w due plain) {c : C} (hc : plain c = true)
    {rest : List (Frame I O C)} (p : Prog I O Int) :
    ∀ s d, Bal sys w (fun _ d => d = 0) p d → Books sys w plain rest (off w due s.log - d) →
      Holds P (exec c rest p s).st.log → Booked sys w due plain (exec c rest p s) := by
  induction p with
  | ret a =>
    intro s d hb hr hP _
    refine Or.inl ?_
    show Books sys w plain rest (total w (.leave c a :: s.log) - due (.leave c a :: s.log))
    have hd : d = 0 := hb
    rw [hk.steady _ _ hP.1 hP.2 (fun c' r h => by injection h with h1 h2; exact h1 ▸ hc), total,
      hk.leave]
    rw [hd, Int.sub_zero] at hr
    rwa [Int.zero_add]
  | ub => intro s d _ _ _ h; cases h
  | load h k ih =>
    intro s d hb hr hP
    simp only [exec] at hP ⊢
    split
    · intro h; cases h
    next i hi => rw [hi] at hP; exact ih i s d (hb i) hr hP
  | modify h g k ih =>
    intro s d hb hr hP
    simp only [exec] at hP ⊢
    split
    · intro h; cases h
    next i hi => rw [hi] at hP; exact ih _ d hb hr hP
  | init p i k ih => intro s d hb hr hP; exact ih _ d hb hr hP
  | dispose h k ih =>
    intro s d hb hr hP
    simp only [exec] at hP ⊢
    split
    · intro h; cases h
    next i hi => rw [hi] at hP; exact ih _ d hb hr hP
  | call h o k ih =>
    intro s d hb hr hP _
    refine Or.inl ⟨hc, d + w (.call h o), hb, ?_⟩
    show Books sys w plain rest (total w (.call h o :: s.log) - due (.call h o :: s.log) - _)
    rw [hk.steady _ _ hP.1 hP.2 (fun c' r h => by cases h), total]
    rwa [show w (.call h o) + total w s.log - due s.log - (d + w (.call h o)) =
      off w due s.log - d by unfold off; omega]
  | spin h k ih => intro s d hb hr hP _; exact Or.inl ⟨hc, d, hb, hr⟩

theorem exec_shut (hk : Kept sys P w due plain) {c : C} (hc : plain c = false)
    {rest : List (Frame I O C)} (p : Prog I O Int) :
    ∀ s, Shut sys p → Books sys w plain rest (off w due (before s.log)) →
      due s.log = due (before s.log) →
      Holds P (exec c rest p s).st.log → Booked sys w due plain (exec c rest p s) := by
  induction p with
  | ret a =>
    intro s _ hr hd hP _
    refine Or.inl ?_
    show Books sys w plain rest (total w (.leave c a :: s.log) - due (.leave c a :: s.log))
    rw [hk.close _ _ _ hP.1 hP.2 hc, total, hk.leave, hd]
    rwa [show 0 + total w s.log - (due (before s.log) + (total w s.log - total w (before s.log))) =
      off w due (before s.log) by unfold off; omega]
  | ub => intro s _ _ _ _ h; cases h
  | load h k ih =>
    intro s hb hr hd hP
    simp only [exec] at hP ⊢
    split
    · intro h; cases h
    next i hi => rw [hi] at hP; exact ih i s (hb i) hr hd hP
  | modify h g k ih =>
    intro s hb hr hd hP
    simp only [exec] at hP ⊢
    split
    · intro h; cases h
    next i hi => rw [hi] at hP; exact ih _ hb hr hd hP
  | init p i k ih => intro s hb hr hd hP; exact ih _ hb hr hd hP
  | dispose h k ih =>
    intro s hb hr hd hP
    simp only [exec] at hP ⊢
    split
    · intro h; cases h
    next i hi => rw [hi] at hP; exact ih _ hb hr hd hP
  | call h o k ih =>
    intro s hb hr hd hP _
    refine Or.inr ⟨h, o, k, c, rest, rfl, hc, hb.1, hb.2, hr, ?_⟩
    show due (.call h o :: s.log) = due (before s.log)
    rw [hk.steady _ _ hP.1 hP.2 (fun c' r h => by cases h), hd]
  | spin h k ih => intro s hb; exact hb.elim

/-- The log that `exec` starts from is part of the log it ends with. -/
theorem Holds.exec {c : C} {rest : List (Frame I O C)} {p : Prog I O Int} {s : St I O C}
    (h : Holds P (exec c rest p s).st.log) : Holds P s.log := by
  rcases (exec_turn c rest p s).2 with h' | ⟨e, _, h'⟩
  · rwa [h']
  · rw [h'] at h; exact h.2

theorem step_booked (hk : Kept sys P w due plain) {m m' : Mach I O C} {v : Move C}
    (hb : Booked sys w due plain m) (h : step sys m v = some m') (hP : Holds P m'.st.log) :
    Booked sys w due plain m' := by
  cases v with
  | enter c =>
    simp only [step] at h
    split at h
    next hc =>
      injection h with h
      subst h
      simp only [Bool.and_eq_true, Bool.not_eq_true'] at hc
      have hP0 : P m.st.log (.enter c) ∧ Holds P m.st.log := hP.exec
      rcases hb hc.1.1 with hb | ⟨h, o, k, c', rest, h1, -, h2, -⟩
      · by_cases hp : plain c = true
        · refine exec_plain hk hp _ _ 0 (hk.body c hp) ?_ hP
          show Books sys w plain m.stack (total w (.enter c :: m.st.log) -
            due (.enter c :: m.st.log) - 0)
          rw [hk.steady _ _ hP0.1 hP0.2 (fun c' r h => by cases h), total, hk.enter, Int.sub_zero,
            Int.zero_add]
          exact hb
        · have hp : plain c = false := by simpa using hp
          exact exec_shut hk hp _ _ (hk.shut c hp) hb
            (hk.steady _ _ hP0.1 hP0.2 (fun c' r h => by cases h)) hP
      · rw [h1] at hc
        simp [open?, h2] at hc
    next => cases h
  | answer n bs =>
    obtain ⟨st, stack, wrong⟩ := m
    simp only [step] at h
    split at h
    next x h' o k c rest =>
      split at h
      next hc =>
        injection h with h
        subst h
        simp only [Bool.and_eq_true, Bool.not_eq_true'] at hc
        have hP0 : P st.log (.ret h' o n bs) ∧ Holds P st.log := hP.exec
        have hst := hk.steady _ _ hP0.1 hP0.2 (fun c' r h => by cases h)
        rcases hb hc.1 with ⟨hp, d, h1, h2⟩ | ⟨h2, o2, k2, c2, rest2, h1, hp, h3, h4, h5, h6⟩
        · refine exec_plain hk hp _ _ _ (h1 _ n bs hc.2) ?_ hP
          show Books sys w plain rest (total w (.ret h' o n bs :: st.log) -
            due (.ret h' o n bs :: st.log) - _)
          rw [hst, total]
          rwa [show w (.ret h' o n bs) + total w st.log - due st.log - (d + w (.ret h' o n bs)) =
            off w due st.log - d by unfold off; omega]
        · injection h1 with h1 h7
          injection h1 with _ _ h8 h9
          subst h7 h8 h9
          exact exec_shut hk hp _ _ (h4 n bs) h5 (hst.trans h6) hP
      next => cases h
    next => cases h
  | tau =>
    obtain ⟨st, stack, wrong⟩ := m
    simp only [step] at h
    split at h
    next x h' k c rest =>
      split at h
      next hc =>
        injection h with h
        subst h
        simp only [Bool.not_eq_true'] at hc
        rcases hb hc with ⟨hp, d, h1, h2⟩ | ⟨_, _, _, _, _, h1, _⟩
        · refine exec_plain hk hp _ _ d (Bal.bind _ _ _ ?_) h2 hP
          have := Bal.shift d _ _ (hk.loop h')
          rw [Int.zero_add] at this
          refine Bal.mono ?_ _ _ this
          intro more d' hd
          have : d' = d := by omega
          subst this
          cases more with
          | true => exact h1
          | false => exact h1
        · cases h1
      next => cases h
    next => cases h

theorem play_booked (hk : Kept sys P w due plain) (hP : ∀ m, Reach sys m → Holds P m.st.log) :
    ∀ {vs us : List (Move C)} {m m' : Mach I O C}, play sys start us = some m →
      Booked sys w due plain m → play sys m vs = some m' → Booked sys w due plain m'
  | [], _, _, _, _, hb, h => by injection h with h; exact h ▸ hb
  | v :: vs, us, m, m', hu, hb, h => by
    simp only [play] at h
    split at h
    next => cases h
    next m1 h1 =>
      have hu1 : play sys start (us ++ [v]) = some m1 := by
        clear h hb hP hk
        revert hu
        generalize (start : Mach I O C) = m0
        induction us generalizing m0 with
        | nil => intro hu; injection hu with hu; subst hu; simp [play, h1]
        | cons u us ih =>
          intro hu
          simp only [play, List.cons_append] at hu ⊢
          split at hu
          next => cases hu
          next m2 h2 => rw [h2] at *; exact ih _ hu
      exact play_booked hk hP hu1 (step_booked hk hb h1 (hP _ ⟨_, hu1⟩)) h

/-- Whenever no function is in progress the books are right. -/
theorem Reach.booked (hk : Kept sys P w due plain) (hP : ∀ m, Reach sys m → Holds P m.st.log)
    {m : Mach I O C} (h : Reach sys m) (hw : m.wrong = false) (hs : m.stack = []) :
    total w m.st.log = due m.st.log := by
  obtain ⟨vs, h⟩ := h
  have hb := play_booked hk hP (us := []) (m := start) rfl
    (fun _ => Or.inl (by show 0 - due [] = 0; rw [hk.nil]; rfl)) h
  rcases hb hw with hb | ⟨_, _, _, _, _, h1, _⟩
  · rw [hs] at hb
    have : off w due m.st.log = 0 := hb
    unfold off at this
    omega
  · rw [hs] at h1; cases h1

end
end
end Verif.Game
