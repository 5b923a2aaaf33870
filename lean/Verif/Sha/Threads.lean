import Verif.Sha.Examples
/-!
# Hashing in several threads (C36)

The variable `addTemp` is shared by all the contexts of a file (sha1.c:59, sha224.c:70, sha384-512.c:300).  A thread is a program
whose atomic actions work on the thread's own context and on the shared variable; a schedule is the list of the threads that take the
next action.

`fine = true` is the code: the two operands of the macro `AddLength` are two actions.  With `fine = false` the macro is one action: these are
the schedules in which no other thread is between the two operands.  (Sequential consistency is assumed: in C the unsynchronised accesses are
undefined behaviour in the first place.)
-/
namespace Verif.Sha

/-- A thread that yields a result of type `α`. -/
inductive Th (w : Nat) (α : Type) : Type 1 where
  | ret (a : α)
  | act {β : Type} (x : S w β) (k : β → Th w α)

namespace Th
variable {w : Nat} {α β : Type}

def bind : Th w α → (α → Th w β) → Th w β
  | ret a, f => f a
  | act x k, f => act x fun b => (k b).bind f

instance : Monad (Th w) where
  pure := ret
  bind := bind

/-- One atomic action. -/
def atomic (x : S w α) : Th w α := act x ret

/-- The thread runs alone. -/
def run : Th w α → S w α
  | ret a => pure a
  | act x k => x >>= fun b => (k b).run

/-- The next action. -/
def next : Th w α → Sh w → Option (Th w α × Sh w)
  | ret a, s => some (ret a, s)
  | act x k, s => (x s).map fun p => (k p.1, p.2)

/-- The result of a finished thread. -/
def result? : Th w α → Option α
  | ret a => some a
  | act _ _ => none

theorem run_bind : ∀ (x : Th w α) (f : α → Th w β), (x >>= f).run = x.run >>= fun a => (f a).run
  | ret a, f => by show (f a).run = _; simp [run]
  | act x k, f => by
    show (x >>= fun b => ((k b).bind f).run) = _
    have : ∀ b, ((k b).bind f).run = (k b).run >>= fun a => (f a).run := fun b => run_bind (k b) f
    simp [this, run]

theorem run_pure (a : α) : (pure a : Th w α).run = pure a := rfl
theorem run_atomic (x : S w α) : (atomic x).run = x := by simp [atomic, run]

end Th

variable {w : Nat}

/-! ## The calls as threads -/

/-- The macro `AddLength` (sha1.c:60-64, sha224.c:71-74, sha384-512.c:301-304) -/
def tAddLength (fine : Bool) (length : Nat) : Th w Nat :=
  if fine then do Th.atomic saveLow; Th.atomic (addCheck length) else Th.atomic (AddLength length)

/-- `inputByte` (sha1.c:147-154, sha224.c:248-255, sha384-512.c:486-493) -/
def tInputByte (fine : Bool) (a : Alg w) (b : UInt8) : Th w Unit := do
  Th.atomic (push a b)
  let r ← tAddLength fine 8
  let c ← Th.atomic getCtx
  if r = 0 ∧ c.Message_Block_Index = a.Message_Block_Size then Th.atomic (ProcessMessageBlock a) else pure ()

/-- `inputLoop` (sha1.c:146-155, sha224.c:247-256, sha384-512.c:485-494) -/
def tInputLoop (fine : Bool) (a : Alg w) : List UInt8 → Nat → Th w Unit
  | _, 0 => pure ()
  | arr, length + 1 => do
    let c ← Th.atomic getCtx
    if c.Corrupted ≠ 0 then pure ()
    else
      match arr with
      | [] => Th.atomic ub
      | b :: rest => do
        tInputByte fine a b
        tInputLoop fine a rest length

/-- `Input` (sha1.c:129-158, sha224.c:230-260, sha384-512.c:467-497) -/
def tInput (fine : Bool) (a : Alg w) (message_array : Option (List UInt8)) (length : Nat) : Th w Nat := do
  if length = 0 then pure shaSuccess
  else
    match message_array with
    | none => pure shaNull
    | some arr =>
      let c ← Th.atomic getCtx
      if c.Computed ≠ 0 then
        Th.atomic (modifyCtx fun c => { c with Corrupted := shaStateError })
        pure shaStateError
      else if c.Corrupted ≠ 0 then pure c.Corrupted
      else
        tInputLoop fine a arr length
        pure shaSuccess

/-- `FinalBits` (sha1.c:179-216, sha224.c:281-319, sha384-512.c:519-554) -/
def tFinalBits (fine : Bool) (a : Alg w) (message_bits : UInt8) (length : Nat) : Th w Nat := do
  if length = 0 then pure shaSuccess
  else
    let c ← Th.atomic getCtx
    if c.Computed ≠ 0 ∨ length ≥ 8 ∨ length = 0 then
      Th.atomic (modifyCtx fun c => { c with Corrupted := shaStateError })
      pure shaStateError
    else if c.Corrupted ≠ 0 then pure c.Corrupted
    else
      let _ ← tAddLength fine length
      match masks[length]?, markbit[length]? with
      | some m, some k => do
        Th.atomic (Finalize a ((message_bits &&& m) ||| k))
        pure shaSuccess
      | _, _ => Th.atomic ub

/-- A call of one of the five interfaces; Reset and Result do not use the shared variable. -/
def Which.thread (fine : Bool) (v : Which) : Op → Th v.hash.w (Nat × List UInt8)
  | .reset => do let r ← Th.atomic v.api.reset; pure (r, [])
  | .input m => do let r ← tInput fine v.alg (some m) m.length; pure (r, [])
  | .inputNull n => do let r ← tInput fine v.alg none n; pure (r, [])
  | .finalBits b n => do let r ← tFinalBits fine v.alg b n; pure (r, [])
  | .result => Th.atomic v.api.result

/-- A thread that makes the calls. -/
def Which.threadOf (fine : Bool) (v : Which) : List Op → Th v.hash.w (List (Nat × List UInt8))
  | [] => pure []
  | o :: os => do
    let r ← v.thread fine o
    let rs ← v.threadOf fine os
    pure (r :: rs)

/-! ## Alone, a thread does what the model of the code does -/

theorem tAddLength_run (fine : Bool) (n : Nat) : (tAddLength fine n : Th w Nat).run = AddLength n := by
  cases fine
  · exact Th.run_atomic _
  · show Th.run (Th.atomic saveLow >>= fun _ => Th.atomic (addCheck n)) = _
    rw [Th.run_bind]
    simp only [Th.run_atomic]; rfl

theorem tInputByte_run (fine : Bool) (a : Alg w) (b : UInt8) : (tInputByte fine a b).run = inputByte a b := by
  unfold tInputByte inputByte
  simp only [Th.run_bind, Th.run_atomic, tAddLength_run]
  congr 1; funext _; congr 1; funext r; congr 1; funext c
  split
  · exact Th.run_atomic _
  · rfl

theorem tInputLoop_run (fine : Bool) (a : Alg w) : ∀ (arr : List UInt8) (n : Nat), (tInputLoop fine a arr n).run = inputLoop a arr n
  | arr, 0 => by simp [tInputLoop, inputLoop, Th.run_pure]
  | arr, n + 1 => by
    unfold tInputLoop inputLoop
    simp only [Th.run_bind, Th.run_atomic]
    congr 1; funext c
    split
    · rfl
    · cases arr with
      | nil => exact Th.run_atomic _
      | cons b rest => simp only [Th.run_bind, tInputByte_run, tInputLoop_run fine a rest n]

theorem tInput_run (fine : Bool) (a : Alg w) (arr : Option (List UInt8)) (n : Nat) : (tInput fine a arr n).run = Input a arr n := by
  unfold tInput Input
  split
  · rfl
  · cases arr with
    | none => rfl
    | some arr =>
      simp only [Th.run_bind, Th.run_atomic]
      congr 1; funext c
      split
      · simp only [Th.run_bind, Th.run_atomic, Th.run_pure]
      · split
        · rfl
        · simp only [Th.run_bind, tInputLoop_run, Th.run_pure]

theorem tFinalBits_run (fine : Bool) (a : Alg w) (b : UInt8) (n : Nat) : (tFinalBits fine a b n).run = FinalBits a b n := by
  unfold tFinalBits FinalBits
  split
  · rfl
  · simp only [Th.run_bind, Th.run_atomic]
    congr 1; funext c
    split
    · simp only [Th.run_bind, Th.run_atomic, Th.run_pure]
    · split
      · rfl
      · simp only [Th.run_bind, tAddLength_run]
        congr 1; funext _
        cases masks[n]? <;> cases markbit[n]? <;> simp only [Th.run_bind, Th.run_atomic, Th.run_pure]

theorem thread_run (fine : Bool) (v : Which) (o : Op) : (v.thread fine o).run = v.api.exec o := by
  rw [v.api_eq]
  cases o with
  | reset => unfold Which.thread; rw [v.api_eq]; simp only [Th.run_bind, Th.run_atomic, Th.run_pure]; rfl
  | input m => unfold Which.thread; simp only [Th.run_bind, tInput_run, Th.run_pure]; rfl
  | inputNull m => unfold Which.thread; simp only [Th.run_bind, tInput_run, Th.run_pure]; rfl
  | finalBits b n => unfold Which.thread; simp only [Th.run_bind, tFinalBits_run, Th.run_pure]; rfl
  | result => unfold Which.thread; rw [v.api_eq]; exact Th.run_atomic _

/-- Alone, a thread makes the calls of the model, with both granularities. -/
theorem threadOf_run (fine : Bool) (v : Which) : ∀ os : List Op, (v.threadOf fine os).run = v.api.run os
  | [] => rfl
  | o :: os => by
    unfold Which.threadOf Api.run
    simp only [Th.run_bind, thread_run, threadOf_run fine v os, Th.run_pure]

/-! ## Actions that do not depend on the shared variable -/

/-- The outcome and the new context do not depend on the value of the shared variable. -/
def Indep {α : Type} (x : S w α) : Prop :=
  ∀ c t t', (x ⟨c, t⟩).map (fun r => (r.1, r.2.ctx)) = (x ⟨c, t'⟩).map (fun r => (r.1, r.2.ctx))

theorem Indep.pure {α : Type} (a : α) : Indep (pure a : S w α) := fun _ _ _ => rfl
theorem Indep.getCtx : Indep (getCtx : S w (Ctx w)) := fun _ _ _ => rfl
theorem Indep.modifyCtx (f : Ctx w → Ctx w) : Indep (modifyCtx f) := fun _ _ _ => rfl
theorem Indep.ub {α : Type} : Indep (ub : S w α) := fun _ _ _ => rfl

theorem Indep.bind {α β : Type} {x : S w α} {f : α → S w β} (hx : Indep x) (hf : ∀ a, Indep (f a)) : Indep (x >>= f) := by
  intro c t t'
  have h := hx c t t'
  show (Option.bind (x ⟨c, t⟩) fun r => f r.1 r.2).map _ = (Option.bind (x ⟨c, t'⟩) fun r => f r.1 r.2).map _
  cases h1 : x ⟨c, t⟩ with
  | none =>
    cases h2 : x ⟨c, t'⟩ with
    | none => rfl
    | some r => rw [h1, h2] at h; cases h
  | some r =>
    cases h2 : x ⟨c, t'⟩ with
    | none => rw [h1, h2] at h; cases h
    | some r' =>
      rw [h1, h2] at h
      obtain ⟨a, c1, t1⟩ := r
      obtain ⟨a', c1', t1'⟩ := r'
      obtain ⟨rfl, rfl⟩ := Prod.mk.inj (Option.some.inj h)
      exact hf a c1 t1 t1'

theorem Indep.ite {α : Type} {p : Prop} [Decidable p] {x y : S w α} (hx : Indep x) (hy : Indep y) : Indep (if p then x else y) := by
  split
  · exact hx
  · exact hy

theorem Indep.setBlock (a : Alg w) (i : Nat) (b : UInt8) : Indep (setBlock a i b) := Indep.ite (Indep.modifyCtx _) Indep.ub

theorem Indep.push (a : Alg w) (b : UInt8) : Indep (push a b) :=
  Indep.bind Indep.getCtx fun _ => Indep.bind (Indep.setBlock _ _ _) fun _ => Indep.modifyCtx _

theorem Indep.process (a : Alg w) : Indep (ProcessMessageBlock a) := by
  refine Indep.bind Indep.getCtx fun c => ?_
  split
  · exact Indep.ub
  · exact Indep.modifyCtx _

theorem Indep.AddLength (n : Nat) : Indep (AddLength n : S w Nat) := by
  intro c t t'
  rfl

theorem Indep.zeroFill (a : Alg w) (l : Nat) : ∀ n, Indep (zeroFill a l n)
  | 0 => Indep.bind Indep.getCtx fun _ => Indep.ite Indep.ub (Indep.pure _)
  | n + 1 => Indep.bind Indep.getCtx fun _ => Indep.ite (Indep.bind (Indep.push _ _) fun _ => Indep.zeroFill a l n) (Indep.pure _)

theorem Indep.storeWord (a : Alg w) (x : BitVec w) : ∀ n i, Indep (storeWord a x i n)
  | 0, _ => Indep.pure _
  | n + 1, i => Indep.bind (Indep.setBlock _ _ _) fun _ => Indep.storeWord a x n (i + 1)

theorem Indep.finalize (a : Alg w) (b : UInt8) : Indep (Finalize a b) := by
  refine Indep.bind ?_ fun _ => Indep.modifyCtx _
  refine Indep.bind Indep.getCtx fun c => ?_
  have tail : Indep (do
      Sha.zeroFill a (a.Message_Block_Size - w / 4) a.Message_Block_Size
      let c ← Sha.getCtx
      Sha.storeWord a c.Length_High (a.Message_Block_Size - w / 4) (w / 8)
      Sha.storeWord a c.Length_Low (a.Message_Block_Size - w / 8) (w / 8)
      ProcessMessageBlock a) :=
    Indep.bind (Indep.zeroFill _ _ _) fun _ => Indep.bind Indep.getCtx fun _ => Indep.bind (Indep.storeWord _ _ _ _) fun _ =>
      Indep.bind (Indep.storeWord _ _ _ _) fun _ => Indep.process _
  show Indep (if _ then _ else _)
  refine Indep.ite ?_ ?_
  · exact Indep.bind (Indep.push _ _) fun _ => Indep.bind (Indep.zeroFill _ _ _) fun _ => Indep.bind (Indep.process _) fun _ => tail
  · exact Indep.bind (Indep.push _ _) fun _ => tail

theorem Indep.digestLoop (H : List (BitVec w)) : ∀ n i, Indep (digestLoop H i n)
  | 0, _ => Indep.pure _
  | n + 1, i => by
    unfold Sha.digestLoop
    split
    · exact Indep.ub
    · exact Indep.bind (Indep.digestLoop H n (i + 1)) fun _ => Indep.pure _

theorem Indep.resultN (a : Alg w) (n : Nat) : Indep (ResultN a n) := by
  refine Indep.bind Indep.getCtx fun c => ?_
  refine Indep.ite (Indep.pure _) ?_
  have tail : Indep (do
      let c ← Sha.getCtx
      let d ← Sha.digestLoop c.Intermediate_Hash 0 n
      Pure.pure (shaSuccess, d) : S w (Nat × List UInt8)) :=
    Indep.bind Indep.getCtx fun _ => Indep.bind (Indep.digestLoop _ _ _) fun _ => Indep.pure _
  show Indep (if _ then _ else _)
  exact Indep.ite (Indep.bind (Indep.finalize _ _) fun _ => tail) tail

theorem Indep.reset (H0 : List (BitVec w)) : Indep (Reset H0) := Indep.bind (Indep.modifyCtx _) fun _ => Indep.pure _

namespace Th
variable {α β : Type}

/-- All actions of a thread are independent of the shared variable. -/
def Ok : Th w α → Prop
  | ret _ => True
  | act x k => Indep x ∧ ∀ b, (k b).Ok

theorem Ok.bind : ∀ {x : Th w α} {f : α → Th w β}, x.Ok → (∀ a, (f a).Ok) → Ok (x >>= f)
  | ret a, _, _, hf => hf a
  | act _ _, _, hx, hf => ⟨hx.1, fun b => Ok.bind (hx.2 b) hf⟩

theorem Ok.pure (a : α) : Ok (pure a : Th w α) := trivial
theorem Ok.atomic {x : S w α} (h : Indep x) : Ok (atomic x) := ⟨h, fun _ => trivial⟩
theorem Ok.ite {p : Prop} [Decidable p] {x y : Th w α} (hx : Ok x) (hy : Ok y) : Ok (if p then x else y) := by
  split
  · exact hx
  · exact hy

theorem Ok.run : ∀ {x : Th w α}, x.Ok → Indep x.run
  | ret _, _ => Indep.pure _
  | act _ _, h => Indep.bind h.1 fun b => Ok.run (h.2 b)

end Th

theorem tAddLength_ok (n : Nat) : (tAddLength false n : Th w Nat).Ok := Th.Ok.atomic (Indep.AddLength n)

theorem tInputByte_ok (a : Alg w) (b : UInt8) : (tInputByte false a b).Ok :=
  Th.Ok.bind (Th.Ok.atomic (Indep.push _ _)) fun _ => Th.Ok.bind (tAddLength_ok _) fun _ => Th.Ok.bind (Th.Ok.atomic Indep.getCtx) fun _ =>
    Th.Ok.ite (Th.Ok.atomic (Indep.process _)) (Th.Ok.pure _)

theorem tInputLoop_ok (a : Alg w) : ∀ (arr : List UInt8) (n : Nat), (tInputLoop false a arr n).Ok
  | arr, 0 => by unfold tInputLoop; exact Th.Ok.pure _
  | arr, n + 1 => by
    unfold tInputLoop
    refine Th.Ok.bind (Th.Ok.atomic Indep.getCtx) fun _ => Th.Ok.ite (Th.Ok.pure _) ?_
    cases arr with
    | nil => exact Th.Ok.atomic Indep.ub
    | cons b rest => exact Th.Ok.bind (tInputByte_ok _ _) fun _ => tInputLoop_ok a rest n

theorem tInput_ok (a : Alg w) (arr : Option (List UInt8)) (n : Nat) : (tInput false a arr n).Ok := by
  refine Th.Ok.ite (Th.Ok.pure _) ?_
  cases arr with
  | none => exact Th.Ok.pure _
  | some arr =>
    exact Th.Ok.bind (Th.Ok.atomic Indep.getCtx) fun _ => Th.Ok.ite (Th.Ok.bind (Th.Ok.atomic (Indep.modifyCtx _)) fun _ => Th.Ok.pure _)
      (Th.Ok.ite (Th.Ok.pure _) (Th.Ok.bind (tInputLoop_ok _ _ _) fun _ => Th.Ok.pure _))

theorem tFinalBits_ok (a : Alg w) (b : UInt8) (n : Nat) : (tFinalBits false a b n).Ok := by
  refine Th.Ok.ite (Th.Ok.pure _) (Th.Ok.bind (Th.Ok.atomic Indep.getCtx) fun c => ?_)
  refine Th.Ok.ite (Th.Ok.bind (Th.Ok.atomic (Indep.modifyCtx _)) fun _ => Th.Ok.pure _) (Th.Ok.ite (Th.Ok.pure _) ?_)
  refine Th.Ok.bind (tAddLength_ok _) fun _ => ?_
  cases masks[n]? <;> cases markbit[n]?
  · exact Th.Ok.atomic Indep.ub
  · exact Th.Ok.atomic Indep.ub
  · exact Th.Ok.atomic Indep.ub
  · exact Th.Ok.bind (Th.Ok.atomic (Indep.finalize _ _)) fun _ => Th.Ok.pure _

theorem thread_ok (v : Which) (o : Op) : (v.thread false o).Ok := by
  cases o with
  | reset => unfold Which.thread; rw [v.api_eq]; exact Th.Ok.bind (Th.Ok.atomic (Indep.reset _)) fun _ => Th.Ok.pure _
  | input m => exact Th.Ok.bind (tInput_ok _ _ _) fun _ => Th.Ok.pure _
  | inputNull n => exact Th.Ok.bind (tInput_ok _ _ _) fun _ => Th.Ok.pure _
  | finalBits b n => exact Th.Ok.bind (tFinalBits_ok _ _ _) fun _ => Th.Ok.pure _
  | result => unfold Which.thread; rw [v.api_eq]; exact Th.Ok.atomic (Indep.resultN _ _)

theorem threadOf_ok (v : Which) : ∀ os : List Op, (v.threadOf false os).Ok
  | [] => Th.Ok.pure _
  | o :: os => Th.Ok.bind (thread_ok v o) fun _ => Th.Ok.bind (threadOf_ok v os) fun _ => Th.Ok.pure _

/-! ## Schedules -/

/-- Any number of threads, each with its own context, and the shared variable. -/
structure Sys (w : Nat) (α : Type) where
  ctx : Nat → Ctx w
  th : Nat → Th w α
  addTemp : BitVec w

def update {β : Type _} (f : Nat → β) (i : Nat) (b : β) : Nat → β := fun j => if j = i then b else f j

/-- Thread `i` takes its next action. -/
def Sys.step {α : Type} (σ : Sys w α) (i : Nat) : Option (Sys w α) :=
  match (σ.th i).next ⟨σ.ctx i, σ.addTemp⟩ with
  | none => none
  | some (t, s) => some { ctx := update σ.ctx i s.ctx, th := update σ.th i t, addTemp := s.addTemp }

def Sys.run {α : Type} : List Nat → Sys w α → Option (Sys w α)
  | [], σ => some σ
  | i :: is, σ => (σ.step i).bind (Sys.run is)

/-- Thread `i` will yield `r i`. -/
def Inv {α : Type} (r : Nat → α) (σ : Sys w α) : Prop :=
  ∀ i, (σ.th i).Ok ∧ ∀ t, ∃ s', (σ.th i).run ⟨σ.ctx i, t⟩ = some (r i, s')

theorem Indep.all {α : Type} {x : S w α} (hx : Indep x) {c : Ctx w} {t : BitVec w} {a : α} {s : Sh w} (h : x ⟨c, t⟩ = some (a, s)) (t' : BitVec w) :
    ∃ t'', x ⟨c, t'⟩ = some (a, ⟨s.ctx, t''⟩) := by
  have := hx c t t'
  rw [h] at this
  cases h2 : x ⟨c, t'⟩ with
  | none => rw [h2] at this; cases this
  | some r =>
    rw [h2] at this
    obtain ⟨a', c', t''⟩ := r
    obtain ⟨rfl, h3⟩ := Prod.mk.inj (Option.some.inj this)
    dsimp only at h3
    exact ⟨t'', by rw [← h3]⟩

theorem next_ok {α : Type} {x : Th w α} {c : Ctx w} {r : α} (hok : x.Ok) (hx : ∀ t, ∃ s', x.run ⟨c, t⟩ = some (r, s')) (t : BitVec w) :
    ∃ x' s, x.next ⟨c, t⟩ = some (x', s) ∧ x'.Ok ∧ ∀ t', ∃ s', x'.run ⟨s.ctx, t'⟩ = some (r, s') := by
  cases x with
  | ret a => exact ⟨_, _, rfl, hok, hx⟩
  | act y k =>
    obtain ⟨s', h⟩ := hx t
    have hy : ∃ b s1, y ⟨c, t⟩ = some (b, s1) ∧ (k b).run s1 = some (r, s') := by
      have h' : Option.bind (y ⟨c, t⟩) (fun p => (k p.1).run p.2) = some (r, s') := h
      cases hy : y ⟨c, t⟩ with
      | none => rw [hy] at h'; cases h'
      | some p => rw [hy] at h'; exact ⟨p.1, p.2, rfl, h'⟩
    obtain ⟨b, s1, h1, h2⟩ := hy
    refine ⟨k b, s1, ?_, hok.2 b, fun t' => ?_⟩
    · show (y ⟨c, t⟩).map (fun p => (k p.1, p.2)) = _
      rw [h1]; rfl
    · obtain ⟨t'', h3⟩ := (Th.Ok.run (hok.2 b)).all (c := s1.ctx) (t := s1.addTemp) h2 t'
      exact ⟨_, h3⟩

theorem step_inv {α : Type} {r : Nat → α} {σ : Sys w α} (h : Inv r σ) (i : Nat) : ∃ σ', σ.step i = some σ' ∧ Inv r σ' := by
  obtain ⟨x', s, h1, h2, h3⟩ := next_ok (h i).1 (h i).2 σ.addTemp
  refine ⟨{ ctx := update σ.ctx i s.ctx, th := update σ.th i x', addTemp := s.addTemp }, by rw [Sys.step, h1], fun j => ?_⟩
  by_cases hj : j = i
  · subst hj
    simp only [update, if_true]
    exact ⟨h2, h3⟩
  · simp only [update, if_neg hj]
    exact h j

theorem run_inv {α : Type} {r : Nat → α} : ∀ (is : List Nat) {σ : Sys w α}, Inv r σ → ∃ σ', Sys.run is σ = some σ' ∧ Inv r σ'
  | [], σ, h => ⟨σ, rfl, h⟩
  | i :: is, σ, h => by
    obtain ⟨σ1, h1, h2⟩ := step_inv h i
    obtain ⟨σ2, h3, h4⟩ := run_inv is h2
    exact ⟨σ2, by rw [Sys.run, h1]; exact h3, h4⟩

theorem ret_stays {α : Type} {i : Nat} {a : α} : ∀ (is : List Nat) {σ σ' : Sys w α}, σ.th i = .ret a → Sys.run is σ = some σ' → σ'.th i = .ret a
  | [], σ, σ', h, hr => by cases hr; exact h
  | j :: is, σ, σ', h, hr => by
    rw [Sys.run] at hr
    cases hs : σ.step j with
    | none => rw [hs] at hr; cases hr
    | some σ1 =>
      rw [hs] at hr
      refine ret_stays is ?_ hr
      unfold Sys.step at hs
      split at hs
      · cases hs
      · rename_i t s hn
        cases hs
        by_cases hj : i = j
        · subst hj
          rw [h] at hn
          cases hn
          simp [update]
        · simp [update, hj, h]

theorem finishes {α : Type} {r : Nat → α} (i : Nat) : ∀ (x : Th w α) (c : Ctx w), ∃ N, ∀ (is : List Nat) (σ σ' : Sys w α), Inv r σ →
    σ.th i = x → σ.ctx i = c → N ≤ is.count i → Sys.run is σ = some σ' → ∃ a, σ'.th i = .ret a := by
  intro x
  induction x with
  | ret a => exact fun _ => ⟨0, fun is σ σ' _ hx _ _ hr => ⟨a, ret_stays is hx hr⟩⟩
  | act y k ih =>
    intro c
    -- the outcome of the action does not depend on the shared variable
    by_cases hy : ∃ b c1, ∀ t, ∃ t', y ⟨c, t⟩ = some (b, ⟨c1, t'⟩)
    · obtain ⟨b, c1, hy⟩ := hy
      obtain ⟨N, hN⟩ := ih b c1
      refine ⟨N + 1, fun is => ?_⟩
      induction is with
      | nil => intro σ σ' _ _ _ hc; simp at hc
      | cons j is ihs =>
        intro σ σ' hinv hx hctx hc hr
        rw [Sys.run] at hr
        obtain ⟨σ1, hs, hinv1⟩ := step_inv hinv j
        rw [hs] at hr
        by_cases hj : j = i
        · subst hj
          obtain ⟨t', ht⟩ := hy σ.addTemp
          have hnext : (σ.th j).next ⟨σ.ctx j, σ.addTemp⟩ = some (k b, ⟨c1, t'⟩) := by
            rw [hx, hctx]
            show (y ⟨c, σ.addTemp⟩).map (fun p => (k p.1, p.2)) = _
            rw [ht]; rfl
          rw [Sys.step, hnext] at hs
          cases hs
          refine hN is _ σ' hinv1 ?_ ?_ ?_ hr
          · simp [update]
          · simp [update]
          · simpa using hc
        · refine ihs σ1 σ' hinv1 ?_ ?_ ?_ hr
          · rw [Sys.step] at hs
            split at hs
            · cases hs
            · cases hs; simp [update, Ne.symm hj, hx]
          · rw [Sys.step] at hs
            split at hs
            · cases hs
            · cases hs; simp [update, Ne.symm hj, hctx]
          · rw [List.count_cons_of_ne hj] at hc; exact hc
    · refine ⟨0, fun is σ σ' hinv hx hctx _ _ => (hy ?_).elim⟩
      obtain ⟨hok, hrun⟩ := hinv i
      rw [hx, hctx] at hrun
      rw [hx] at hok
      obtain ⟨s', h⟩ := hrun 0
      have h' : Option.bind (y ⟨c, 0⟩) (fun p => (k p.1).run p.2) = some (r i, s') := h
      cases h0 : y ⟨c, 0⟩ with
      | none => rw [h0] at h'; cases h'
      | some p => exact ⟨p.1, p.2.ctx, fun t => hok.1.all h0 t⟩

/-- Threads on their own contexts of one of the three files, each making a history of calls that starts with a reset. -/
def start (fine : Bool) (v : Which) (ctx : Nat → Ctx v.hash.w) (t : BitVec v.hash.w) (ops : Nat → List Op) : Sys v.hash.w (List (Nat × List UInt8)) :=
  { ctx := ctx, th := fun i => v.threadOf fine (.reset :: ops i), addTemp := t }

/-- **C36**, partial: any number of threads on their own contexts, in every schedule in which the macro `AddLength` is not
interrupted: there is no undefined behaviour, every thread finishes after a bounded number of its own actions, and its results are those
it would have alone (those of the specification). -/
theorem threads_partial (v : Which) (ctx : Nat → Ctx v.hash.w) (hc : ∀ i, (ctx i).Message_Block.length = 2 * v.hash.w) (t : BitVec v.hash.w)
    (ops : Nat → List Op) :
    ∃ N : Nat → Nat, ∀ is : List Nat, ∃ σ, Sys.run is (start false v ctx t ops) = some σ ∧
      (∀ i outs, (σ.th i).result? = some outs → outs = (0, []) :: trace v.hash (.absorbing []) (ops i)) ∧
      ∀ i, N i ≤ is.count i → (σ.th i).result? = some ((0, []) :: trace v.hash (.absorbing []) (ops i)) := by
  have hinv : Inv (fun i => (0, []) :: trace v.hash (.absorbing []) (ops i)) (start false v ctx t ops) := by
    intro i
    refine ⟨threadOf_ok v _, fun t' => ?_⟩
    obtain ⟨s', h⟩ := history v (ctx i) t' (hc i) (ops i)
    refine ⟨s', ?_⟩
    show (v.threadOf false (.reset :: ops i)).run ⟨ctx i, t'⟩ = _
    rw [threadOf_run]; exact h
  refine ⟨fun i => Classical.choose (finishes (r := fun i => (0, []) :: trace v.hash (.absorbing []) (ops i)) i
    ((start false v ctx t ops).th i) ((start false v ctx t ops).ctx i)), fun is => ?_⟩
  obtain ⟨σ, hσ, hinv'⟩ := run_inv is hinv
  have key : ∀ i outs, (σ.th i).result? = some outs → outs = (0, []) :: trace v.hash (.absorbing []) (ops i) := by
    intro i outs ho
    obtain ⟨s', h⟩ := (hinv' i).2 0
    cases hx : σ.th i with
    | ret a =>
      rw [hx] at h ho
      cases ho
      have h' : some (outs, (⟨σ.ctx i, 0⟩ : Sh v.hash.w)) = some (_, s') := h
      exact (Prod.mk.inj (Option.some.inj h')).1
    | act y k => rw [hx] at ho; cases ho
  refine ⟨σ, hσ, key, fun i hcount => ?_⟩
  have hN := Classical.choose_spec (finishes (r := fun i => (0, []) :: trace v.hash (.absorbing []) (ops i)) i
    ((start false v ctx t ops).th i) ((start false v ctx t ops).ctx i))
  obtain ⟨a, ha⟩ := hN is _ σ hinv rfl rfl hcount hσ
  have hr : (σ.th i).result? = some a := by rw [ha]; rfl
  rw [hr, key i a hr]

/-! ## The code violates C36 -/

/-- Two threads hash the messages "abc" and "a" with SHA-256. -/
def raceOps : Nat → List Op := fun i => if i = 0 then [.input (ascii "abc"), .result] else [.input (ascii "a"), .result]

/-- Thread 1 is interrupted between the operands of `AddLength`, thread 0 counts its three bytes. -/
def raceSchedule : List Nat := List.replicate 5 1 ++ List.replicate 18 0 ++ List.replicate 20 1

def raceResult (fine : Bool) (is : List Nat) (i : Nat) : Option (List (Nat × List UInt8)) :=
  (Sys.run is (start fine .sha256 (fun _ => stale 32) 0#32 raceOps)).bind fun σ => (σ.th i).result?

/-- Every call of both threads succeeds, but the digest of thread 1 is not the one it gets alone. -/
theorem race_result : raceResult true raceSchedule 1 = some [(0, []), (0, []), (0,
    [147, 196, 105, 164, 175, 109, 153, 127, 228, 5, 246, 193, 64, 46, 94, 195, 131, 4, 81, 148, 255, 112, 100, 46, 31,
     96, 72, 58, 171, 207, 132, 214])] := by
  decide +kernel

theorem sha256_a_run : run .sha256 [ascii "a"] = some (0,
    [202, 151, 129, 18, 202, 27, 189, 202, 250, 194, 49, 179, 154, 35, 220, 77, 167, 134, 239, 248, 20, 124, 78, 114, 185,
     128, 119, 133, 175, 238, 72, 187]) := by
  decide +kernel

/-- **C36 is false of the code**: there is a schedule of two threads, hashing on their own contexts, after which all calls of a thread have
succeeded and its digest is not the digest of its message. -/
theorem race : ∃ (is : List Nat) (d : List UInt8), raceResult true is 1 = some [(0, []), (0, []), (0, d)] ∧
    d ≠ Fips.SHA256.ofBytes (ascii "a") := by
  refine ⟨raceSchedule, _, race_result, ?_⟩
  have h := run_eq .sha256 [ascii "a"] (Nat.lt_of_lt_of_le (by decide) (pow_big _))
  rw [sha256_a_run, show [ascii "a"].flatten = ascii "a" by decide] at h
  have h2 : _ = Fips.SHA256.ofBytes (ascii "a") := (Prod.mk.inj (Option.some.inj h)).2
  rw [← h2]
  decide

/-- The hypotheses of `threads_partial` are met by the same threads; with the macro atomic both digests are right. -/
theorem race_fixed : raceResult false raceSchedule 1 = some [(0, []), (0, []), (0,
    [202, 151, 129, 18, 202, 27, 189, 202, 250, 194, 49, 179, 154, 35, 220, 77, 167, 134, 239, 248, 20, 124, 78, 114, 185,
     128, 119, 133, 175, 238, 72, 187])] := by
  decide +kernel

end Verif.Sha
