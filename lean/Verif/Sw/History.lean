import Verif.Sw.HSpec
import Verif.Sw.Props
/-! # C98: every history of calls runs without undefined behaviour and does what the specification says -/
namespace Verif.Sw
open Verif.Headers
open Verif.Sock (Obj Pend HostArg Target CreateE opened Act i32 SockR FdR FdIn CfgArg BytesArg socketio_create socketio_create_spec)
variable {rel : Prop} {os : Os} {Net : List Ev → HProp} {Fd : Int → HProp} {Ai : Nat → HProp}

/-- a client that gets a socket (as from `accept`) and wraps it -/
def acceptOne (os : Os) (port : Int) (logger : Nat) : M Ptr := do
  let fd ← os.socket
  let h ← socketio_create (some ⟨.null, port, some fd⟩) logger
  if h = 0 ∧ ¬ fd < 0 then do
    let _ ← os.close fd
    pure h
  else pure h

/-- the client: a table of handles -/
def exec (os : Os) (op : Op) (env : List Nat) : M (Option Int × List Nat) :=
  match op with
  | .create host port logger => do
    let h ← socketio_create (some ⟨.str host, port, none⟩) logger
    pure (some (if h = 0 then 0 else 1), env ++ [h])
  | .createNull logger => do let h ← socketio_create none logger; pure (some (if h = 0 then 0 else 1), env ++ [h])
  | .accept port logger => do let h ← acceptOne os port logger; pure (some (if h = 0 then 0 else 1), env ++ [h])
  | .destroy i => on1 env i fun h => do socketio_destroy os h; pure (some 0, env.set i 0)
  | .opn i f1 c1 f2 c2 f3 c3 => on1 env i fun h => do let r ← socketio_open os h f1 c1 f2 c2 f3 c3; pure (some r, env)
  | .close i f c => on1 env i fun h => do let r ← socketio_close os h f c; pure (some r, env)
  | .send i none cb ctx => on1 env i fun h => do let r ← socketio_send os h .null 1 cb ctx; pure (some r, env)
  | .send i (some bs) cb ctx => on1 env i fun h => do let r ← socketio_send os h (.lit bs) bs.length cb ctx; pure (some r, env)
  | .dowork i n m => on1 env i fun h => do let r ← socketio_dowork os n m h; pure (some (if r then 1 else 0), env)

/-- arguments are C strings, `int`s and objects -/
def good : Op → Prop
  | .create host port _ => NoNul host ∧ host.length < maxObj ∧ i32 port
  | .accept port _ => i32 port
  | .send _ (some bs) _ _ => bs.length < 2 ^ 31
  | _ => True

/-- what the system's memory is after the calls of the record -/
def NetL (Net : List Ev → HProp) (log : Log) : HProp := Net (trace log)

theorem trace_snoc {log : Log} {i : Nat} {op : Op} {r : Int} {evs : List Ev} : trace (log ++ [⟨i, op, r, evs⟩]) = trace log ++ evs := by
  simp [trace]

theorem acceptOne_spec (H : Honours rel os Net Fd Ai) (port : Int) (hport : i32 port) (logger : Nat) (tr : List Ev) :
    Triple rel (Net tr) (acceptOne os port logger)
      (fun r => ∃∃ a' fd, (-1 ≤ fd ∧ fd < 2 ^ 31 ∧ CreateE (¬ rel) (some ⟨none, port, fd⟩) logger (decide (r ≠ 0)) a') ⋏ ORep (SockR Fd) r a' ∗
        Net (tr ++ (.socket fd :: (if decide (r ≠ 0) = true ∨ fd < 0 then [] else [.close fd])))) := by
  unfold acceptOne
  step (H.socket tr) into fd
  intro h1 h2
  have hfd : i32 fd := ⟨by omega, h2⟩
  have hin : (if fd < 0 then emp else Fd fd) = FdIn Fd (some ⟨none, port, fd⟩) := by
    simp only [FdIn, FdR, if_true]
    by_cases h : fd < 0
    · rw [if_pos h, if_pos (by omega)]
    · rw [if_neg h, if_neg (by omega)]
  rw [hin]
  have hc := socketio_create_spec (rel := rel) (Fd := Fd) (some ⟨.null, port, some fd⟩) (some ⟨none, port, fd⟩) logger
  have hcfg : CfgArg (some ⟨.null, port, some fd⟩) (some ⟨none, port, fd⟩) = emp := by
    have : ((port = port ∧ i32 port ∧ ((none : Option (List UInt8)) = none → some fd = some fd ∧ i32 fd)) ⋏ ((CharPtr.null = .null) ⋏ emp)) = emp := by
      simp [hport, hfd, true_pand]
    simpa [CfgArg, HostArg] using this
  rw [hcfg, emp_sep] at hc
  simp only [emp_sep] at hc
  step hc into r
  intro a' hE
  refine Triple.ite (fun h => ?_) (fun h => ?_)
  · rw [if_pos h.1, ← hin, if_neg h.2]
    step (H.close fd _ (by omega)) into z
    refine Triple.pure (entails_ex_r a' (entails_ex_r fd (entails_pand_r ?_ ⟨h1, h2, hE⟩)))
    rw [if_neg (by simp [h.1]; omega), List.append_assoc]
    sep_cancel
  · refine Triple.pure (entails_ex_r a' (entails_ex_r fd (entails_pand_r ?_ ⟨h1, h2, hE⟩)))
    have : decide (r ≠ 0) = true ∨ fd < 0 := by
      by_cases hr : r = 0
      · by_cases hf : fd < 0
        · exact Or.inr hf
        · exact absurd ⟨hr, hf⟩ h
      · exact Or.inl (by simpa using hr)
    rw [if_pos this]
    have e : (if r = 0 then FdIn Fd (some ⟨none, port, fd⟩) else emp) = emp := by
      by_cases hr : r = 0
      · rw [if_pos hr, ← hin, if_pos (this.resolve_left (by simp [hr]))]
      · rw [if_neg hr]
    rw [e]
    sep_cancel

theorem exec_spec (H : Honours rel os Net Fd Ai) (op : Op) (hop : good op) (env : List Nat) (x : World) :
    Triple rel (OwnW (ORep (SockR Fd)) (NetL Net) env x) (exec os op env)
      (fun r => ∃∃ x', (step (¬ rel) x op r.1 x') ⋏ OwnW (ORep (SockR Fd)) (NetL Net) r.2 x') := by
  have hdec : ∀ r : Nat, (if decide (r ≠ 0) = true then (1 : Int) else 0) = if r = 0 then 0 else 1 := by
    intro r; by_cases h : r = 0 <;> simp [h]
  have nothing : ∀ log op r, Net (trace log) ⊢ₕ NetL Net (log ++ [⟨x.1.length, op, r, []⟩]) := by
    intro log op r; unfold NetL; rw [trace_snoc, List.append_nil]; exact entails_refl _
  cases op with
  | create host port logger =>
    unfold exec step
    dsimp only
    refine liftW_new (f := fun h => if h = 0 then 0 else 1) fun log => ?_
    have hc := socketio_create_spec (rel := rel) (Fd := Fd) (some ⟨.str host, port, none⟩) (some ⟨some host, port, 0⟩) logger
    have hcfg : CfgArg (some ⟨.str host, port, none⟩) (some ⟨some host, port, 0⟩) = emp := by
      have h1 : HostArg (.str host) (some host) = emp := by
        simp only [HostArg]
        funext z
        exact propext ⟨fun h => h.2, fun hh => CStr_str hop.1 hop.2.1 z hh⟩
      simp only [CfgArg, h1]
      simp [hop.2.2, true_pand]
    have hin : FdIn Fd (some ⟨some host, port, 0⟩) = emp := by simp [FdIn]
    rw [hcfg, hin, emp_sep] at hc
    simp only [ite_self, sep_emp] at hc
    refine Triple.conseq (hc.frame (Net (trace log))) (by unfold NetL; rw [emp_sep]; exact entails_refl _) fun r => ?_
    simp only [hex_sep, pand_sep]
    refine entails_ex_l fun a' => entails_pand_l fun hE => entails_ex_r a' (entails_ex_r _ (entails_pand_r ?_ ⟨_, hE, (hdec r).symm, rfl⟩))
    exact sep_mono (entails_refl _) (nothing _ _ _)
  | createNull logger =>
    unfold exec step
    dsimp only
    refine liftW_new (f := fun h => if h = 0 then 0 else 1) fun log => ?_
    have hc := socketio_create_spec (rel := rel) (Fd := Fd) none none logger
    simp only [CfgArg, FdIn, ite_self, sep_emp] at hc
    refine Triple.conseq (hc.frame (Net (trace log))) (by unfold NetL; rw [emp_sep]; exact entails_refl _) fun r => ?_
    simp only [hex_sep, pand_sep]
    refine entails_ex_l fun a' => entails_pand_l fun hE => entails_ex_r a' (entails_ex_r _ (entails_pand_r ?_ ⟨_, hE, (hdec r).symm, rfl⟩))
    exact sep_mono (entails_refl _) (nothing _ _ _)
  | accept port logger =>
    unfold exec step
    dsimp only
    refine liftW_new (f := fun h => if h = 0 then 0 else 1) fun log => ?_
    refine Triple.conseq (acceptOne_spec H port hop logger (trace log)) (entails_refl _) fun r => ?_
    refine entails_ex_l fun a' => entails_ex_l fun fd => entails_pand_l fun hE => entails_ex_r a' (entails_ex_r _ (entails_pand_r ?_ ⟨_, fd, hE.1, hE.2.1, hE.2.2, (hdec r).symm, rfl⟩))
    unfold NetL; rw [trace_snoc]; exact entails_refl _
  | destroy i =>
    unfold exec step
    dsimp only
    refine liftW_del (o := (0 : Int)) (W := Log) (E := fun a log (r : Int) a' log' => r = 0 ∧ a' = none ∧ ∃ evs, DestroyE a evs ∧ log' = log ++ [(⟨i, .destroy i, r, evs⟩ : Entry)]) fun h a log => ?_
    refine Triple.conseq (socketio_destroy_spec H h a (trace log)) (entails_refl _) fun _ => ?_
    refine entails_ex_l fun evs => entails_pand_l fun hE => entails_ex_r _ (entails_pand_r ?_ ⟨rfl, rfl, evs, hE, rfl⟩)
    unfold NetL; rw [trace_snoc]; exact entails_refl _
  | opn i f1 c1 f2 c2 f3 c3 =>
    unfold exec step
    dsimp only
    refine liftW_op1 (f := id) fun h a log => ?_
    refine Triple.conseq (socketio_open_spec H f1 c1 f2 c2 f3 c3 h a (trace log)) (entails_refl _) fun r => ?_
    refine entails_ex_l fun a' => entails_ex_l fun evs => entails_pand_l fun hE => entails_ex_r a' (entails_ex_r _ (entails_pand_r ?_ ⟨evs, hE, rfl⟩))
    unfold NetL; rw [trace_snoc]; exact entails_refl _
  | close i f c =>
    unfold exec step
    dsimp only
    refine liftW_op1 (f := id) fun h a log => ?_
    refine Triple.conseq (socketio_close_spec H f c h a (trace log)) (entails_refl _) fun r => ?_
    refine entails_ex_l fun a' => entails_ex_l fun evs => entails_pand_l fun hE => entails_ex_r a' (entails_ex_r _ (entails_pand_r ?_ ⟨evs, hE, rfl⟩))
    unfold NetL; rw [trace_snoc]; exact entails_refl _
  | send i bs cb ctx =>
    cases bs with
    | none =>
      unfold exec step
      dsimp only
      refine liftW_op1 (f := id) fun h a log => ?_
      have hs := socketio_send_spec H .null 1 none cb ctx h a (trace log)
      simp only [BytesArg, true_pand, sep_emp] at hs
      refine Triple.conseq hs (entails_refl _) fun r => ?_
      refine entails_ex_l fun a' => entails_ex_l fun evs => entails_pand_l fun hE => entails_ex_r a' (entails_ex_r _ (entails_pand_r ?_ ⟨evs, hE, rfl⟩))
      unfold NetL; rw [trace_snoc]; exact entails_refl _
    | some bs =>
      unfold exec step
      dsimp only
      refine liftW_op1 (f := id) fun h a log => ?_
      have hs := socketio_send_spec H (.lit bs) bs.length (some bs) cb ctx h a (trace log)
      have hm : bs.length ≤ maxObj := Nat.le_of_lt (Nat.lt_of_lt_of_le (show bs.length < 2 ^ 31 from hop) (by decide))
      have e : BytesArg (.lit bs) bs.length (some bs) = emp := by
        simp only [BytesArg, Data_lit (List.prefix_refl bs) hm]
        simp [true_pand]
      rw [e, sep_emp] at hs
      simp only [sep_emp] at hs
      refine Triple.conseq hs (entails_refl _) fun r => ?_
      refine entails_ex_l fun a' => entails_ex_l fun evs => entails_pand_l fun hE => entails_ex_r a' (entails_ex_r _ (entails_pand_r ?_ ⟨evs, hE, rfl⟩))
      unfold NetL; rw [trace_snoc]; exact entails_refl _
  | dowork i n m =>
    unfold exec step
    dsimp only
    refine liftW_op1 (f := fun r : Bool => if r then 1 else 0) fun h a log => ?_
    refine Triple.conseq (socketio_dowork_spec H n m h a (trace log)) (entails_refl _) fun r => ?_
    refine entails_ex_l fun a' => entails_ex_l fun evs => entails_pand_l fun hE => entails_ex_r a' (entails_ex_r _ (entails_pand_r ?_ ⟨r, evs, hE, rfl, rfl⟩))
    unfold NetL; rw [trace_snoc]; exact entails_refl _

/-- Every history on any number of handles: no undefined behaviour; results, callbacks and system calls are those of
the specification. -/
theorem histories (H : Honours rel os Net Fd Ai) (ops : List Op) (hops : ∀ op ∈ ops, good op) (env : List Nat) (x : World) :
    Triple rel (OwnW (ORep (SockR Fd)) (NetL Net) env x) (runOps (exec os) ops env)
      (fun r => ∃∃ x', (Runs (step (¬ rel)) x ops r.1 x') ⋏ OwnW (ORep (SockR Fd)) (NetL Net) r.2 x') :=
  runOps_spec (fun op hop env x => exec_spec H op hop env x) ops hops env x

/-- From a state in which only the system owns memory. -/
theorem histories_run (H : Honours False os Net Fd Ai) (ops : List Op) (hops : ∀ op ∈ ops, good op) (s : St)
    (hf : s.heap.fin) (h0 : Net [] s.heap) :
    ∃ outs env as log s', runOps (exec os) ops [] s = some (.ok ((outs, env), s')) ∧
      Runs (step True) ([], []) ops outs (as, log) ∧ (Own (ORep (SockR Fd)) env as ∗ Net (trace log)) s'.heap := by
  have t := histories H ops hops [] ([], [])
  have t : Triple False (Net []) _ _ := t.pre (entails_of_eq (by rw [OwnW, Own_nil, emp_sep]; rfl))
  obtain ⟨r, s', h1, ⟨x', hx, hh⟩⟩ := t.run s hf (fun h => h.elim) h0
  refine ⟨r.1, r.2, x'.1, x'.2, s', h1, ?_, hh⟩
  simpa using hx

end Verif.Sw
