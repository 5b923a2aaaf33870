import Verif.Sock.Quiet
import Verif.Sock.AgainOrder
/-! # C119 for clients that send in their callbacks -/
namespace Verif.Sock

theorem RecvLoopC.same {oom : Prop} {c : Client} {d k : Nat} {o o' : Obj} {fin : Bool} {evs : List Ev} (h : RecvLoopC oom c d k o fin o' evs) : o'.state = o.state := by
  induction h with
  | cut => rfl
  | last => rfl
  | more hE _ ih =>
    obtain ⟨ps, h⟩ := hE.only
    rw [ih, h]

/-- on a handle that is not open a send is refused, without effect -/
theorem SendIn.refused {oom : Prop} {c : Client} {d : Nat} {o : Obj} {m : Pend} {r : Int} {o' : Obj} {e : List Ev} (h : SendIn oom c d o m r o' e)
    (hst : o.state ≠ .opn) : r ≠ 0 ∧ e = [] := by
  have base : ∀ {o1 : Obj} {e1 : List Ev}, SendE oom (some m.bytes) m.cb m.ctx (some o) r (some o1) e1 → r ≠ 0 ∧ e1 = [] := by
    intro o1 e1 h
    simp only [SendE] at h
    rw [if_pos (Or.inr hst)] at h
    exact ⟨h.1, h.2.2⟩
  cases d with
  | zero => exact base h
  | succ d =>
    obtain ⟨o1, e1, e2, h1, rfl, h2⟩ := h
    obtain ⟨h0, rfl⟩ := base h1
    rcases h2 with ⟨h, _⟩ | ⟨_, _, rfl⟩
    · simp at h
    · exact ⟨h0, rfl⟩

/-- sends and `socketio_dowork` leave a handle what it is: a closed one closed, an open one open or failed -/
theorem InvC_step {oom : Prop} {c : Client} {d : Nat} (j : Nat) (a : Option Obj) (L : Log) (op : Op) (r : Int) (a' : Option Obj) (evs : List Ev)
    (h : Inv2 a L ∧ InvQ a L) (hE : EffC oom c d a op r a' evs) : Inv2 a' (L ++ [⟨j, op, r, evs⟩]) ∧ InvQ a' (L ++ [⟨j, op, r, evs⟩]) := by
  obtain ⟨h, hq⟩ := h
  have hc := h.1
  have plain : Eff oom a op r a' evs → Inv2 a' (L ++ [⟨j, op, r, evs⟩]) ∧ InvQ a' (L ++ [⟨j, op, r, evs⟩]) :=
    fun hE => ⟨Inv2_step j a L op r a' evs h hE, InvQ_step j a L op r a' evs h hq hE⟩
  cases op with
  | create => exact plain hE
  | createNull => exact plain hE
  | accept => exact plain hE
  | destroy => exact plain hE
  | opn => exact plain hE
  | close => exact plain hE
  | send i bs cb ctx =>
    cases bs with
    | none => exact plain hE
    | some bs =>
      cases a with
      | none => exact plain hE
      | some o =>
        obtain ⟨o', rfl, hS⟩ := hE
        obtain ⟨ps, rfl⟩ := hS.socket
        refine ⟨h.snoc (keep_open hc Iff.rfl (by simp [Op.isClose]) (by simp [Op.isOpen])) ?_ (fun _ hn => ?_) (by simp) (by simp), ?_⟩
        · intro x hx
          simp only [Option.some.injEq] at hx
          subst hx
          exact h.2.1 o rfl
        · exact hS.refused (by rw [show o.state = .closed from hc.2 hn]; simp)
        · exact hq.snoc (by simp [Op.isCloseCall]) (fun _ _ => by simp) (by simp [Op.isOpen]) (fun _ => rfl)
  | dowork i n m =>
    obtain ⟨fin, hW, hr⟩ := hE
    cases a with
    | none => exact plain ⟨fin, hW, hr⟩
    | some o =>
      obtain ⟨o', rfl, hD⟩ := hW
      refine ⟨?_, hq.snoc (by simp [Op.isCloseCall]) (fun _ _ => by simp) (by simp [Op.isOpen]) (fun _ => rfl)⟩
      unfold DoworkC at hD
      split at hD
      · obtain ⟨rfl, rfl, rfl⟩ := hD
        exact h.snoc (keep_open hc Iff.rfl (by simp [Op.isClose]) (by simp [Op.isOpen])) h.2.1 (by simp [Op.isSend]) (by simp) (fun _ _ _ _ _ => ⟨rfl, hr⟩)
      · rename_i hst
        have hst : o.state = .opn := Decidable.not_not.1 hst
        have hs : o'.state = .opn ∨ o'.state = .error := by
          rw [← hst]
          rcases hD with ⟨_, hS⟩ | ⟨o1, _, _, _, hS, hR⟩
          · exact hS.same.2.2.2
          · rw [hR.same]; exact hS.same.2.2.2
        refine h.snoc (keep_open hc ?_ (by simp [Op.isClose]) (by simp [Op.isOpen])) ?_ (by simp [Op.isSend]) (by simp) ?_
        · simp only [closedOf, hst]
          rcases hs with h | h <;> simp [h]
        · intro x hx
          simp only [Option.some.injEq] at hx
          subst hx
          rcases hs with h | h <;> simp [h]
        · intro _ _ _ _ hn
          have := hc.2 hn
          simp [closedOf, hst] at this

variable {oom : Prop} {cs : Nat → Client} {d : Nat} {ops : List Op} {outs : List (Option Int)} {as : List (Option Obj)} {log : Log}

/-- `quiet_after_close_partial` for clients that send in their callbacks: after a close no message is sent and no callback is called, in
whatever call and callback the client sends, until the handle is open again.  Missing: closes in callbacks
(`closed_in_callback`). -/
theorem quiet_client_partial (h : Runs (stepC oom cs d) ([], []) ops outs (as, log)) (i : Nat) {l1 mid l2 : Log} {c e : Entry}
    (hl : ofPos i log = l1 ++ c :: mid ++ e :: l2) (hc : c.op.isCloseCall = true) (hm : ∀ e ∈ mid, e.op.isOpen = true → e.r ≠ 0) :
    (e.op.isOpen = false → e.op.ends = false → e.evs = []) ∧ (e.op.isSend = true → e.r ≠ 0) ∧
    (e.op.isOpen = true → c.r = 0 → (∀ e' ∈ mid, e'.op.ends = false) → e.r = 0 ∨ e.evs ≠ []) := by
  have hp := at_posC (Inv := fun _ a L => Inv2 a L ∧ InvQ a L) (fun j op r a' evs hN => ⟨Inv2_new j op r a' evs hN, InvQ_new j op r a' evs hN⟩)
    (fun j => InvC_step j) h i
  obtain ⟨a, ha⟩ : ∃ a, as[i]? = some a := by
    cases ha : as[i]? with
    | some a => exact ⟨a, rfl⟩
    | none =>
      have := hp.1 (List.getElem?_eq_none_iff.1 ha)
      rw [this] at hl; simp at hl
  exact quiet_of (hp.2 a ha).1 (hp.2 a ha).2 hl hc hm

end Verif.Sock
