import Verif.Sock.AgainDemo
import Verif.Sock.Ledger
/-! # C119: after a close nothing happens until the handle is opened again -/
namespace Verif.Sock
open Verif.List Verif.Headers

def Op.ends : Op → Bool | .destroy .. => true | _ => false
def Op.makes : Op → Bool | .create .. => true | .createNull .. => true | .accept .. => true | _ => false
def Op.isCloseCall : Op → Bool | .close .. => true | _ => false

/-- a successful close of an existing handle, not yet destroyed -/
def Lives (L : Log) : Prop := ∃ l1 e l2, L = l1 ++ e :: l2 ∧ e.op.isCloseCall = true ∧ e.r = 0 ∧ ∀ e' ∈ l2, e'.op.ends = false

/-- the handle exists as long as the record says so, and every open of a closed one reaches the system -/
def InvQ (a : Option Obj) (L : Log) : Prop :=
  (Lives L → a ≠ none) ∧
  (∀ l1 e l2, L = l1 ++ e :: l2 → l1 ≠ [] → e.op.makes = false) ∧
  ∀ l1 e l2, L = l1 ++ e :: l2 → e.op.isOpen = true → ¬ OpenNow l1 → Lives l1 → e.r = 0 ∨ e.evs ≠ []

theorem Lives.before {L : Log} {e : Entry} (h : Lives (L ++ [e])) : (e.op.isCloseCall = true ∧ e.r = 0) ∨ (Lives L ∧ e.op.ends = false) := by
  obtain ⟨l1, x, l2, h1, h2, h3, h4⟩ := h
  rcases List.eq_nil_or_concat l2 with rfl | ⟨l, y, rfl⟩
  · obtain ⟨rfl, h5⟩ := List.append_inj' h1 rfl
    simp only [List.cons.injEq, and_true] at h5
    exact Or.inl (by rw [h5]; exact ⟨h2, h3⟩)
  · rw [List.concat_eq_append] at h1 h4
    have h1 : L ++ [e] = (l1 ++ x :: l) ++ [y] := by rw [h1]; simp
    obtain ⟨rfl, h5⟩ := List.append_inj' h1 rfl
    simp only [List.cons.injEq, and_true] at h5
    exact Or.inr ⟨⟨l1, x, l, rfl, h2, h3, fun e' he => h4 e' (by simp [he])⟩, by rw [h5]; exact h4 y (by simp)⟩

theorem InvQ.snoc {a a' : Option Obj} {L : Log} {e : Entry} (h : InvQ a L)
    (h1 : e.op.isCloseCall = true → e.r = 0 → a' ≠ none) (h2 : a ≠ none → e.op.ends = false → a' ≠ none)
    (h3 : e.op.isOpen = true → a ≠ none → ¬ OpenNow L → e.r = 0 ∨ e.evs ≠ []) (h4 : L ≠ [] → e.op.makes = false) : InvQ a' (L ++ [e]) := by
  refine ⟨fun hl => ?_, fun l1 x l2 he hne => ?_, fun l1 x l2 he ho hn hl => ?_⟩
  · rcases hl.before with ⟨c, r⟩ | ⟨hl, he⟩
    · exact h1 c r
    · exact h2 (h.1 hl) he
  · rcases List.eq_nil_or_concat l2 with rfl | ⟨l, y, rfl⟩
    · obtain ⟨rfl, h5⟩ := List.append_inj' he rfl
      simp only [List.cons.injEq, and_true] at h5
      subst h5
      exact h4 hne
    · rw [List.concat_eq_append] at he
      have he : L ++ [e] = (l1 ++ x :: l) ++ [y] := by rw [he]; simp
      obtain ⟨rfl, h5⟩ := List.append_inj' he rfl
      exact h.2.1 l1 x l rfl hne
  · rcases List.eq_nil_or_concat l2 with rfl | ⟨l, y, rfl⟩
    · obtain ⟨rfl, h5⟩ := List.append_inj' he rfl
      simp only [List.cons.injEq, and_true] at h5
      subst h5
      exact h3 ho (h.1 hl) hn
    · rw [List.concat_eq_append] at he
      have he : L ++ [e] = (l1 ++ x :: l) ++ [y] := by rw [he]; simp
      obtain ⟨rfl, h5⟩ := List.append_inj' he rfl
      exact h.2.2 l1 x l rfl ho hn hl

theorem InvQ_step {oom : Prop} (j : Nat) (a : Option Obj) (L : Log) (op : Op) (r : Int) (a' : Option Obj) (evs : List Ev) (h2 : Inv2 a L) (h : InvQ a L)
    (hE : Eff oom a op r a' evs) : InvQ a' (L ++ [⟨j, op, r, evs⟩]) := by
  have hc := h2.1
  cases op with
  | create _ _ _ => exact hE.elim
  | createNull _ => exact hE.elim
  | accept _ _ => exact hE.elim
  | destroy i => exact h.snoc (by simp [Op.isCloseCall]) (by simp [Op.ends]) (by simp [Op.isOpen]) (fun _ => rfl)
  | opn i f1 c1 f2 c2 f3 c3 =>
    cases a with
    | none => exact h.snoc (by simp [Op.isCloseCall]) (by simp) (by simp) (fun _ => rfl)
    | some o =>
      simp only [Eff, OpenE] at hE
      refine h.snoc (by simp [Op.isCloseCall]) (fun _ _ => ?_) (fun _ _ hn => ?_) (fun _ => rfl)
      · split at hE
        · simp [hE]
        split at hE
        · simp [hE]
        rcases hE with ⟨h0, h1, _⟩ | ⟨fd, _, _, ⟨_, _, _, h0, h1, _⟩ | ⟨ai, ⟨_, _, h0, h1, _⟩ | ⟨h0, h1, _⟩ | ⟨_, _, h0, h1, _⟩ | ⟨_, _, _, _, h0, h1, _⟩⟩⟩ <;> simp [h1]
      · have hcl : o.state = .closed := hc.2 hn
        simp only [hcl, ne_eq, not_true_eq_false, if_false] at hE
        split at hE
        · exact Or.inl hE.1
        · right
          rcases hE with ⟨_, _, h1⟩ | ⟨fd, _, _, ⟨_, _, _, _, _, h1⟩ | ⟨ai, ⟨_, _, _, _, h1⟩ | ⟨_, _, h1⟩ | ⟨_, _, _, _, h1⟩ | ⟨_, _, _, _, _, _, h1⟩⟩⟩ <;> simp [h1]
  | close i f c =>
    cases a with
    | none => exact h.snoc (fun _ h0 => absurd h0 hE.1) (by simp) (by simp [Op.isOpen]) (fun _ => rfl)
    | some o =>
      simp only [Eff, CloseE] at hE
      have : a' ≠ none := by split at hE <;> simp [hE]
      exact h.snoc (fun _ _ => this) (fun _ _ => this) (by simp [Op.isOpen]) (fun _ => rfl)
  | dowork i n m =>
    obtain ⟨fin, hE, hr⟩ := hE
    refine h.snoc (by simp [Op.isCloseCall]) (fun ha _ => ?_) (by simp [Op.isOpen]) (fun _ => rfl)
    cases a with
    | none => simp at ha
    | some o =>
      simp only [DoworkE] at hE
      split at hE
      · simp [hE]
      · obtain ⟨o2, rfl, _⟩ := hE; simp
  | send i bs cb ctx =>
    refine h.snoc (by simp [Op.isCloseCall]) (fun ha _ => ?_) (by simp [Op.isOpen]) (fun _ => rfl)
    cases a with
    | none => simp at ha
    | some o =>
      cases bs with
      | none => simp only [Eff, SendE] at hE; simp [hE]
      | some bs =>
        simp only [Eff, SendE] at hE
        split at hE
        · simp [hE]
        split at hE
        · obtain ⟨_, ⟨_, h1⟩ | ⟨_, _, h1⟩⟩ := hE <;> simp [h1]
        · rcases hE with ⟨_, h1, _⟩ | ⟨_, h1, _⟩ | ⟨n, _, _, ⟨_, h1⟩ | ⟨_, _, h1⟩⟩ <;> simp [h1]

theorem InvQ_new {oom : Prop} (j : Nat) (op : Op) (r : Int) (a' : Option Obj) (evs : List Ev) (h : New oom op r a' evs) : InvQ a' [⟨j, op, r, evs⟩] := by
  have base : InvQ none [] := ⟨by rintro ⟨l1, e, l2, h, _⟩; simp at h, by simp, by simp⟩
  cases op with
  | create _ _ _ => exact InvQ.snoc (L := []) base (by simp [Op.isCloseCall]) (by simp) (by simp) (by simp)
  | createNull _ => exact InvQ.snoc (L := []) base (by simp [Op.isCloseCall]) (by simp) (by simp) (by simp)
  | accept _ _ => exact InvQ.snoc (L := []) base (by simp [Op.isCloseCall]) (by simp) (by simp) (by simp)
  | destroy _ => exact h.elim
  | opn _ _ _ _ _ _ _ => exact h.elim
  | close _ _ _ => exact h.elim
  | send _ _ _ _ => exact h.elim
  | dowork _ _ _ => exact h.elim

theorem not_open_after {l1 mid : Log} {c : Entry} (hc : c.op.isCloseCall = true) (hm : ∀ e ∈ mid, e.op.isOpen = true → e.r ≠ 0) :
    ¬ OpenNow (l1 ++ c :: mid) := by
  rintro ⟨a, e, b, h, ho, hr, hb⟩
  have hco : c.op.isOpen = false := by cases hop : c.op <;> rw [hop] at hc <;> simp [Op.isCloseCall] at hc <;> rfl
  have hcc : c.op.isClose = true := by cases hop : c.op <;> rw [hop] at hc <;> simp [Op.isCloseCall] at hc <;> rfl
  rcases List.append_eq_append_iff.1 h with ⟨x, rfl, hx⟩ | ⟨x, rfl, hx⟩
  · cases x with
    | nil =>
      simp only [List.nil_append, List.cons.injEq] at hx
      rw [hx.1, ho] at hco; simp at hco
    | cons y x =>
      simp only [List.cons_append, List.cons.injEq] at hx
      exact hm e (by simp [hx.2]) ho hr
  · cases x with
    | nil =>
      simp only [List.nil_append, List.cons.injEq] at hx
      rw [← hx.1, ho] at hco; simp at hco
    | cons y x =>
      simp only [List.cons_append, List.cons.injEq] at hx
      have := hb c (by simp [hx.2])
      rw [hcc] at this; simp at this

theorem quiet_of {a : Option Obj} {L l1 mid l2 : Log} {c e : Entry} (h2 : Inv2 a L) (h3 : InvQ a L) (hl : L = l1 ++ c :: mid ++ e :: l2)
    (hc : c.op.isCloseCall = true) (hm : ∀ e ∈ mid, e.op.isOpen = true → e.r ≠ 0) :
    (e.op.isOpen = false → e.op.ends = false → e.evs = []) ∧ (e.op.isSend = true → e.r ≠ 0) ∧
    (e.op.isOpen = true → c.r = 0 → (∀ e' ∈ mid, e'.op.ends = false) → e.r = 0 ∨ e.evs ≠ []) := by
  have hn := not_open_after (l1 := l1) hc hm
  obtain ⟨hs, hcl, hd⟩ := h2.2.2 _ e l2 hl
  refine ⟨fun ho he => ?_, fun hsd => (hs hsd hn).1, fun ho hr hmid => h3.2.2 _ e l2 hl ho hn ⟨l1, c, mid, rfl, hc, hr, hmid⟩⟩
  cases hop : e.op with
  | create _ _ _ => exact absurd (h3.2.1 _ e l2 hl (by simp)) (by rw [hop]; simp [Op.makes])
  | createNull _ => exact absurd (h3.2.1 _ e l2 hl (by simp)) (by rw [hop]; simp [Op.makes])
  | accept _ _ => exact absurd (h3.2.1 _ e l2 hl (by simp)) (by rw [hop]; simp [Op.makes])
  | destroy _ => rw [hop] at he; simp [Op.ends] at he
  | opn _ _ _ _ _ _ _ => rw [hop] at ho; simp [Op.isOpen] at ho
  | close _ _ _ => exact (hcl _ _ _ hop).2 hn
  | send _ _ _ _ => exact (hs (by rw [hop]; rfl) hn).2
  | dowork _ _ _ => exact (hd _ _ _ hop hn).1

variable {oom : Prop} {ops : List Op} {outs : List (Option Int)} {as : List (Option Obj)} {log : Log}

/-- C119 (part): from the return of `socketio_close` (`c`) to the next successful `socketio_open`, a call on the handle that is
neither an open nor the end (`e`) reaches neither the system nor a callback; sends are refused; and as long as the handle is
not destroyed, an open is carried out: it succeeds or is answered by the system.  Missing: closes in callbacks
(`closed_in_callback`). -/
theorem quiet_after_close_partial (h : Runs (step oom) ([], []) ops outs (as, log)) (i : Nat) {l1 mid l2 : Log} {c e : Entry}
    (hl : ofPos i log = l1 ++ c :: mid ++ e :: l2) (hc : c.op.isCloseCall = true) (hm : ∀ e ∈ mid, e.op.isOpen = true → e.r ≠ 0) :
    (e.op.isOpen = false → e.op.ends = false → e.evs = []) ∧ (e.op.isSend = true → e.r ≠ 0) ∧
    (e.op.isOpen = true → c.r = 0 → (∀ e' ∈ mid, e'.op.ends = false) → e.r = 0 ∨ e.evs ≠ []) := by
  have hp := at_pos (Inv := fun a L => Inv2 a L ∧ InvQ a L) (fun j op r a' evs hN => ⟨Inv2_new j op r a' evs hN, InvQ_new j op r a' evs hN⟩)
    (fun j a L op r a' evs hI hE => ⟨Inv2_step j a L op r a' evs hI.1 hE, InvQ_step j a L op r a' evs hI.1 hI.2 hE⟩) h i
  obtain ⟨a, ha⟩ : ∃ a, as[i]? = some a := by
    cases ha : as[i]? with
    | some a => exact ⟨a, rfl⟩
    | none =>
      have := hp.1 (List.getElem?_eq_none_iff.1 ha)
      rw [this] at hl; simp at hl
  exact quiet_of (hp.2 a ha).1 (hp.2 a ha).2 hl hc hm

end Verif.Sock
