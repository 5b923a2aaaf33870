import Verif.Xio.Props
import Verif.Sock.History
import Verif.Sock.Ledger
import Verif.Sock.Again
import Verif.Sock.AgainEnd
/-! # C120: a socket IO used through xio

`xio_*` (src/xio.c) on the interface description of adapters/socketio_berkeley.c:57-66, with the functions of that file behind its
pointers.  The addresses which xio passes through stand for a configuration (`cfg`) and a buffer (`buf`) of the client. -/
namespace Verif.XS
open Verif.Sock Verif.List Verif.Headers
variable {rel : Prop} {os : Os} {Net : List Sock.Ev → HProp} {Fd : Int → HProp} {Ai : Nat → HProp}

/-- `socket_io_interface_description`, adapters/socketio_berkeley.c:57-66; the addresses of the functions are numbered -/
def sockIface : Xio.Iface := ⟨1, 2, 3, 4, 5, 6, 7⟩

/-- what is constant: the description, at address 7 (`socketio_get_interface_description`, adapters/socketio_berkeley.c:526-529) -/
def sockRo (d : Nat) : Option Xio.Iface := if d = 7 then some sockIface else none

/-- the functions of socketio_berkeley.c at their addresses; `n`, `m` bound the rounds of the loops of `socketio_dowork` -/
def sockCode (os : Os) (cfg : Option Config) (buf : CharPtr) (n m : Nat) : Xio.Code where
  create fn _ logger := if fn = 1 then socketio_create cfg logger else ub "not a create function"
  destroy fn h := if fn = 2 then socketio_destroy os h else ub "not a destroy function"
  opn fn h f1 c1 f2 c2 f3 c3 := if fn = 3 then socketio_open os h f1 c1 f2 c2 f3 c3 else ub "not an open function"
  close fn h f c := if fn = 4 then socketio_close os h f c else ub "not a close function"
  send fn h _ size cb ctx := if fn = 5 then socketio_send os h buf size cb ctx else ub "not a send function"
  dowork fn h := if fn = 6 then do let _ ← socketio_dowork os n m h; pure () else ub "not a dowork function"
  setoption fn h name value := if fn = 7 then pure (socketio_setoption h name value) else ub "not a setoption function"

/-- an xio instance whose concrete handle is a socket IO -/
def XSR (Fd : Int → HProp) (p : Ptr) (o : Sock.Obj) : HProp := ∃∃ h : Nat, p ↦ [.ptr 7, .ptr h] ∗ SockR Fd h o

theorem deref7 : Triple rel emp (Xio.deref sockRo 7) (fun i => (i = sockIface) ⋏ emp) := Xio.deref_spec rfl

theorem call_sock {p : Ptr} {a : Option Sock.Obj} {tr : List Sock.Ev} {β : Type} {c : M β} {E : Option Sock.Obj → β → Option Sock.Obj → List Sock.Ev → Prop}
    (hn : p = 0 → ∃ r, c = pure r ∧ E none r none [])
    (he : ∀ o r a' evs, E (some o) r a' evs → a' ≠ none)
    (hs : ∀ h o, p ≠ 0 → Triple rel (p ↦ [.ptr 7, .ptr h] ∗ ORep (SockR Fd) h (some o) ∗ Net tr) c
      (fun r => ∃∃ a' evs, (E (some o) r a' evs) ⋏ p ↦ [.ptr 7, .ptr h] ∗ ORep (SockR Fd) h a' ∗ Net (tr ++ evs))) :
    Triple rel (ORep (XSR Fd) p a ∗ Net tr) c (fun r => ∃∃ a' evs, (E a r a' evs) ⋏ ORep (XSR Fd) p a' ∗ Net (tr ++ evs)) := by
  cases a with
  | none =>
    rw [ORep_none]; hoist; intro h
    obtain ⟨r, rfl, hr⟩ := hn h
    refine Triple.pure (entails_ex_r none (entails_ex_r [] (entails_pand_r ?_ hr)))
    subst h
    rw [ORep_null, emp_sep, List.append_nil]; exact entails_refl _
  | some o =>
    rw [ORep_some]; unfold XSR; hoist; intro h
    refine Triple.know (know_pts (p := p) (φ := p ≠ 0) (by pick) fun h1 _ => h1) fun hp => ?_
    refine ((hs h o hp).pre (by rw [ORep_some]; sep_cancel)).conseq (entails_refl _) fun r =>
      entails_ex_l fun a' => entails_ex_l fun evs => entails_pand_l fun hE => ?_
    refine entails_ex_r a' (entails_ex_r evs (entails_pand_r ?_ hE))
    cases a' with
    | none => exact absurd rfl (he _ _ _ _ hE)
    | some o' =>
      rw [ORep_some, ORep_some]
      simp only [hex_sep]
      refine entails_ex_r h ?_
      simp only [sep_assoc]
      sep_cancel

/-- of a failing result only its being different from 0 is said -/
theorem open_r {f1 c1 f2 c2 f3 c3 : Nat} {a a' : Option Sock.Obj} {v r : Int} {evs : List Sock.Ev} (h : OpenE f1 c1 f2 c2 f3 c3 a v a' evs)
    (hr : r = 0 ↔ v = 0) : OpenE f1 c1 f2 c2 f3 c3 a r a' evs := by
  have hr' : (r ≠ 0) = (v ≠ 0) := by simp only [ne_eq, hr]
  unfold OpenE at h ⊢
  simpa only [hr', hr] using h

theorem close_r {f c : Nat} {o : Sock.Obj} {a' : Option Sock.Obj} {v : Int} {evs : List Sock.Ev} (h : CloseE f c (some o) v a' evs) : v = 0 := by
  simp only [CloseE] at h
  split at h <;> exact h.1

theorem sock_open (H : Sock.Honours rel os Net Fd Ai) {cfg : Option Config} {buf : CharPtr} {n m : Nat} (f1 c1 f2 c2 f3 c3 : Nat) (p : Ptr) (a : Option Sock.Obj) (tr : List Sock.Ev) :
    Triple rel (ORep (XSR Fd) p a ∗ Net tr) (Xio.xio_open sockRo (sockCode os cfg buf n m) p f1 c1 f2 c2 f3 c3)
      (fun r => ∃∃ a' evs, (OpenE f1 c1 f2 c2 f3 c3 a r a' evs) ⋏ ORep (XSR Fd) p a' ∗ Net (tr ++ evs)) := by
  refine call_sock (E := OpenE f1 c1 f2 c2 f3 c3)
    (fun h => ⟨80, by unfold Xio.xio_open; rw [if_pos h], ⟨by decide, rfl, rfl⟩⟩) ?_ fun h o hp => ?_
  · intro o r a' evs hE
    obtain ⟨_, o', rfl, _⟩ := act_open hE
    simp
  · unfold Xio.xio_open
    rw [if_neg hp]
    stepd (loadPtr_spec (q := 7) ?_)
    step deref7
    stepd (loadPtr_spec (q := h) ?_)
    simp only [sockCode, sockIface, if_true]
    step (socketio_open_spec H f1 c1 f2 c2 f3 c3 h (some o) tr) into v
    intro a' evs hE
    refine Triple.ite (fun hv => Triple.pure ?_) fun hv => Triple.pure ?_
    · exact entails_ex_r a' (entails_ex_r evs (entails_pand_r (by sep_cancel) (open_r hE (by simp [hv]))))
    · exact entails_ex_r a' (entails_ex_r evs (entails_pand_r (by sep_cancel) (open_r hE (by simpa using hv))))

theorem sock_close (H : Sock.Honours rel os Net Fd Ai) {cfg : Option Config} {buf : CharPtr} {n m : Nat} (f c : Nat) (p : Ptr) (a : Option Sock.Obj) (tr : List Sock.Ev) :
    Triple rel (ORep (XSR Fd) p a ∗ Net tr) (Xio.xio_close sockRo (sockCode os cfg buf n m) p f c)
      (fun r => ∃∃ a' evs, (CloseE f c a r a' evs) ⋏ ORep (XSR Fd) p a' ∗ Net (tr ++ evs)) := by
  refine call_sock (E := CloseE f c)
    (fun h => ⟨109, by unfold Xio.xio_close; rw [if_pos h], ⟨by decide, rfl, rfl⟩⟩) ?_ fun h o hp => ?_
  · intro o r a' evs hE
    obtain ⟨_, o', rfl, _⟩ := act_close hE
    simp
  · unfold Xio.xio_close
    rw [if_neg hp]
    stepd (loadPtr_spec (q := 7) ?_)
    step deref7
    stepd (loadPtr_spec (q := h) ?_)
    simp only [sockCode, sockIface, if_true]
    step (socketio_close_spec H f c h (some o) tr) into v
    intro a' evs hE
    refine Triple.ite (fun hv => Triple.pure ?_) fun hv => Triple.pure ?_
    · exact absurd (close_r hE) hv
    · have hv : v = 0 := by simpa using hv
      subst hv
      exact entails_ex_r a' (entails_ex_r evs (entails_pand_r (by sep_cancel) hE))

theorem sock_send (H : Sock.Honours rel os Net Fd Ai) {cfg : Option Config} {s : CharPtr} {n m : Nat} (b k : Nat) (bytes : Option (List UInt8))
    (hb : BytesArg s k bytes = emp) (cb ctx : Nat) (p : Ptr) (a : Option Sock.Obj) (tr : List Sock.Ev) :
    Triple rel (ORep (XSR Fd) p a ∗ Net tr) (Xio.xio_send sockRo (sockCode os cfg s n m) p b k cb ctx)
      (fun r => ∃∃ a' evs, (SendE (¬ rel) bytes cb ctx a r a' evs) ⋏ ORep (XSR Fd) p a' ∗ Net (tr ++ evs)) := by
  refine call_sock (E := SendE (¬ rel) bytes cb ctx)
    (fun h => ⟨139, by unfold Xio.xio_send; rw [if_pos h], ⟨by decide, rfl, rfl⟩⟩) ?_ fun h o hp => ?_
  · intro o r a' evs hE
    cases bytes with
    | none => obtain ⟨_, rfl, _⟩ := hE; simp
    | some bs => obtain ⟨ps, rfl⟩ := SendE_some hE; simp
  · unfold Xio.xio_send
    rw [if_neg hp]
    stepd (loadPtr_spec (q := 7) ?_)
    step deref7
    stepd (loadPtr_spec (q := h) ?_)
    simp only [sockCode, sockIface, if_true]
    have hs := socketio_send_spec H s k bytes cb ctx h (some o) tr
    rw [hb] at hs
    simp only [sep_emp] at hs
    refine (hs.frame (p ↦ [.ptr 7, .ptr h])).conseq (by sep_cancel) fun r => ?_
    simp only [hex_sep, pand_sep]
    refine entails_ex_l fun a' => entails_ex_l fun evs => entails_pand_l fun hE => entails_ex_r a' (entails_ex_r evs (entails_pand_r (by sep_cancel) hE))

theorem sock_dowork (H : Sock.Honours rel os Net Fd Ai) {cfg : Option Config} {s : CharPtr} {n m : Nat} (p : Ptr) (a : Option Sock.Obj) (tr : List Sock.Ev) :
    Triple rel (ORep (XSR Fd) p a ∗ Net tr) (Xio.xio_dowork sockRo (sockCode os cfg s n m) p)
      (fun _ => ∃∃ a' evs, (∃ fin, DoworkE n m a fin a' evs) ⋏ ORep (XSR Fd) p a' ∗ Net (tr ++ evs)) := by
  refine call_sock (E := fun a _ a' evs => ∃ fin, DoworkE n m a fin a' evs)
    (fun h => ⟨(), by unfold Xio.xio_dowork; rw [if_pos h], true, ⟨rfl, rfl, rfl⟩⟩) ?_ fun h o hp => ?_
  · rintro o r a' evs ⟨fin, hE⟩
    simp only [DoworkE] at hE
    split at hE
    · obtain ⟨_, rfl, _⟩ := hE; simp
    · obtain ⟨o', rfl, _⟩ := hE; simp
  · unfold Xio.xio_dowork
    rw [if_neg hp]
    stepd (loadPtr_spec (q := 7) ?_)
    step deref7
    stepd (loadPtr_spec (q := h) ?_)
    simp only [sockCode, sockIface, if_true]
    step (socketio_dowork_spec H n m h (some o) tr) into v
    intro a' evs hE
    exact Triple.pure (entails_ex_r a' (entails_ex_r evs (entails_pand_r (by sep_cancel) ⟨v, hE⟩)))

/-- no option is taken: the call fails and changes nothing -/
theorem sock_setoption {cfg : Option Config} {b : CharPtr} {n m : Nat} (name value : Nat) (p : Ptr) (a : Option Sock.Obj) :
    Triple rel (ORep (XSR Fd) p a) (Xio.xio_setoption sockRo (sockCode os cfg b n m) p name value) (fun r => (r ≠ 0) ⋏ ORep (XSR Fd) p a) := by
  unfold Xio.xio_setoption
  refine Triple.ite (fun h => Triple.pure (entails_pand_r (entails_refl _) (by decide))) fun h => ?_
  cases a with
  | none => rw [ORep_none]; hoist; intro h0; exact absurd (Or.inl h0) h
  | some o =>
    rw [ORep_some]; unfold XSR; hoist; intro c
    stepd (loadPtr_spec (q := 7) ?_)
    step deref7
    stepd (loadPtr_spec (q := c) ?_)
    simp only [sockCode, sockIface, if_true]
    refine Triple.pure (entails_pand_r (entails_ex_r c (by sep_cancel)) ?_)
    unfold socketio_setoption
    decide

theorem sock_destroy (H : Sock.Honours rel os Net Fd Ai) {cfg : Option Config} {s : CharPtr} {n m : Nat} (p : Ptr) (a : Option Sock.Obj) (tr : List Sock.Ev) :
    Triple rel (ORep (XSR Fd) p a ∗ Net tr) (Xio.xio_destroy sockRo (sockCode os cfg s n m) p)
      (fun _ => ∃∃ evs, (DestroyE a evs) ⋏ Net (tr ++ evs)) := by
  unfold Xio.xio_destroy
  cases a with
  | none =>
    rw [ORep_none]; hoist; rintro rfl
    rw [if_pos rfl]
    exact Triple.pure (entails_ex_r [] (entails_pand_r (by rw [List.append_nil]; exact entails_refl _) rfl))
  | some o =>
    rw [ORep_some]; unfold XSR; hoist; intro h
    refine Triple.know (know_pts (p := p) (φ := p ≠ 0) (by pick) fun h1 _ => h1) fun hp => ?_
    rw [if_neg hp]
    stepd (loadPtr_spec (q := 7) ?_)
    step deref7
    stepd (loadPtr_spec (q := h) ?_)
    simp only [sockCode, sockIface, if_true]
    have hd := socketio_destroy_spec H h (some o) tr
    rw [ORep_some] at hd
    step hd into z
    intro evs hE
    refine ((free_spec (p := p) (b := [Val.ptr 7, Val.ptr h])).frame (Net (tr ++ evs))).conseq (by sep_cancel) fun _ => ?_
    exact entails_ex_r evs (entails_pand_r (by sep_cancel) hE)

theorem sock_create {cfg : Option Config} {s : CharPtr} {n m : Nat} (c : Option Target) (prm lg : Nat) :
    Triple rel (CfgArg cfg c ∗ FdIn Fd c) (Xio.xio_create sockRo (sockCode os cfg s n m) 7 prm lg)
      (fun r => ∃∃ a', (CreateE (¬ rel) c lg (decide (r ≠ 0)) a') ⋏ ORep (XSR Fd) r a' ∗ CfgArg cfg c ∗ (if r = 0 then FdIn Fd c else emp)) := by
  unfold Xio.xio_create
  rw [if_neg (by decide)]
  step deref7
  rw [if_neg (by decide)]
  refine Triple.mallocS (by decide) (fun hr => ?_) fun p hp => ?_
  · rw [if_pos rfl]
    refine Triple.pure (entails_ex_r none (entails_pand_r ?_ ?_))
    · rw [ORep_null, if_pos rfl, emp_sep]; exact entails_refl _
    · cases c with
      | none => exact ⟨by simp, rfl⟩
      | some c => exact Or.inl ⟨by simp, rfl, Or.inl hr⟩
  rw [if_neg hp]
  hoist
  stepd (store_spec ?_)
  stepd (loadPtr_spec (q := 7) ?_)
  step deref7
  simp only [sockCode, sockIface, if_true]
  step (socketio_create_spec (rel := rel) (Fd := Fd) cfg c lg) into h
  intro a' hE
  stepd (store_spec ?_)
  stepd (loadPtr_spec (q := h) ?_)
  refine Triple.ite (fun h2 => ?_) fun h2 => ?_
  · subst h2
    have : a' = none := by
      cases c with
      | none => exact hE.2
      | some c => rcases hE with h | h
                  · exact h.2.1
                  · simp at h
    subst this
    rw [ORep_null, emp_sep]
    hoist
    step (free_spec)
    refine Triple.pure (entails_ex_r none (entails_pand_r ?_ (by simpa using hE)))
    rw [ORep_null, emp_sep]
    sep_cancel
  · obtain ⟨o, rfl⟩ : ∃ o, a' = some o := by
      cases c with
      | none => exact absurd hE.1 (by simp [h2])
      | some c => rcases hE with h | h
                  · exact absurd h.1 (by simp [h2])
                  · exact ⟨_, h.2.2⟩
    refine Triple.pure (entails_ex_r (some o) (entails_pand_r ?_ (by simpa [h2, hp] using hE)))
    rw [if_neg h2, if_neg hp, ORep_some, ORep_some]
    unfold XSR
    simp only [hex_sep]
    refine entails_ex_r h ?_
    simp only [sep_assoc]
    sep_cancel

/-! ## Histories through xio -/

/-- a client that gets a socket (as from `accept`) and wraps it in a socket IO, through xio -/
def acceptOne (os : Os) (port : Int) (logger : Nat) : M Ptr := do
  let fd ← os.socket
  let h ← Xio.xio_create sockRo (sockCode os (some ⟨.null, port, some fd⟩) .null 0 0) 7 1 logger
  if h = 0 ∧ ¬ fd < 0 then do
    let _ ← os.close fd
    pure h
  else pure h

/-- the client of `Sock.exec`, with every call made through xio (addresses of parameters and buffers are 1: see `sockCode`) -/
def exec (os : Os) (op : Sock.Op) (env : List Nat) : M (Option Int × List Nat) :=
  match op with
  | .create host port logger => do
    let h ← Xio.xio_create sockRo (sockCode os (some ⟨.str host, port, none⟩) .null 0 0) 7 1 logger
    pure (some (if h = 0 then 0 else 1), env ++ [h])
  | .createNull logger => do
    let h ← Xio.xio_create sockRo (sockCode os none .null 0 0) 7 0 logger
    pure (some (if h = 0 then 0 else 1), env ++ [h])
  | .accept port logger => do let h ← acceptOne os port logger; pure (some (if h = 0 then 0 else 1), env ++ [h])
  | .destroy i => on1 env i fun h => do Xio.xio_destroy sockRo (sockCode os none .null 0 0) h; pure (some 0, env.set i 0)
  | .opn i f1 c1 f2 c2 f3 c3 => on1 env i fun h => do
    let r ← Xio.xio_open sockRo (sockCode os none .null 0 0) h f1 c1 f2 c2 f3 c3; pure (some r, env)
  | .close i f c => on1 env i fun h => do
    let r ← Xio.xio_close sockRo (sockCode os none .null 0 0) h f c; pure (some r, env)
  | .send i none cb ctx => on1 env i fun h => do
    let r ← Xio.xio_send sockRo (sockCode os none .null 0 0) h 0 1 cb ctx; pure (some r, env)
  | .send i (some bs) cb ctx => on1 env i fun h => do
    let r ← Xio.xio_send sockRo (sockCode os none (.lit bs) 0 0) h 1 bs.length cb ctx; pure (some r, env)
  | .dowork i n m => on1 env i fun h => do
    Xio.xio_dowork sockRo (sockCode os none .null n m) h; pure (some 0, env)

/-- what a call through xio returns, of what the same call on the socket IO itself returns: whether `socketio_dowork` has
ended is not seen -/
def seen (op : Sock.Op) (o : Option Int) : Option Int :=
  match op with
  | .dowork _ _ _ => o.map fun _ => 0
  | _ => o

/-- a call through xio does what the call on the socket IO itself does -/
def stepX (oom : Prop) (x : Sock.World) (op : Sock.Op) (o : Option Int) (x' : Sock.World) : Prop :=
  ∃ o1, Sock.step oom x op o1 x' ∧ o = seen op o1

theorem acceptOne_spec (H : Sock.Honours rel os Net Fd Ai) (port : Int) (hport : i32 port) (logger : Nat) (tr : List Sock.Ev) :
    Triple rel (Net tr) (acceptOne os port logger)
      (fun r => ∃∃ a' fd, (-1 ≤ fd ∧ fd < 2 ^ 31 ∧ CreateE (¬ rel) (some ⟨none, port, fd⟩) logger (decide (r ≠ 0)) a') ⋏ ORep (XSR Fd) r a' ∗
        Net (tr ++ (.socket fd :: (if decide (r ≠ 0) = true ∨ fd < 0 then [] else [.close fd])))) := by
  unfold acceptOne
  step (H.socket tr) into fd
  intro h1 h2
  have hfd : i32 fd := ⟨by omega, h2⟩
  have hin : (if fd < 0 then emp else Fd fd) = FdIn Fd (some ⟨none, port, fd⟩) := by
    simp only [FdIn, FdR, if_true]
    by_cases h : fd < 0
    · rw [if_pos h, if_pos (by omega)]
    · rw [if_neg h, if_neg (by omega)]
  rw [hin]
  have hc := sock_create (rel := rel) (Fd := Fd) (os := os) (cfg := some ⟨.null, port, some fd⟩) (s := .null) (n := 0) (m := 0) (some ⟨none, port, fd⟩) 1 logger
  have hcfg : CfgArg (some ⟨.null, port, some fd⟩) (some ⟨none, port, fd⟩) = emp := by
    have : ((port = port ∧ i32 port ∧ ((none : Option (List UInt8)) = none → some fd = some fd ∧ i32 fd)) ⋏ ((CharPtr.null = .null) ⋏ emp)) = emp := by
      simp [hport, hfd, true_pand]
    simpa [CfgArg, HostArg] using this
  rw [hcfg, emp_sep] at hc
  simp only [emp_sep] at hc
  step hc into r
  intro a' hE
  refine Triple.ite (fun h => ?_) (fun h => ?_)
  · rw [if_pos h.1, ← hin, if_neg h.2]
    step (H.close fd _) into z
    refine Triple.pure (entails_ex_r a' (entails_ex_r fd (entails_pand_r ?_ ⟨h1, h2, hE⟩)))
    rw [if_neg (by simp [h.1]; omega), List.append_assoc]
    sep_cancel
  · refine Triple.pure (entails_ex_r a' (entails_ex_r fd (entails_pand_r ?_ ⟨h1, h2, hE⟩)))
    have : decide (r ≠ 0) = true ∨ fd < 0 := by
      by_cases hr : r = 0
      · by_cases hf : fd < 0
        · exact Or.inr hf
        · exact absurd ⟨hr, hf⟩ h
      · exact Or.inl (by simpa using hr)
    rw [if_pos this]
    have e : (if r = 0 then FdIn Fd (some ⟨none, port, fd⟩) else emp) = emp := by
      by_cases hr : r = 0
      · rw [if_pos hr, ← hin, if_pos (this.resolve_left (by simp [hr]))]
      · rw [if_neg hr]
    rw [e]
    sep_cancel

theorem exec_spec (H : Sock.Honours rel os Net Fd Ai) (op : Sock.Op) (hop : Sock.good op) (env : List Nat) (x : Sock.World) :
    Triple rel (OwnW (ORep (XSR Fd)) (NetL Net) env x) (exec os op env)
      (fun r => ∃∃ x', (stepX (¬ rel) x op r.1 x') ⋏ OwnW (ORep (XSR Fd)) (NetL Net) r.2 x') := by
  have hdec : ∀ r : Nat, (if decide (r ≠ 0) = true then (1 : Int) else 0) = if r = 0 then 0 else 1 := by
    intro r; by_cases h : r = 0 <;> simp [h]
  have nothing : ∀ log op r, Net (trace log) ⊢ₕ NetL Net (log ++ [⟨x.1.length, op, r, []⟩]) := by
    intro log op r; unfold NetL; rw [trace_snoc, List.append_nil]; exact entails_refl _
  -- all calls but dowork: what is seen is the result
  have plain : ∀ {r : Option Int × List Nat}, (∀ o, seen op o = o) →
      ((∃∃ x', (Sock.step (¬ rel) x op r.1 x') ⋏ OwnW (ORep (XSR Fd)) (NetL Net) r.2 x') ⊢ₕ
       ∃∃ x', (stepX (¬ rel) x op r.1 x') ⋏ OwnW (ORep (XSR Fd)) (NetL Net) r.2 x') := by
    intro r h
    exact entails_ex_l fun x' => entails_pand_l fun hE => entails_ex_r x' (entails_pand_r (entails_refl _) ⟨_, hE, (h _).symm⟩)
  cases op with
  | create host port logger =>
    refine Triple.conseq ?_ (entails_refl _) fun r => plain fun o => rfl
    unfold exec Sock.step
    dsimp only
    refine liftW_new (f := fun h => if h = 0 then 0 else 1) fun log => ?_
    have hc := sock_create (rel := rel) (Fd := Fd) (os := os) (cfg := some ⟨.str host, port, none⟩) (s := .null) (n := 0) (m := 0) (some ⟨some host, port, 0⟩) 1 logger
    have hcfg : CfgArg (some ⟨.str host, port, none⟩) (some ⟨some host, port, 0⟩) = emp := by
      have h1 : HostArg (.str host) (some host) = emp := by
        simp only [HostArg]
        funext z
        exact propext ⟨fun h => h.2, fun hh => CStr_str hop.1 hop.2.1 z hh⟩
      simp only [CfgArg, h1]
      simp [hop.2.2, true_pand]
    have hin : FdIn Fd (some ⟨some host, port, 0⟩) = emp := by simp [FdIn]
    rw [hcfg, hin, emp_sep] at hc
    simp only [ite_self, sep_emp] at hc
    refine Triple.conseq (hc.frame (Net (trace log))) (by unfold NetL; rw [emp_sep]; exact entails_refl _) fun r => ?_
    simp only [hex_sep, pand_sep]
    refine entails_ex_l fun a' => entails_pand_l fun hE => entails_ex_r a' (entails_ex_r _ (entails_pand_r ?_ ⟨_, hE, (hdec r).symm, rfl⟩))
    exact sep_mono (entails_refl _) (nothing _ _ _)
  | createNull logger =>
    refine Triple.conseq ?_ (entails_refl _) fun r => plain fun o => rfl
    unfold exec Sock.step
    dsimp only
    refine liftW_new (f := fun h => if h = 0 then 0 else 1) fun log => ?_
    have hc := sock_create (rel := rel) (Fd := Fd) (os := os) (cfg := none) (s := .null) (n := 0) (m := 0) none 0 logger
    simp only [CfgArg, FdIn, ite_self, sep_emp] at hc
    refine Triple.conseq (hc.frame (Net (trace log))) (by unfold NetL; rw [emp_sep]; exact entails_refl _) fun r => ?_
    simp only [hex_sep, pand_sep]
    refine entails_ex_l fun a' => entails_pand_l fun hE => entails_ex_r a' (entails_ex_r _ (entails_pand_r ?_ ⟨_, hE, (hdec r).symm, rfl⟩))
    exact sep_mono (entails_refl _) (nothing _ _ _)
  | accept port logger =>
    refine Triple.conseq ?_ (entails_refl _) fun r => plain fun o => rfl
    unfold exec Sock.step
    dsimp only
    refine liftW_new (f := fun h => if h = 0 then 0 else 1) fun log => ?_
    refine Triple.conseq (acceptOne_spec H port hop logger (trace log)) (entails_refl _) fun r => ?_
    refine entails_ex_l fun a' => entails_ex_l fun fd => entails_pand_l fun hE => entails_ex_r a' (entails_ex_r _ (entails_pand_r ?_ ⟨_, fd, hE.1, hE.2.1, hE.2.2, (hdec r).symm, rfl⟩))
    unfold NetL; rw [trace_snoc]; exact entails_refl _
  | destroy i =>
    refine Triple.conseq ?_ (entails_refl _) fun r => plain fun o => rfl
    unfold exec Sock.step
    dsimp only
    refine liftW_del (o := (0 : Int)) (W := Log) (E := fun a log (r : Int) a' log' => r = 0 ∧ a' = none ∧ ∃ evs, DestroyE a evs ∧ log' = log ++ [(⟨i, .destroy i, r, evs⟩ : Entry)]) fun h a log => ?_
    refine Triple.conseq (sock_destroy H h a (trace log)) (entails_refl _) fun _ => ?_
    refine entails_ex_l fun evs => entails_pand_l fun hE => entails_ex_r _ (entails_pand_r ?_ ⟨rfl, rfl, evs, hE, rfl⟩)
    unfold NetL; rw [trace_snoc]; exact entails_refl _
  | opn i f1 c1 f2 c2 f3 c3 =>
    refine Triple.conseq ?_ (entails_refl _) fun r => plain fun o => rfl
    unfold exec Sock.step
    dsimp only
    refine liftW_op1 (f := id) fun h a log => ?_
    refine Triple.conseq (sock_open H f1 c1 f2 c2 f3 c3 h a (trace log)) (entails_refl _) fun r => ?_
    refine entails_ex_l fun a' => entails_ex_l fun evs => entails_pand_l fun hE => entails_ex_r a' (entails_ex_r _ (entails_pand_r ?_ ⟨evs, hE, rfl⟩))
    unfold NetL; rw [trace_snoc]; exact entails_refl _
  | close i f c =>
    refine Triple.conseq ?_ (entails_refl _) fun r => plain fun o => rfl
    unfold exec Sock.step
    dsimp only
    refine liftW_op1 (f := id) fun h a log => ?_
    refine Triple.conseq (sock_close H f c h a (trace log)) (entails_refl _) fun r => ?_
    refine entails_ex_l fun a' => entails_ex_l fun evs => entails_pand_l fun hE => entails_ex_r a' (entails_ex_r _ (entails_pand_r ?_ ⟨evs, hE, rfl⟩))
    unfold NetL; rw [trace_snoc]; exact entails_refl _
  | send i bs cb ctx =>
    refine Triple.conseq ?_ (entails_refl _) fun r => plain fun o => rfl
    cases bs with
    | none =>
      unfold exec Sock.step
      dsimp only
      refine liftW_op1 (f := id) fun h a log => ?_
      have hs := sock_send H (cfg := none) (n := 0) (m := 0) (s := .null) 0 1 none (by simp [BytesArg, true_pand]) cb ctx h a (trace log)
      refine Triple.conseq hs (entails_refl _) fun r => ?_
      refine entails_ex_l fun a' => entails_ex_l fun evs => entails_pand_l fun hE => entails_ex_r a' (entails_ex_r _ (entails_pand_r ?_ ⟨evs, hE, rfl⟩))
      unfold NetL; rw [trace_snoc]; exact entails_refl _
    | some bs =>
      unfold exec Sock.step
      dsimp only
      refine liftW_op1 (f := id) fun h a log => ?_
      have e : BytesArg (.lit bs) bs.length (some bs) = emp := by
        simp only [BytesArg, Data_lit (List.prefix_refl bs) hop]
        simp [true_pand]
      have hs := sock_send H (cfg := none) (n := 0) (m := 0) (s := .lit bs) 1 bs.length (some bs) e cb ctx h a (trace log)
      refine Triple.conseq hs (entails_refl _) fun r => ?_
      refine entails_ex_l fun a' => entails_ex_l fun evs => entails_pand_l fun hE => entails_ex_r a' (entails_ex_r _ (entails_pand_r ?_ ⟨evs, hE, rfl⟩))
      unfold NetL; rw [trace_snoc]; exact entails_refl _
  | dowork i n m =>
    have : ∀ o x', On1W x i (fun a log r a' log' => ∃ fin evs, DoworkE n m a fin a' evs ∧ r = 0 ∧ log' = log ++ [⟨i, .dowork i n m, (if fin then 1 else 0), evs⟩]) o x' →
        stepX (¬ rel) x (.dowork i n m) o x' := by
      intro o x' h
      rcases h with ⟨hg, rfl, rfl⟩ | ⟨a, r, a', w', hg, rfl, ⟨fin, evs, hE, rfl, rfl⟩, rfl⟩
      · exact ⟨none, Or.inl ⟨hg, rfl, rfl⟩, rfl⟩
      · exact ⟨some (if fin then 1 else 0), Or.inr ⟨a, _, a', _, hg, rfl, ⟨fin, evs, hE, rfl, rfl⟩, rfl⟩, rfl⟩
    have key : Triple rel (OwnW (ORep (XSR Fd)) (NetL Net) env x) (exec os (.dowork i n m) env) (fun r => ∃∃ x', (On1W x i (fun a log r a' log' =>
        ∃ fin evs, DoworkE n m a fin a' evs ∧ r = 0 ∧ log' = log ++ [⟨i, .dowork i n m, (if fin then 1 else 0), evs⟩]) r.1 x') ⋏ OwnW (ORep (XSR Fd)) (NetL Net) r.2 x') := by
      unfold exec
      dsimp only
      refine liftW_op1 (f := fun _ : Unit => 0) fun h a log => ?_
      refine Triple.conseq (sock_dowork H h a (trace log)) (entails_refl _) fun r => ?_
      refine entails_ex_l fun a' => entails_ex_l fun evs => entails_pand_l fun ⟨fin, hE⟩ => entails_ex_r a' (entails_ex_r _ (entails_pand_r ?_ ⟨fin, evs, hE, rfl, rfl⟩))
      unfold NetL; rw [trace_snoc]; exact entails_refl _
    exact key.conseq (entails_refl _) fun r => entails_ex_l fun x' => entails_pand_l fun hE => entails_ex_r x' (entails_pand_r (entails_refl _) (this _ _ hE))

theorem histories (H : Sock.Honours rel os Net Fd Ai) (ops : List Sock.Op) (hops : ∀ op ∈ ops, Sock.good op) (env : List Nat) (x : Sock.World) :
    Triple rel (OwnW (ORep (XSR Fd)) (NetL Net) env x) (runOps (exec os) ops env)
      (fun r => ∃∃ x', (Runs (stepX (¬ rel)) x ops r.1 x') ⋏ OwnW (ORep (XSR Fd)) (NetL Net) r.2 x') :=
  runOps_spec (fun op hop env x => exec_spec H op hop env x) ops hops env x

/-- C120: a history through xio is a history on the socket IO itself: the same calls reach the system and the callbacks,
in the same order, and the results are the same, up to what is not seen of `dowork`. -/
theorem as_itself {oom : Prop} {x x' : Sock.World} {ops : List Sock.Op} {outs : List (Option Int)} (h : Runs (stepX oom) x ops outs x') :
    ∃ outs1, Runs (Sock.step oom) x ops outs1 x' ∧ outs = List.zipWith seen ops outs1 := by
  induction h with
  | nil x => exact ⟨[], .nil x, rfl⟩
  | cons h _ ih =>
    obtain ⟨o1, h1, rfl⟩ := h
    obtain ⟨outs1, h2, rfl⟩ := ih
    exact ⟨o1 :: outs1, .cons h1 h2, rfl⟩

/-- C120, of the code: from a state in which only the system owns memory every list of calls through xio runs without undefined
behaviour, as the same calls on socket IO handles themselves. -/
theorem through (H : Sock.Honours rel os Net Fd Ai) (ops : List Sock.Op) (hops : ∀ op ∈ ops, Sock.good op) (s : St)
    (hf : s.heap.fin) (hr : rel → Reliable s.alloc) (h0 : Net [] s.heap) :
    ∃ outs env as log s' outs1, runOps (exec os) ops [] s = some (.ok ((outs, env), s')) ∧
      Runs (Sock.step (¬ rel)) ([], []) ops outs1 (as, log) ∧ outs = List.zipWith seen ops outs1 ∧
      (Own (ORep (XSR Fd)) env as ∗ Net (trace log)) s'.heap := by
  have t := histories H ops hops [] ([], [])
  have t : Triple rel (Net []) _ _ := t.pre (entails_of_eq (by rw [OwnW, Own_nil, emp_sep]; rfl))
  obtain ⟨r, s', h1, ⟨x', hx, hh⟩⟩ := t.run s hf hr h0
  obtain ⟨outs1, h2, h3⟩ := as_itself hx
  exact ⟨r.1, r.2, x'.1, x'.2, s', outs1, h1, h2, h3, hh⟩

theorem Own_dead {env : List Nat} {as : List (Option Sock.Obj)} (h : ∀ a ∈ as, a = none) : Own (ORep (XSR Fd)) env as ⊢ₕ emp := by
  unfold Own
  refine entails_pand_l fun hl => ?_
  induction env generalizing as with
  | nil => cases as with
    | nil => exact entails_refl _
    | cons a as => simp at hl
  | cons p env ih => cases as with
    | nil => simp at hl
    | cons a as =>
      have := h a (by simp)
      subst this
      have ih := ih (as := as) (fun a ha => h a (by simp [ha])) (by simpa using hl)
      simp only [List.zip_cons_cons, Pool]
      rw [ORep_none]
      refine entails_trans (sep_mono (entails_pand_l fun _ => entails_refl _) ih) ?_
      rw [emp_sep]; exact entails_refl _

/-- C120: when all handles are destroyed nothing is left but the system's own memory, and every descriptor has been closed as
often as it was obtained. -/
theorem through_end (H : Sock.Honours rel os Net Fd Ai) (ops : List Sock.Op) (hops : ∀ op ∈ ops, Sock.good op) (s : St)
    (hf : s.heap.fin) (hr : rel → Reliable s.alloc) (h0 : Net [] s.heap) :
    ∃ (outs : List (Option Int)) (env : List Nat) (as : List (Option Sock.Obj)) (log : Log) (s' : St) (outs1 : List (Option Int)), runOps (exec os) ops [] s = some (.ok ((outs, env), s')) ∧
      Runs (Sock.step (¬ rel)) ([], []) ops outs1 (as, log) ∧ outs = List.zipWith seen ops outs1 ∧
      ((∀ a ∈ as, a = none) → Net (trace log) s'.heap ∧ ∀ fd, 0 ≤ fd → gotFd fd (trace log) = closedFd fd (trace log)) ∧
      ∀ i, ∃ S, List.Sublist S (accepted i log) ∧ completions i log = (S.filter fun x => x.2.1 ≠ 0).map fun x => (x.2.1, x.2.2, true) := by
  obtain ⟨outs, env, as, log, s', outs1, h1, h2, h3, h4⟩ := through H ops hops s hf hr h0
  refine ⟨outs, env, as, log, s', outs1, h1, h2, h3, fun hn => ⟨?_, fun fd hfd => all_closed h2 hn fd hfd⟩, fun i => completes_once h2 i⟩
  have : Own (ORep (XSR Fd)) env as ∗ Net (trace log) ⊢ₕ Net (trace log) := by
    refine entails_trans (sep_mono (Own_dead hn) (entails_refl _)) ?_
    rw [emp_sep]; exact entails_refl _
  exact this _ h4

/-! ## A run -/

def report (plan : Nat → Int) (ops : List Sock.Op) : Option (List (Option Int) × Nat × Option Block) :=
  match runOps (exec (demoOs plan)) ops [] (demoSt fun _ => false) with
  | some (.ok ((outs, env), s')) => some (outs, env.length, s'.heap 1000)
  | _ => none

def demoOps : List Sock.Op := opening ++ [.send 0 (some [1, 2, 3]) 9 5, .dowork 0 3 1, .close 0 4 0, .destroy 0]

/-- a socket IO is opened through xio, three bytes are sent, `dowork` is called, it is closed and destroyed -/
theorem demo_report : report (thenR [3]) demoOps = some ([some 1, some 0, some 0, some 0, some 0, some 0], 1, some [.int 13, .int (code [1, 2, 3])]) := by
  unfold report exec Xio.xio_destroy sockCode socketio_destroy list_destroy
  rw [clear_eq, destroy_eq]
  decide +kernel

theorem demo_good : ∀ op ∈ demoOps, Sock.good op := good_opening (by simp [Sock.good, maxObj])

theorem demo_through : ∃ outs env as log s' outs1, runOps (exec (demoOs (thenR [3]))) demoOps [] (demoSt fun _ => false) = some (.ok ((outs, env), s')) ∧
      Runs (Sock.step (¬ False)) ([], []) demoOps outs1 (as, log) ∧ outs = List.zipWith seen demoOps outs1 ∧
      (Own (ORep (XSR fun _ => emp)) env as ∗ demoNet (trace log)) s'.heap :=
  through (demo_honours _) demoOps demo_good _ demoSt_fin (fun h => h.elim) demoSt_net

end Verif.XS
