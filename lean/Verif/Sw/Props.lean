import Verif.Sw.Spec
import Verif.Sock.Props
/-! # C96-C98: the calls of the socket IO of Windows meet their descriptions -/
namespace Verif.Sw
open Verif.List Verif.Headers
open Verif.Sock (IO_STATE intV loadI INVALID_SOCKET fSocket fOnBytes fOnErr fOnBytesCtx fOnErrCtx fHost fPort fState fList gBytes gSize gOnSend gCtx stateV Config
  add_pending_io hostArg clearLoop Obj Pend HostArg Target CreateE opened i32 HostR PendR FdR blk Queue SockR SockR_eq Queue_eq SockR_intro loadI_spec Src Src_block Src_data
  add_pending_io_spec remove_head clearLoop_spec state_code bytesV_length BytesArg addPtr_zero)
variable {rel : Prop} {os : Os} {Net : List Ev → HProp} {Fd : Int → HProp} {Ai : Nat → HProp}

/-- `send` from a buffer -/
theorem sendTo_spec (H : Honours rel os Net Fd Ai) {fd : Int} {s : CharPtr} {bs : List UInt8} {D : HProp} (hD : Src rel s bs D) {tr : List Ev} :
    Triple rel (Net tr ∗ Fd fd ∗ D) (sendTo os fd s bs.length)
      (fun r => (-1 ≤ r ∧ r ≤ bs.length ∧ r < 2 ^ 31) ⋏ Net (tr ++ [.send fd bs r]) ∗ Fd fd ∗ D) := by
  unfold sendTo
  step hD.read
  last (H.send fd bs tr)
  rename_i r
  rw [pand_sep, sep_assoc]
  exact entails_pand_l fun h => entails_pand_r (by sep_cancel) h

/-- `indicate_error` on the instance block -/
theorem indicate_error_spec (H : Honours rel os Net Fd Ai) {p hp l : Nat} {o : Obj} {tr : List Ev} :
    Triple rel (Net tr ∗ p ↦ blk o hp l) (indicate_error os p) (fun _ => Net (tr ++ evError o) ∗ p ↦ blk o hp l) := by
  unfold indicate_error
  stepd (loadPtr_spec (p := p) (q := o.onErr) ?_)
  refine Triple.ite (fun h => ?_) (fun h => ?_)
  · stepd (loadPtr_spec (p := p) (q := o.onErrCtx) ?_)
    last (H.on_io_error o.onErr o.onErrCtx tr h)
    unfold evError; rw [if_neg h]; exact entails_refl _
  · refine Triple.pure ?_
    unfold evError; rw [if_pos (by omega), List.append_nil]; sep_cancel

/-- the first round of a send loop: what can happen, and the queue after it -/
inductive Round (o : Obj) (x : Pend) (xs : List Pend) : Obj → List Ev → Prop
  | whole : Round o x xs { o with pending := xs } (.send o.socket x.bytes x.bytes.length :: evCompleted x.cb x.ctx)
  | fail (n e : Int) : -1 ≤ n → n < x.bytes.length → e ≠ WSAEWOULDBLOCK → Round o x xs { o with pending := xs } [.send o.socket x.bytes n, .lastError e]
  | again (n : Int) : -1 ≤ n → n < x.bytes.length → Round o x xs { o with pending := x :: xs } [.send o.socket x.bytes n, .lastError WSAEWOULDBLOCK]

theorem Round.loop {o o1 o' : Obj} {x : Pend} {xs : List Pend} {e1 e2 : List Ev} {fin : Bool} {k : Nat} (hp : o.pending = x :: xs)
    (h : Round o x xs o1 e1) (h2 : SendLoop k o1 fin o' e2) : SendLoop (k + 1) o fin o' (e1 ++ e2) := by
  cases h with
  | whole => exact SendLoop.whole hp h2
  | fail n e h1 h3 h4 => exact SendLoop.fail n e hp h1 h3 h4 h2
  | again n h1 h3 =>
    have : ({ o with pending := x :: xs } : Obj) = o := by rw [← hp]
    rw [this] at h2
    exact SendLoop.again n hp h1 h3 h2

theorem Round.same {o o1 : Obj} {x : Pend} {xs : List Pend} {e1 : List Ev} (h : Round o x xs o1 e1) :
    o1.socket = o.socket ∧ o1.host = o.host ∧ o1.port = o.port ∧ o1.state = o.state := by
  cases h <;> simp

theorem SendLoop.same {k : Nat} {o o' : Obj} {fin : Bool} {evs : List Ev} (h : SendLoop k o fin o' evs) :
    o'.socket = o.socket ∧ o'.host = o.host ∧ o'.port = o.port ∧ o'.state = o.state := by
  induction h with
  | done => simp
  | cut => simp
  | whole _ _ ih => simpa using ih
  | fail _ _ _ _ _ _ _ ih => simpa using ih
  | again _ _ _ _ _ ih => simpa using ih

theorem finishPending_spec {p hp l q i : Nat} {o : Obj} {x : Pend} {ns : Items} :
    Triple rel (p ↦ blk o hp l ∗ ListR l ((i, q) :: ns) ∗ PendR l q x) (finishPending os p q i)
      (fun _ => p ↦ blk o hp l ∗ ListR l ns) := by
  unfold finishPending PendR
  hoist
  intro b h1 h2
  stepd (loadPtr_spec (p := q) (q := b) ?_)
  step (free_spec (p := b))
  step (free_spec (p := q))
  stepd (loadPtr_spec (p := p) (q := l) ?_)
  step (remove_head (rel := rel) (l := l) (i := i) (q := q) (ns := ns))
  rw [if_neg (by simp)]
  refine Triple.pure ?_
  sep_cancel

/-- one round of the sending loop -/
theorem sendRound_spec (H : Honours rel os Net Fd Ai) {p hp l q i : Nat} {o : Obj} {x : Pend} {xs : List Pend} {ns : Items} {tr : List Ev}
    (hs : i32 o.socket) :
    Triple rel (Net tr ∗ p ↦ blk o hp l ∗ ListR l ((i, q) :: ns) ∗ PendR l q x ∗ Own (PendR l) (ns.map Prod.snd) xs ∗ Fd o.socket)
      (sendRound os p q i)
      (fun _ => ∃∃ o' evs, (Round o x xs o' evs) ⋏ Net (tr ++ evs) ∗ p ↦ blk o' hp l ∗ Queue l o'.pending ∗ Fd o.socket) := by
  unfold sendRound
  stepd (loadI_spec (p := p) (z := o.socket) ?_ hs)
  unfold PendR
  hoist
  intro b hx1 hx2
  stepd (loadPtr_spec (p := q) (q := b) ?_)
  stepd (loadInt_spec (p := q) (n := x.bytes.length) ?_)
  step (sendTo_spec H (Src_block (b := b) (off := 0) (vs := bytesV x.bytes) (bs := x.bytes) (Nat.zero_le _) (by simp)) (tr := tr) (fd := o.socket)) into r
  intro h1 h2 h3
  stepd (loadInt_spec (p := q) (n := x.bytes.length) ?_)
  have hsz : maxObj < szMod - 1 := by decide
  have hlen : 0 < x.bytes.length := List.length_pos_iff.2 hx1
  refine Triple.ite (fun hne => ?_) (fun heq => ?_)
  · have hn : r < x.bytes.length := by
      rcases Int.lt_or_eq_of_le h2 with h | h
      · exact h
      · exfalso; apply hne
        rw [h, Int.emod_eq_of_lt (by omega) (by omega)]; simp
    step (H.lastError _) into e
    refine Triple.ite (fun h => ?_) (fun h => ?_)
    · stepd (loadPtr_spec (p := q) (q := b) ?_)
      step (free_spec (p := b))
      step (free_spec (p := q))
      stepd (loadPtr_spec (p := p) (q := l) ?_)
      step (remove_head (rel := rel) (l := l) (i := i) (q := q) (ns := ns)) into r'
      intro _
      refine Triple.pure (entails_ex_r _ (entails_ex_r _ (entails_pand_r ?_ (Round.fail r e h1 hn h))))
      unfold Queue
      rw [hex_sep, sep_hex, sep_hex]
      refine entails_ex_r ns ?_
      simp only [sep_assoc, List.append_assoc, List.cons_append, List.nil_append]
      sep_cancel
    · have h : e = WSAEWOULDBLOCK := Decidable.not_not.1 h
      subst h
      refine Triple.pure (entails_ex_r _ (entails_ex_r _ (entails_pand_r ?_ (Round.again r h1 hn))))
      unfold Queue
      rw [hex_sep, sep_hex, sep_hex]
      refine entails_ex_r ((i, q) :: ns) ?_
      simp only [List.map_cons, Map.Own_cons, PendR]
      rw [hex_sep, sep_hex, hex_sep, sep_hex, sep_hex]
      refine entails_ex_r b ?_
      simp only [pand_sep, sep_pand]
      refine entails_pand_r ?_ ⟨hx1, hx2⟩
      simp only [sep_assoc, List.append_assoc, List.cons_append, List.nil_append]
      sep_cancel
  · have hr : r = x.bytes.length := by
      by_cases h0 : r = -1
      · subst h0; exfalso; apply heq
        have : ((-1 : Int) % szMod).toNat = szMod - 1 := by decide
        omega
      · have : (r % szMod).toNat = r.toNat := by rw [Int.emod_eq_of_lt (a := r) (b := szMod) (by omega) (by omega)]
        omega
    subst hr
    stepd (loadPtr_spec (p := q) (q := x.cb) ?_)
    have fin : ∀ tr', tr' = tr ++ (.send o.socket x.bytes x.bytes.length :: evCompleted x.cb x.ctx) →
        Triple rel (Net tr' ∗ p ↦ blk o hp l ∗ ListR l ((i, q) :: ns) ∗ PendR l q x ∗ Own (PendR l) (ns.map Prod.snd) xs ∗ Fd o.socket)
        (finishPending os p q i)
        (fun _ => ∃∃ o' evs, (Round o x xs o' evs) ⋏ Net (tr ++ evs) ∗ p ↦ blk o' hp l ∗ Queue l o'.pending ∗ Fd o.socket) := by
      rintro _ rfl
      last (finishPending_spec (os := os) (p := p) (hp := hp) (l := l) (q := q) (i := i) (o := o) (x := x) (ns := ns))
      refine entails_ex_r _ (entails_ex_r _ (entails_pand_r ?_ Round.whole))
      unfold Queue
      rw [hex_sep, sep_hex, sep_hex]
      refine entails_ex_r ns ?_
      simp only [sep_assoc]
      sep_cancel
    have fold : q ↦ [.ptr b, .int x.bytes.length, .ptr x.cb, .ptr x.ctx, .ptr l] ∗ b ↦ bytesV x.bytes ⊢ₕ PendR l q x :=
      entails_ex_r b (entails_pand_r (entails_refl _) ⟨hx1, hx2⟩)
    refine Triple.ite (fun h => ?_) (fun h => ?_)
    · stepd (loadPtr_spec (p := q) (q := x.ctx) ?_)
      step (H.on_send_complete x.cb x.ctx true (tr ++ [.send o.socket x.bytes x.bytes.length]) h)
      refine (fin (tr ++ [.send o.socket x.bytes x.bytes.length] ++ [.completed x.cb x.ctx true]) (by simp [evCompleted, h])).pre ?_
      refine entails_trans ?_ (sep_mono (entails_refl _) (sep_mono (entails_refl _) (sep_mono (entails_refl _) (sep_mono fold (entails_refl _)))))
      simp only [sep_assoc]
      sep_cancel
    · refine (fin (tr ++ [.send o.socket x.bytes x.bytes.length]) (by simp [evCompleted]; omega)).pre ?_
      refine entails_trans ?_ (sep_mono (entails_refl _) (sep_mono (entails_refl _) (sep_mono (entails_refl _) (sep_mono fold (entails_refl _)))))
      simp only [sep_assoc]
      sep_cancel

/-- the sending loop -/
theorem sendLoop_spec (H : Honours rel os Net Fd Ai) {p hp l : Nat} (n : Nat) : ∀ (o : Obj) (ns : Items) (tr : List Ev), i32 o.socket →
    Triple rel (Net tr ∗ p ↦ blk o hp l ∗ ListR l ns ∗ Own (PendR l) (ns.map Prod.snd) o.pending ∗ Fd o.socket) (sendLoop os p n (first ns 0))
      (fun fin => ∃∃ o' evs, (SendLoop n o fin o' evs) ⋏ Net (tr ++ evs) ∗ p ↦ blk o' hp l ∗ Queue l o'.pending ∗ Fd o.socket) := by
  -- an empty queue
  have hnil : ∀ (n : Nat) (o : Obj) (ns : Items) (tr : List Ev) (c : Bool → M Bool), o.pending = [] → c = (fun b => pure b) →
      Triple rel (Net tr ∗ p ↦ blk o hp l ∗ ListR l ns ∗ Own (PendR l) (ns.map Prod.snd) o.pending ∗ Fd o.socket) (c true)
      (fun fin => ∃∃ o' evs, (SendLoop n o fin o' evs) ⋏ Net (tr ++ evs) ∗ p ↦ blk o' hp l ∗ Queue l o'.pending ∗ Fd o.socket) := by
    rintro n o ns tr _ h rfl
    refine Triple.pure (entails_ex_r o (entails_ex_r [] (entails_pand_r ?_ (SendLoop.done h))))
    rw [List.append_nil]
    unfold Queue
    rw [hex_sep, sep_hex, sep_hex]
    refine entails_ex_r ns ?_
    simp only [sep_assoc]
    sep_cancel
  induction n with
  | zero =>
    intro o ns tr hs
    refine Triple.know (φ := ns.length = o.pending.length) ?_ fun hl => ?_
    · rintro h ⟨_, _, _, _, _, ⟨_, _, _, _, _, ⟨_, _, _, _, _, ⟨_, _, _, _, hh, _⟩⟩⟩⟩
      have := hh.1; simpa using this
    refine Triple.know (know_ListR (h := l) (ns := ns) (by pick)) fun hk => ?_
    unfold sendLoop
    cases hp' : o.pending with
    | nil =>
      have : ns = [] := by rw [hp'] at hl; exact List.length_eq_zero_iff.1 (by simpa using hl)
      have h := hnil 0 o ns tr (fun b => pure b) hp' rfl
      rw [hp'] at h
      subst this
      simpa [first] using h
    | cons x xs =>
      cases ns with
      | nil => rw [hp'] at hl; simp at hl
      | cons a ns =>
        have ha : a.1 ≠ 0 := fun h0 => hk.2.2 (by simp [h0])
        rw [← hp']
        refine Triple.pure (entails_ex_r o (entails_ex_r [] (entails_pand_r ?_ ?_)))
        · rw [List.append_nil]
          unfold Queue
          rw [hex_sep, sep_hex, sep_hex]
          refine entails_ex_r (a :: ns) ?_
          simp only [sep_assoc]
          sep_cancel
        · have : decide (first (a :: ns) 0 = 0) = false := by simp [first, ha]
          rw [this]
          exact SendLoop.cut (by simp [hp'])
  | succ n ih =>
    intro o ns tr hs
    refine Triple.know (φ := ns.length = o.pending.length) ?_ fun hl => ?_
    · rintro h ⟨_, _, _, _, _, ⟨_, _, _, _, _, ⟨_, _, _, _, _, ⟨_, _, _, _, hh, _⟩⟩⟩⟩
      have := hh.1; simpa using this
    refine Triple.know (know_ListR (h := l) (ns := ns) (by pick)) fun hk => ?_
    unfold sendLoop
    cases hp' : o.pending with
    | nil =>
      have : ns = [] := by rw [hp'] at hl; exact List.length_eq_zero_iff.1 (by simpa using hl)
      have h := hnil (n + 1) o ns tr (fun b => pure b) hp' rfl
      rw [hp'] at h
      subst this
      rw [if_pos (by rfl)]
      exact h
    | cons x xs =>
      cases ns with
      | nil => rw [hp'] at hl; simp at hl
      | cons a ns =>
        obtain ⟨i, q⟩ := a
        have ha : i ≠ 0 := fun h0 => hk.2.2 (by simp [h0])
        rw [if_neg (by simpa [first] using ha)]
        step (list_item_get_value_spec (rel := rel) (h := l) (l1 := []) (l2 := ns) (n := (i, q)))
        simp only [List.nil_append, List.map_cons, Map.Own_cons, first, sep_assoc]
        refine Triple.know (φ := q ≠ 0) ?_ fun hq => ?_
        · unfold PendR
          intro h hh
          simp only [hex_sep, sep_hex, pand_sep, sep_pand, sep_assoc] at hh
          obtain ⟨b, hb, hh⟩ := hh
          exact know_pts (p := q) (φ := q ≠ 0) (by pick) (fun h1 _ => h1) h hh
        rw [if_neg hq]
        step (sendRound_spec H (p := p) (hp := hp) (l := l) (q := q) (i := i) (o := o) (x := x) (xs := xs) (ns := ns) (tr := tr) hs)
        intro o1 e1 hR
        have hsame := hR.same
        stepd (loadPtr_spec (p := p) (q := l) ?_)
        unfold Queue
        hoist
        intro ns1
        try simp only [sep_assoc]
        step (list_get_head_item_spec (rel := rel) (h := l) (a := some ns1))
        have := ih o1 ns1 (tr ++ e1) (by rw [hsame.1]; exact hs)
        simp only [OList, ORep_some, Option.getD_some]
        refine this.conseq ?_ fun fin => ?_
        · rw [hsame.1]; sep_cancel
        · refine entails_ex_l fun o2 => entails_ex_l fun e2 => entails_pand_l fun h2 => entails_ex_r o2 (entails_ex_r (e1 ++ e2) (entails_pand_r ?_ (hR.loop hp' h2)))
          rw [List.append_assoc, hsame.1]
          exact entails_refl _

/-- the receiving loop -/
theorem recvLoop_spec (H : Honours rel os Net Fd Ai) {p hp l : Nat} {o : Obj} (hs : i32 o.socket) (n : Nat) : ∀ tr : List Ev,
    Triple rel (Net tr ∗ p ↦ blk o hp l ∗ Fd o.socket) (recvLoop os p n)
      (fun fin => ∃∃ evs, (RecvLoop o n fin evs) ⋏ Net (tr ++ evs) ∗ p ↦ blk o hp l ∗ Fd o.socket) := by
  induction n with
  | zero =>
    intro tr
    refine Triple.pure (entails_ex_r [] (entails_pand_r ?_ RecvLoop.cut))
    rw [List.append_nil]; exact entails_refl _
  | succ n ih =>
    intro tr
    unfold recvLoop
    stepd (loadI_spec (p := p) (z := o.socket) ?_ hs)
    step (H.recv o.socket tr) into x
    intro h1 h2
    refine Triple.ite (fun h => ?_) (fun h => ?_)
    · have hx : x.1 = 1 := by omega
      rw [hx]
      have go : ∀ e, e = .recv o.socket 1 x.2 :: evReceived o.onBytes o.onBytesCtx [x.2] →
          Triple rel (Net (tr ++ e) ∗ p ↦ blk o hp l ∗ Fd o.socket) (recvLoop os p n)
          (fun fin => ∃∃ evs, (RecvLoop o (n + 1) fin evs) ⋏ Net (tr ++ evs) ∗ p ↦ blk o hp l ∗ Fd o.socket) := by
        rintro e rfl
        refine (ih _).conseq (entails_refl _) fun fin => entails_ex_l fun e2 => entails_pand_l fun h2 =>
          entails_ex_r _ (entails_pand_r ?_ (RecvLoop.more (b := x.2) h2))
        rw [List.append_assoc]; exact entails_refl _
      stepd (loadPtr_spec (p := p) (q := o.onBytes) ?_)
      refine Triple.ite (fun hf => ?_) (fun hf => ?_)
      · stepd (loadPtr_spec (p := p) (q := o.onBytesCtx) ?_)
        step (H.on_bytes_received o.onBytes o.onBytesCtx [x.2] (tr ++ [.recv o.socket 1 x.2]) hf)
        rw [List.append_assoc]
        refine (go [.recv o.socket 1 x.2, .received o.onBytes o.onBytesCtx [x.2]] (by simp [evReceived, hf])).pre ?_
        sep_cancel
      · refine (go [.recv o.socket 1 x.2] (by simp [evReceived]; omega)).pre ?_
        sep_cancel
    · step (H.lastError _) into e
      have hl := RecvLoop.last (o := o) (k := n) (r := x.1) (b := x.2) (e := e) (by omega)
      refine Triple.ite (fun h => ?_) (fun h => ?_)
      · rw [if_neg (by simp [h])] at hl
        step (indicate_error_spec H (p := p) (hp := hp) (l := l) (o := o))
        refine Triple.pure (entails_ex_r _ (entails_pand_r ?_ hl))
        simp only [List.append_assoc, List.cons_append, List.nil_append]
        sep_cancel
      · rw [if_pos (by by_cases h1 : e = WSAEWOULDBLOCK <;> by_cases h2 : e = 0 <;> simp_all)] at hl
        refine Triple.pure (entails_ex_r _ (entails_pand_r ?_ hl))
        simp only [List.append_assoc, List.cons_append, List.nil_append]
        sep_cancel

/-- `socketio_dowork` -/
theorem socketio_dowork_spec (H : Honours rel os Net Fd Ai) (n m : Nat) (p : Ptr) (a : Option Obj) (tr : List Ev) :
    Triple rel (ORep (SockR Fd) p a ∗ Net tr) (socketio_dowork os n m p)
      (fun fin => ∃∃ a' evs, (DoworkE n m a fin a' evs) ⋏ ORep (SockR Fd) p a' ∗ Net (tr ++ evs)) := by
  unfold socketio_dowork
  cases a with
  | none =>
    rw [ORep_none]
    hoist
    rintro rfl
    rw [if_pos rfl]
    refine Triple.pure (entails_ex_r none (entails_ex_r [] (entails_pand_r ?_ ⟨rfl, rfl, rfl⟩)))
    rw [ORep_null, emp_sep, List.append_nil]; exact entails_refl _
  | some o =>
    rw [ORep_some, SockR_eq]
    hoist
    intro hp l h1 h2 h3
    refine Triple.know (know_pts (p := p) (φ := p ≠ 0) (by pick) fun h1 _ => h1) fun hp0 => ?_
    rw [if_neg hp0]
    stepd (loadInt_spec (p := p) (n := o.state.code) ?_)
    refine Triple.ite (fun h => ?_) (fun h => ?_)
    · refine Triple.pure (entails_ex_r (some o) (entails_ex_r [] (entails_pand_r ?_ ?_)))
      · rw [ORep_some, List.append_nil]
        refine entails_trans ?_ (sep_mono (SockR_intro (hp := hp) (l := l) h1 h2 h3) (entails_refl _))
        simp only [sep_assoc]
        sep_cancel
      · simp only [DoworkE]
        rw [if_pos (fun h' => h (by rw [h']))]
        exact ⟨by trivial, by trivial, by trivial⟩
    · have hst : o.state = .opn := by
        apply state_code.1; exact Decidable.not_not.1 h
      have hso := h3 (by simp [hst])
      have hfd : FdR Fd o.socket = Fd o.socket := by unfold FdR; rw [if_neg hso]
      stepd (loadPtr_spec (p := p) (q := l) ?_)
      rw [Queue_eq]
      hoist
      intro ns
      try simp only [sep_assoc]
      step (list_get_head_item_spec (rel := rel) (h := l) (a := some ns))
      simp only [OList, ORep_some, Option.getD_some, hfd]
      step (sendLoop_spec H (p := p) (hp := hp) (l := l) n o ns tr h1) into fin
      intro o' e1 hL
      have hs := hL.same
      have back : ∀ tr', Net tr' ∗ p ↦ blk o' hp l ∗ Queue l o'.pending ∗ Fd o.socket ∗ HostR hp o.host ⊢ₕ ORep (SockR Fd) p (some o') ∗ Net tr' := by
        intro tr'
        rw [ORep_some]
        refine entails_trans ?_ (sep_mono (SockR_intro (o := o') (hp := hp) (l := l) (by rw [hs.1]; exact h1) (by rw [hs.2.2.1]; exact h2) (fun _ => by rw [hs.1]; exact hso)) (entails_refl _))
        rw [hs.1, hs.2.1, hfd]
        simp only [sep_assoc]
        sep_cancel
      cases fin with
      | false =>
        simp only [Bool.false_eq_true, if_false]
        refine Triple.pure (entails_ex_r (some o') (entails_ex_r e1 (entails_pand_r ?_ ?_)))
        · refine entails_trans ?_ (back _)
          sep_cancel
        · simp only [DoworkE]
          rw [if_neg (by simp [hst])]
          exact ⟨o', by trivial, Or.inl ⟨by trivial, hL⟩⟩
      | true =>
        simp only [if_true]
        have hr := recvLoop_spec H (p := p) (hp := hp) (l := l) (o := o') (by rw [hs.1]; exact h1) m (tr ++ e1)
        rw [hs.1] at hr
        last hr
        rename_i fin
        simp only [hex_sep, pand_sep]
        refine entails_ex_l fun e2 => entails_pand_l fun h2 => entails_ex_r (some o') (entails_ex_r (e1 ++ e2) (entails_pand_r ?_ ?_))
        · rw [List.append_assoc]
          refine entails_trans ?_ (back _)
          simp only [sep_assoc]
          sep_cancel
        · simp only [DoworkE]
          rw [if_neg (by simp [hst])]
          exact ⟨o', by trivial, Or.inr ⟨e1, e2, by trivial, hL, h2⟩⟩

/-- `socketio_destroy` -/
theorem socketio_destroy_spec (H : Honours rel os Net Fd Ai) (p : Ptr) (a : Option Obj) (tr : List Ev) :
    Triple rel (ORep (SockR Fd) p a ∗ Net tr) (socketio_destroy os p)
      (fun _ => ∃∃ evs, (DestroyE a evs) ⋏ Net (tr ++ evs)) := by
  unfold socketio_destroy
  cases a with
  | none =>
    rw [ORep_none]
    hoist
    rintro rfl
    rw [if_neg (by simp)]
    refine Triple.pure (entails_ex_r [] (entails_pand_r ?_ rfl))
    rw [List.append_nil]; exact entails_refl _
  | some o =>
    rw [ORep_some, SockR_eq]
    hoist
    intro hp l h1 h2 h3
    refine Triple.know (know_pts (p := p) (φ := p ≠ 0) (by pick) fun h1 _ => h1) fun hp0 => ?_
    rw [if_pos hp0]
    stepd (loadI_spec (p := p) (off := fSocket) (z := o.socket) ?_ h1)
    have tail : ∀ evs, DestroyE (some o) evs →
        Triple rel (p ↦ blk o hp l ∗ HostR hp o.host ∗ Queue l o.pending ∗ Net (tr ++ evs))
        (do
          let l ← loadPtr p fList
          let first ← list_get_head_item l
          clearLoop p first
          let l ← loadPtr p fList
          list_destroy l
          let h ← loadPtr p fHost
          if h ≠ 0 then do
            free h
            free p
          else
            free p)
        (fun _ => ∃∃ evs, (DestroyE (some o) evs) ⋏ Net (tr ++ evs)) := by
      intro evs hE
      stepd (loadPtr_spec (p := p) (q := l) ?_)
      rw [Queue_eq]
      hoist
      intro ns
      try simp only [sep_assoc]
      step (list_get_head_item_spec (rel := rel) (h := l) (a := some ns))
      simp only [OList, ORep_some, Option.getD_some]
      step (clearLoop_spec (rel := rel) (p := p) (hp := hp) (l := l) (o := o) ns o.pending)
      stepd (loadPtr_spec (p := p) (q := l) ?_)
      step (list_destroy_spec (rel := rel) (h := l) (a := some []))
      stepd (loadPtr_spec (p := p) (q := hp) ?_)
      unfold HostR hostArg
      refine Triple.ite (fun h0 => ?_) (fun h0 => ?_)
      · rw [if_neg h0]
        cases o.host with
        | none => simp only [HostArg]; hoist; intro h; exact absurd h (by simp)
        | some t =>
          simp only [HostArg, CStr]; hoist; intro vs _ _
          step (free_spec (p := hp))
          last (free_spec (p := p))
          refine entails_ex_r evs (entails_pand_r ?_ hE)
          sep_cancel
      · have h0 : hp = 0 := by omega
        rw [if_pos h0]
        cases o.host with
        | none =>
          simp only [HostArg]; hoist; intro _
          last (free_spec (p := p))
          refine entails_ex_r evs (entails_pand_r ?_ hE)
          sep_cancel
        | some t => simp only [HostArg, CStr]; hoist; exact fun h => h.elim
    by_cases h : o.socket = -1
    · have : FdR Fd o.socket = emp := by unfold FdR; rw [if_pos h]
      rw [this, h]
      step (H.closeInvalid tr) into r
      refine (tail [.close (-1)] ?_).pre ?_
      · simp only [DestroyE]; rw [h]
      · sep_cancel
    · have : FdR Fd o.socket = Fd o.socket := by unfold FdR; rw [if_neg h]
      rw [this]
      step (H.close o.socket tr h) into r
      refine (tail [.close o.socket] ?_).pre ?_
      · simp only [DestroyE]
      · sep_cancel

theorem becomeOpen_spec (H : Honours rel os Net Fd Ai) {p hp l : Nat} {o : Obj} {tr : List Ev} {f1 c1 f2 c2 f3 c3 : Nat} :
    Triple rel (Net tr ∗ p ↦ blk o hp l) (becomeOpen os p f1 c1 f2 c2 f3 c3)
      (fun _ => Net (tr ++ evOpened f1 c1 true) ∗ p ↦ blk (opened o o.socket f2 c2 f3 c3) hp l) := by
  unfold becomeOpen blk
  stepd (store_spec (p := p) ?_)
  stepd (store_spec (p := p) ?_)
  stepd (store_spec (p := p) ?_)
  stepd (store_spec (p := p) ?_)
  stepd (store_spec (p := p) ?_)
  refine Triple.ite (fun h => ?_) (fun h => ?_)
  · last (H.on_io_open_complete f1 c1 true tr h)
    simp only [evOpened, if_neg h]
    exact entails_refl _
  · refine Triple.pure ?_
    rw [evOpened, if_pos (by omega), List.append_nil]
    sep_cancel

theorem dropSocket_spec (H : Honours rel os Net Fd Ai) {p hp l : Nat} {o : Obj} {fd : Int} {tr : List Ev} (hfd : i32 fd) (hf0 : 0 ≤ fd) (ho : o.socket = -1) :
    Triple rel (Net tr ∗ p ↦ blk { o with socket := fd } hp l ∗ Fd fd) (dropSocket os p)
      (fun _ => Net (tr ++ [.close fd]) ∗ p ↦ blk o hp l) := by
  unfold dropSocket
  stepd (loadI_spec (p := p) (off := fSocket) (z := fd) ?_ hfd)
  step (H.close fd tr (by omega)) into r
  lastd (store_spec (p := p) (off := fSocket) (v := intV INVALID_SOCKET) ?_)
  have : List.set (blk { o with socket := fd } hp l) fSocket (intV INVALID_SOCKET) = blk o hp l := by
    simp [blk, ho, INVALID_SOCKET]
  rw [this]
  sep_cancel

/-- connecting, making the socket nonblocking, reporting -/
theorem connectPart_spec (H : Honours rel os Net Fd Ai) {p hp l : Nat} {o : Obj} {fd : Int} {ai : Nat} {tr : List Ev} {f1 c1 f2 c2 f3 c3 : Nat}
    (hfd : i32 fd) (hf0 : 0 ≤ fd) (ho : o.socket = -1) :
    Triple rel (Net tr ∗ p ↦ blk { o with socket := fd } hp l ∗ Fd fd ∗ Ai ai) (connectPart os p ai f1 c1 f2 c2 f3 c3)
      (fun r => ∃∃ o' evs, (
          (∃ err, err ≠ 0 ∧ r ≠ 0 ∧ o' = o ∧ evs = [.connect fd ai err, .close fd]) ∨
          (∃ err, err ≠ 0 ∧ r ≠ 0 ∧ o' = o ∧ evs = [.connect fd ai 0, .ioctl fd err, .close fd]) ∨
          (r = 0 ∧ o' = opened o fd f2 c2 f3 c3 ∧ evs = [.connect fd ai 0, .ioctl fd 0] ++ evOpened f1 c1 true)) ⋏
        Net (tr ++ evs) ∗ p ↦ blk o' hp l ∗ Ai ai ∗ (if r = 0 then Fd fd else emp)) := by
  unfold connectPart
  stepd (loadI_spec (p := p) (off := fSocket) (z := fd) ?_ hfd)
  step (H.connect fd ai tr) into err
  refine Triple.ite (fun h => ?_) (fun h => ?_)
  · step (dropSocket_spec H (p := p) (hp := hp) (l := l) (o := o) (fd := fd) (tr := tr ++ [.connect fd ai err]) hfd hf0 ho)
    refine Triple.pure (entails_ex_r o (entails_ex_r _ (entails_pand_r ?_ (Or.inl ⟨err, h, by decide, rfl, rfl⟩))))
    rw [if_neg (by decide), List.append_assoc, List.cons_append, List.nil_append]
    sep_cancel
  have h : err = 0 := Decidable.not_not.1 h
  subst h
  stepd (loadI_spec (p := p) (off := fSocket) (z := fd) ?_ hfd)
  step (H.ioctl fd _) into r2
  refine Triple.ite (fun h => ?_) (fun hr2 => ?_)
  · step (dropSocket_spec H (p := p) (hp := hp) (l := l) (o := o) (fd := fd) (tr := tr ++ [.connect fd ai 0] ++ [.ioctl fd r2]) hfd hf0 ho)
    refine Triple.pure (entails_ex_r o (entails_ex_r _ (entails_pand_r ?_ (Or.inr (Or.inl ⟨r2, h, by decide, rfl, rfl⟩)))))
    rw [if_neg (by decide)]
    simp only [List.append_assoc, List.cons_append, List.nil_append]
    sep_cancel
  · have hr2 : r2 = 0 := Decidable.not_not.1 hr2
    subst hr2
    step (becomeOpen_spec H (p := p) (hp := hp) (l := l) (o := { o with socket := fd }) (tr := tr ++ [.connect fd ai 0] ++ [.ioctl fd 0])
      (f1 := f1) (c1 := c1) (f2 := f2) (c2 := c2) (f3 := f3) (c3 := c3))
    refine Triple.pure (entails_ex_r (opened o fd f2 c2 f3 c3) (entails_ex_r _ (entails_pand_r ?_ (Or.inr (Or.inr ⟨rfl, rfl, rfl⟩)))))
    rw [if_pos rfl]
    simp only [List.append_assoc, List.cons_append, List.nil_append, opened]
    sep_cancel

/-- `socketio_open` -/
theorem socketio_open_spec (H : Honours rel os Net Fd Ai) (f1 c1 f2 c2 f3 c3 : Nat) (p : Ptr) (a : Option Obj) (tr : List Ev) :
    Triple rel (ORep (SockR Fd) p a ∗ Net tr) (socketio_open os p f1 c1 f2 c2 f3 c3)
      (fun r => ∃∃ a' evs, (OpenE f1 c1 f2 c2 f3 c3 a r a' evs) ⋏ ORep (SockR Fd) p a' ∗ Net (tr ++ evs)) := by
  unfold socketio_open
  cases a with
  | none =>
    rw [ORep_none]
    hoist
    rintro rfl
    rw [if_pos rfl]
    refine Triple.pure (entails_ex_r none (entails_ex_r [] (entails_pand_r ?_ ⟨by decide, rfl, rfl⟩)))
    rw [ORep_null, emp_sep, List.append_nil]; exact entails_refl _
  | some o =>
    rw [ORep_some, SockR_eq]
    hoist
    intro hp l h1 h2 h3
    refine Triple.know (know_pts (p := p) (φ := p ≠ 0) (by pick) fun h1 _ => h1) fun hp0 => ?_
    rw [if_neg hp0]
    stepd (loadInt_spec (p := p) (n := o.state.code) ?_)
    refine Triple.ite (fun h => ?_) (fun h => ?_)
    · refine Triple.pure (entails_ex_r (some o) (entails_ex_r [] (entails_pand_r ?_ ?_)))
      · rw [ORep_some, List.append_nil]
        refine entails_trans ?_ (sep_mono (SockR_intro (hp := hp) (l := l) h1 h2 h3) (entails_refl _))
        simp only [sep_assoc]
        sep_cancel
      · simp only [OpenE]
        rw [if_pos (fun h' => h (by rw [h']))]
        exact ⟨by decide, by trivial, by trivial⟩
    have hst : o.state = .closed := state_code.1 (Decidable.not_not.1 h)
    stepd (loadI_spec (p := p) (off := fSocket) (z := o.socket) ?_ h1)
    refine Triple.ite (fun h => ?_) (fun h => ?_)
    · have h : o.socket ≠ -1 := h
      step (becomeOpen_spec H (p := p) (hp := hp) (l := l) (o := o) (tr := tr) (f1 := f1) (c1 := c1) (f2 := f2) (c2 := c2) (f3 := f3) (c3 := c3))
      refine Triple.pure (entails_ex_r (some (opened o o.socket f2 c2 f3 c3)) (entails_ex_r (evOpened f1 c1 true) (entails_pand_r ?_ ?_)))
      · rw [ORep_some]
        refine entails_trans ?_ (sep_mono (SockR_intro (o := opened o o.socket f2 c2 f3 c3) (hp := hp) (l := l) h1 h2 (fun _ => h)) (entails_refl _))
        simp only [sep_assoc, opened]
        sep_cancel
      · simp only [OpenE]
        rw [if_neg (by simp [hst]), if_pos h]
        exact ⟨by trivial, by trivial, by trivial⟩
    have h : o.socket = -1 := Decidable.not_not.1 h
    have hemp : FdR Fd o.socket = emp := by unfold FdR; rw [if_pos h]
    rw [hemp, emp_sep]
    step (H.socket tr) into fd
    intro hf1 hf2
    have hfd : i32 fd := ⟨by omega, hf2⟩
    stepd (store_spec (p := p) ?_)
    stepd (loadI_spec (p := p) (off := fSocket) (z := fd) ?_ hfd)
    have finish : ∀ (r : Int) o' evs, (o' = o ∨ ∃ fd, 0 ≤ fd ∧ i32 fd ∧ o' = opened o fd f2 c2 f3 c3) → OpenE f1 c1 f2 c2 f3 c3 (some o) r (some o') evs →
        Net (tr ++ evs) ∗ p ↦ blk o' hp l ∗ HostR hp o.host ∗ Queue l o.pending ∗ FdR Fd o'.socket ⊢ₕ
        ∃∃ a' evs, (OpenE f1 c1 f2 c2 f3 c3 (some o) r a' evs) ⋏ ORep (SockR Fd) p a' ∗ Net (tr ++ evs) := by
      intro r o' evs ho hE
      refine entails_ex_r (some o') (entails_ex_r evs (entails_pand_r ?_ hE))
      rw [ORep_some]
      rcases ho with rfl | ⟨fd, hf0, hf, rfl⟩
      · refine entails_trans ?_ (sep_mono (SockR_intro (hp := hp) (l := l) h1 h2 h3) (entails_refl _))
        simp only [sep_assoc]
        sep_cancel
      · refine entails_trans ?_ (sep_mono (SockR_intro (o := opened o fd f2 c2 f3 c3) (hp := hp) (l := l) hf h2 (fun _ => by simp only [opened]; omega)) (entails_refl _))
        simp only [sep_assoc, opened]
        sep_cancel
    have hset : List.set (blk o hp l) fSocket (intV fd) = blk { o with socket := fd } hp l := by simp [blk]
    rw [hset]
    refine Triple.ite (fun hneg => ?_) (fun hpos => ?_)
    · have hneg : fd = -1 := hneg
      subst hneg
      refine Triple.pure (entails_trans ?_ (finish 249 o [.socket (-1)] (Or.inl rfl) ?_))
      · rw [if_pos (by decide), hemp]
        have : ({ o with socket := -1 } : Obj) = o := by rw [← h]
        rw [this]
        sep_cancel
      · simp only [OpenE]
        rw [if_neg (by simp [hst]), if_neg (by simp [h])]
        exact Or.inl ⟨by decide, by trivial, by trivial⟩
    have hpos : ¬ fd < 0 := fun h' => hpos (show fd = -1 by omega)
    rw [if_neg hpos]
    obtain ⟨port, hport⟩ : ∃ port, port = (o.port % 2 ^ 32).toNat := ⟨_, rfl⟩
    step (loadInt_spec (p := p) (off := fPort) (b := blk { o with socket := fd } hp l) (n := port) (by rw [hport]; rfl))
    stepd (loadPtr_spec (p := p) (q := hp) ?_)
    unfold HostR at finish ⊢
    step (H.getaddrinfo (hostArg hp) o.host port (tr ++ [.socket fd])) into x
    refine Triple.ite (fun hx => ?_) (fun hx => ?_)
    · rw [if_neg hx]
      step (dropSocket_spec H (p := p) (hp := hp) (l := l) (o := o) (fd := fd) (tr := tr ++ [.socket fd] ++ [.getaddrinfo o.host port x.1 x.2]) hfd (by omega) h)
      refine Triple.pure (entails_trans ?_ (finish 266 o [.socket fd, .getaddrinfo o.host port x.1 x.2, .close fd] (Or.inl rfl) ?_))
      · rw [hemp]
        simp only [List.append_assoc, List.cons_append, List.nil_append]
        sep_cancel
      · simp only [OpenE]
        rw [if_neg (by simp [hst]), if_neg (by simp [h]), ← hport]
        exact Or.inr ⟨fd, by omega, hf2, Or.inl ⟨x.1, x.2, hx, by decide, by trivial, by trivial⟩⟩
    have hx : x.1 = 0 := Decidable.not_not.1 hx
    rw [if_pos hx, hx]
    step (connectPart_spec H (p := p) (hp := hp) (l := l) (o := o) (fd := fd) (ai := x.2) (tr := tr ++ [.socket fd] ++ [.getaddrinfo o.host port 0 x.2])
      (f1 := f1) (c1 := c1) (f2 := f2) (c2 := c2) (f3 := f3) (c3 := c3) hfd (by omega) h) into r
    intro o' evs hC
    step (H.freeaddrinfo x.2 _)
    refine Triple.pure (entails_trans ?_ (finish r o' ([.socket fd, .getaddrinfo o.host port 0 x.2] ++ evs ++ [.freeaddrinfo x.2]) ?_ ?_))
    · simp only [List.append_assoc, List.cons_append, List.nil_append]
      have : (if r = 0 then Fd fd else emp) = FdR Fd o'.socket := by
        rcases hC with ⟨e, _, hr, rfl, _⟩ | ⟨e, _, hr, rfl, _⟩ | ⟨hr, rfl, _⟩
        · rw [if_neg hr, hemp]
        · rw [if_neg hr, hemp]
        · have : FdR Fd (opened o fd f2 c2 f3 c3).socket = Fd fd := by
            have : ¬ fd = -1 := by omega
            show FdR Fd fd = Fd fd
            unfold FdR; rw [if_neg this]
          rw [if_pos hr, this]
      rw [this]
      sep_cancel
    · rcases hC with ⟨e, _, hr, rfl, _⟩ | ⟨e, _, hr, rfl, _⟩ | ⟨hr, rfl, _⟩
      · exact Or.inl rfl
      · exact Or.inl rfl
      · exact Or.inr ⟨fd, by omega, hfd, rfl⟩
    · simp only [OpenE]
      rw [if_neg (by simp [hst]), if_neg (by simp [h]), ← hport]
      refine Or.inr ⟨fd, by omega, hf2, Or.inr ⟨x.2, ?_⟩⟩
      rcases hC with ⟨e, he, hr, rfl, rfl⟩ | ⟨e, he, hr, rfl, rfl⟩ | ⟨hr, rfl, rfl⟩
      · exact Or.inl ⟨e, he, hr, rfl, rfl⟩
      · exact Or.inr (Or.inl ⟨e, he, hr, rfl, rfl⟩)
      · exact Or.inr (Or.inr ⟨hr, rfl, by simp⟩)

/-- `socketio_close` -/
theorem socketio_close_spec (H : Honours rel os Net Fd Ai) (f1 c1 : Nat) (p : Ptr) (a : Option Obj) (tr : List Ev) :
    Triple rel (ORep (SockR Fd) p a ∗ Net tr) (socketio_close os p f1 c1)
      (fun r => ∃∃ a' evs, (CloseE f1 c1 a r a' evs) ⋏ ORep (SockR Fd) p a' ∗ Net (tr ++ evs)) := by
  unfold socketio_close
  cases a with
  | none =>
    rw [ORep_none]
    hoist
    rintro rfl
    rw [if_pos rfl]
    refine Triple.pure (entails_ex_r none (entails_ex_r [] (entails_pand_r ?_ ⟨by decide, rfl, rfl⟩)))
    rw [ORep_null, emp_sep, List.append_nil]; exact entails_refl _
  | some o =>
    rw [ORep_some, SockR_eq]
    hoist
    intro hp l h1 h2 h3
    refine Triple.know (know_pts (p := p) (φ := p ≠ 0) (by pick) fun h1 _ => h1) fun hp0 => ?_
    rw [if_neg hp0]
    stepd (loadInt_spec (p := p) (n := o.state.code) ?_)
    refine Triple.ite (fun h => ?_) (fun h => ?_)
    · refine Triple.pure (entails_ex_r (some o) (entails_ex_r [] (entails_pand_r ?_ ?_)))
      · rw [ORep_some, List.append_nil]
        refine entails_trans ?_ (sep_mono (SockR_intro (hp := hp) (l := l) h1 h2 h3) (entails_refl _))
        simp only [sep_assoc]
        sep_cancel
      · simp only [CloseE]
        rw [if_pos (by simpa only [ne_eq, state_code] using h)]
        exact ⟨by decide, by trivial, by trivial⟩
    have hst : ¬ (o.state ≠ .opn ∧ o.state ≠ .opening) := by simpa only [ne_eq, state_code] using h
    have hso : o.socket ≠ -1 := h3 fun h' => hst (by simp [h'])
    have hfd : FdR Fd o.socket = Fd o.socket := by unfold FdR; rw [if_neg hso]
    rw [hfd]
    stepd (loadI_spec (p := p) (off := fSocket) (z := o.socket) ?_ h1)
    step (H.close o.socket _ hso) into r
    stepd (store_spec (p := p) ?_)
    stepd (store_spec (p := p) ?_)
    have hset : List.set (List.set (blk o hp l) fSocket (intV INVALID_SOCKET)) fState (stateV .closed) = blk { o with socket := -1, state := .closed } hp l := by
      simp [blk, INVALID_SOCKET]
    rw [hset]
    have finish : ∀ evs, evs = [.close o.socket] ++ evClosed f1 c1 → 
        Net (tr ++ evs) ∗ p ↦ blk { o with socket := -1, state := .closed } hp l ∗ HostR hp o.host ∗ Queue l o.pending ⊢ₕ
        ∃∃ a' evs, (CloseE f1 c1 (some o) 0 a' evs) ⋏ ORep (SockR Fd) p a' ∗ Net (tr ++ evs) := by
      rintro evs rfl
      refine entails_ex_r (some { o with socket := -1, state := .closed }) (entails_ex_r ([.close o.socket] ++ evClosed f1 c1) (entails_pand_r ?_ ?_))
      · rw [ORep_some]
        refine entails_trans ?_ (sep_mono (SockR_intro (o := { o with socket := -1, state := .closed }) (hp := hp) (l := l) (show i32 (-1) from ⟨by decide, by decide⟩) h2 (by simp)) (entails_refl _))
        simp only [sep_assoc, FdR, if_true]
        sep_cancel
      · simp only [CloseE]
        rw [if_neg hst]
        exact ⟨by trivial, by trivial, by trivial⟩
    refine Triple.ite (fun h => ?_) (fun h => ?_)
    · step (H.on_io_close_complete f1 c1 _ h)
      refine Triple.pure (entails_trans ?_ (finish [.close o.socket, .closed f1 c1] (by simp [evClosed, h])))
      simp only [List.append_assoc, List.cons_append, List.nil_append]
      sep_cancel
    · refine Triple.pure (entails_trans ?_ (finish [.close o.socket] (by simp [evClosed]; omega)))
      sep_cancel

/-! ## Sending -/

/-- sending from a buffer -/
theorem send_core (H : Honours rel os Net Fd Ai) {s : CharPtr} {bs : List UInt8} {D : HProp} (hD : Src rel s bs D) (hs : s ≠ .null)
    (hm : bs.length ≤ maxObj) (cb ctx : Nat) (p : Ptr) (o : Obj) (tr : List Ev) :
    Triple rel ((SockR Fd p o ∗ Net tr) ∗ D) (socketio_send os p s bs.length cb ctx)
      (fun r => (∃∃ a' evs, (SendE (¬ rel) (some bs) cb ctx (some o) r a' evs) ⋏ ORep (SockR Fd) p a' ∗ Net (tr ++ evs)) ∗ D) := by
  unfold socketio_send
  rw [SockR_eq]
  simp only [hex_sep, pand_sep, sep_assoc]
  hoist
  intro hp l h1 h2 h3
  refine Triple.know (know_pts (p := p) (φ := p ≠ 0) (by pick) fun h1 _ => h1) fun hp0 => ?_
  have finish : ∀ (r : Int) ps evs, SendE (¬ rel) (some bs) cb ctx (some o) r (some { o with pending := ps }) evs →
      p ↦ blk o hp l ∗ HostR hp o.host ∗ Queue l ps ∗ FdR Fd o.socket ∗ Net (tr ++ evs) ∗ D ⊢ₕ
      ∃∃ a' evs, (SendE (¬ rel) (some bs) cb ctx (some o) r a' evs) ⋏ ORep (SockR Fd) p a' ∗ Net (tr ++ evs) ∗ D := by
    intro r ps evs hE
    refine entails_ex_r (some { o with pending := ps }) (entails_ex_r evs (entails_pand_r ?_ hE))
    rw [ORep_some]
    refine entails_trans ?_ (sep_mono (SockR_intro (o := { o with pending := ps }) (hp := hp) (l := l) h1 h2 h3) (entails_refl _))
    simp only [sep_assoc]
    sep_cancel
  have same : ∀ (r : Int) evs, SendE (¬ rel) (some bs) cb ctx (some o) r (some o) evs →
      p ↦ blk o hp l ∗ HostR hp o.host ∗ Queue l o.pending ∗ FdR Fd o.socket ∗ Net (tr ++ evs) ∗ D ⊢ₕ
      ∃∃ a' evs, (SendE (¬ rel) (some bs) cb ctx (some o) r a' evs) ⋏ ORep (SockR Fd) p a' ∗ Net (tr ++ evs) ∗ D := by
    intro r evs hE
    exact finish r o.pending evs hE
  refine Triple.ite (fun h => ?_) (fun h => ?_)
  · have h0 : bs = [] := by
      rcases h with h | h | h
      · exact absurd h hp0
      · exact absurd h hs
      · exact List.length_eq_zero_iff.1 h
    refine Triple.pure (entails_trans ?_ (same 359 [] ?_))
    · rw [List.append_nil]; exact entails_refl _
    · simp only [SendE]
      rw [if_pos (Or.inl h0)]
      exact ⟨by decide, by trivial, by trivial⟩
  have hne : bs ≠ [] := by
    rintro rfl; exact h (Or.inr (Or.inr rfl))
  stepd (loadInt_spec (p := p) (n := o.state.code) ?_)
  refine Triple.ite (fun h => ?_) (fun h => ?_)
  · refine Triple.pure (entails_trans ?_ (same 367 [] ?_))
    · rw [List.append_nil]; sep_cancel
    · simp only [SendE]
      rw [if_pos (Or.inr fun h' => h (by rw [h']))]
      exact ⟨by decide, by trivial, by trivial⟩
  have hst : o.state = .opn := state_code.1 (Decidable.not_not.1 h)
  have hopen : ¬ (bs = [] ∨ o.state ≠ .opn) := by simp [hne, hst]
  have hso : o.socket ≠ -1 := h3 (by simp [hst])
  have hfd : FdR Fd o.socket = Fd o.socket := by unfold FdR; rw [if_neg hso]
  stepd (loadPtr_spec (p := p) (q := l) ?_)
  rw [Queue_eq]
  hoist
  intro ns
  try simp only [sep_assoc]
  refine Triple.know (φ := ns.length = o.pending.length) ?_ fun hl => ?_
  · intro hh hP
    have : Pick (p ↦ blk o hp l ∗ HostR hp o.host ∗ ListR l ns ∗ Own (PendR l) (List.map Prod.snd ns) o.pending ∗ FdR Fd o.socket ∗ Net tr ∗ D)
      (Own (PendR l) (List.map Prod.snd ns) o.pending) (p ↦ blk o hp l ∗ HostR hp o.host ∗ ListR l ns ∗ FdR Fd o.socket ∗ Net tr ∗ D) := by pick
    unfold Pick at this
    rw [this] at hP
    obtain ⟨_, _, _, _, hO, _⟩ := hP
    simpa using hO.1
  refine Triple.know (know_ListR (h := l) (ns := ns) (by pick)) fun hk => ?_
  step (list_get_head_item_spec (rel := rel) (h := l) (a := some ns))
  simp only [OList, ORep_some, Option.getD_some]
  have hzero : first ns 0 ≠ 0 ↔ o.pending ≠ [] := by
    cases ns with
    | nil =>
      have : o.pending = [] := List.length_eq_zero_iff.1 (by simpa using hl.symm)
      simp [first, this]
    | cons a ns =>
      have : o.pending ≠ [] := by intro h0; rw [h0] at hl; simp at hl
      have ha : a.1 ≠ 0 := fun h0 => hk.2.2 (by simp [h0])
      simp [first, this, ha]
  have toQ : ListR l ns ∗ Own (PendR l) (ns.map Prod.snd) o.pending ⊢ₕ Queue l o.pending := entails_ex_r ns (entails_refl _)
  have add := fun n => add_pending_io_spec (n := n) (rel := rel) (p := p) (hp := hp) (l := l) (o := o) (ps := o.pending) (s := s) (bs := bs) (D := D) (cb := cb) (ctx := ctx) hD hm
  refine Triple.ite (fun h => ?_) (fun h => ?_)
  · have hpd := hzero.1 h
    have hlen : 0 < bs.length := List.length_pos_iff.2 hne
    have := add 0 hlen
    rw [addPtr_zero, Nat.sub_zero, List.drop_zero] at this
    refine (fun h1 h2 => Triple.pre (P' := p ↦ blk o hp l ∗ HostR hp o.host ∗ Queue l o.pending ∗ FdR Fd o.socket ∗ Net tr ∗ D) h2 h1) ?_ ?_
    · refine entails_trans ?_ (sep_mono (entails_refl _) (sep_mono (entails_refl _) (sep_mono toQ (entails_refl _))))
      simp only [sep_assoc]; sep_cancel
    step this into r
    intro ps' hA
    rcases hA with ⟨rfl, rfl⟩ | ⟨hr, hrel, rfl⟩
    · rw [if_neg (by simp)]
      refine Triple.pure (entails_trans ?_ (finish 0 (o.pending ++ [⟨bs, cb, ctx⟩]) [] ?_))
      · rw [List.append_nil]; sep_cancel
      · simp only [SendE]
        rw [if_neg hopen, if_pos hpd]
        exact ⟨by trivial, Or.inl ⟨by trivial, by trivial⟩⟩
    · rw [if_pos hr]
      refine Triple.pure (entails_trans ?_ (same 377 [] ?_))
      · rw [List.append_nil]; sep_cancel
      · simp only [SendE]
        rw [if_neg hopen, if_pos hpd]
        exact ⟨by trivial, Or.inr ⟨by decide, hrel, by trivial⟩⟩
  have hpd : o.pending = [] := Decidable.not_not.1 fun h' => h (hzero.2 h')
  rw [hfd]
  stepd (loadI_spec (p := p) (off := fSocket) (z := o.socket) ?_ h1)
  step (sendTo_spec H hD (tr := tr) (fd := o.socket)) into r
  intro hr1 hr2 hr3
  have hsz : maxObj < szMod - 1 := by decide
  have hlen : 0 < bs.length := List.length_pos_iff.2 hne
  rw [hfd] at finish same
  refine (fun h1 h2 => Triple.pre (P' := p ↦ blk o hp l ∗ HostR hp o.host ∗ Queue l o.pending ∗ Fd o.socket ∗ Net (tr ++ [.send o.socket bs r]) ∗ D) h2 h1) ?_ ?_
  · refine entails_trans ?_ (sep_mono (entails_refl _) (sep_mono (entails_refl _) (sep_mono toQ (entails_refl _))))
    simp only [sep_assoc]; sep_cancel
  refine Triple.ite (fun hne' => ?_) (fun heq => ?_)
  · have hn : r < bs.length := by
      rcases Int.lt_or_eq_of_le hr2 with h | h
      · exact h
      · exfalso; apply hne'
        rw [h, Int.emod_eq_of_lt (by omega) (by omega)]; simp
    step (H.lastError _) into e
    refine Triple.ite (fun h => ?_) (fun h => ?_)
    · step (indicate_error_spec H (p := p) (hp := hp) (l := l) (o := o))
      refine Triple.pure (entails_trans ?_ (same 394 (.send o.socket bs r :: .lastError e :: evError o) ?_))
      · simp only [List.append_assoc, List.cons_append, List.nil_append]; sep_cancel
      · simp only [SendE]
        rw [if_neg hopen, if_neg (by simp [hpd])]
        exact Or.inr ⟨r, e, hr1, hn, Or.inl ⟨h, by decide, by trivial, by trivial⟩⟩
    · have h : e = WSAEWOULDBLOCK := Decidable.not_not.1 h
      have this := add 0 hlen
      rw [addPtr_zero, Nat.sub_zero, List.drop_zero] at this
      step this into r'
      intro ps' hA
      rcases hA with ⟨rfl, rfl⟩ | ⟨hr', hrel, rfl⟩
      · rw [if_neg (by simp)]
        refine Triple.pure (entails_trans ?_ (finish 0 (o.pending ++ [⟨bs, cb, ctx⟩]) [.send o.socket bs r, .lastError e] ?_))
        · simp only [List.append_assoc, List.cons_append, List.nil_append]; sep_cancel
        · simp only [SendE]
          rw [if_neg hopen, if_neg (by simp [hpd])]
          exact Or.inr ⟨r, e, hr1, hn, Or.inr ⟨h, rfl, Or.inl ⟨by trivial, by rw [hpd]; rfl⟩⟩⟩
      · rw [if_pos hr']
        refine Triple.pure (entails_trans ?_ (same 402 [.send o.socket bs r, .lastError e] ?_))
        · simp only [List.append_assoc, List.cons_append, List.nil_append]; sep_cancel
        · simp only [SendE]
          rw [if_neg hopen, if_neg (by simp [hpd])]
          exact Or.inr ⟨r, e, hr1, hn, Or.inr ⟨h, rfl, Or.inr ⟨by decide, hrel, by trivial⟩⟩⟩
  · have hr : r = bs.length := by
      by_cases h0 : r = -1
      · subst h0; exfalso; apply heq
        have : ((-1 : Int) % szMod).toNat = szMod - 1 := by decide
        omega
      · have : (r % szMod).toNat = r.toNat := by rw [Int.emod_eq_of_lt (a := r) (b := szMod) (by omega) (by omega)]
        omega
    subst hr
    refine Triple.ite (fun h => ?_) (fun h => ?_)
    · step (H.on_send_complete cb ctx true _ h)
      refine Triple.pure (entails_trans ?_ (same 0 [.send o.socket bs bs.length, .completed cb ctx true] ?_))
      · simp only [List.append_assoc, List.cons_append, List.nil_append]; sep_cancel
      · simp only [SendE]
        rw [if_neg hopen, if_neg (by simp [hpd])]
        exact Or.inl ⟨by trivial, by trivial, by simp [evCompleted, h]⟩
    · refine Triple.pure (entails_trans ?_ (same 0 [.send o.socket bs bs.length] ?_))
      · exact entails_refl _
      · simp only [SendE]
        rw [if_neg hopen, if_neg (by simp [hpd])]
        exact Or.inl ⟨by trivial, by trivial, by simp [evCompleted]; omega⟩

/-- `socketio_send` -/
theorem socketio_send_spec (H : Honours rel os Net Fd Ai) (s : CharPtr) (n : Nat) (bytes : Option (List UInt8)) (cb ctx : Nat) (p : Ptr) (a : Option Obj) (tr : List Ev) :
    Triple rel (ORep (SockR Fd) p a ∗ Net tr ∗ BytesArg s n bytes) (socketio_send os p s n cb ctx)
      (fun r => ∃∃ a' evs, (SendE (¬ rel) bytes cb ctx a r a' evs) ⋏ ORep (SockR Fd) p a' ∗ Net (tr ++ evs) ∗ BytesArg s n bytes) := by
  cases a with
  | none =>
    unfold socketio_send
    rw [ORep_none]
    hoist
    rintro rfl
    rw [if_pos (Or.inl rfl)]
    refine Triple.pure (entails_ex_r none (entails_ex_r [] (entails_pand_r ?_ ⟨by decide, rfl, rfl⟩)))
    rw [ORep_null, emp_sep, List.append_nil]; exact entails_refl _
  | some o =>
    cases bytes with
    | none =>
      unfold socketio_send
      simp only [BytesArg]
      hoist
      intro hs
      rw [if_pos (Or.inr (Or.inl hs))]
      refine Triple.pure (entails_ex_r (some o) (entails_ex_r [] (entails_pand_r ?_ ⟨by decide, rfl, rfl⟩)))
      rw [List.append_nil]
      rw [sep_pand, sep_pand, sep_emp]
      exact entails_pand_r (entails_refl _) hs
    | some bs =>
      simp only [BytesArg]
      hoist
      rintro hs rfl
      refine Triple.know (know_Data (s := s) (bs := bs) (by pick)) fun hm => ?_
      refine (Src_data (rel := rel) (s := s) (bs := bs) hs fun D hD => send_core H hD hs hm cb ctx p o tr).conseq ?_ fun r => ?_
      · rw [sep_assoc]; exact entails_refl _
      · simp only [hex_sep, pand_sep]
        refine entails_ex_l fun a' => entails_ex_l fun evs => entails_pand_l fun hE => entails_ex_r a' (entails_ex_r evs (entails_pand_r ?_ hE))
        rw [sep_pand, sep_pand, sep_assoc]
        exact entails_pand_r (entails_refl _) ⟨hs, by trivial⟩

end Verif.Sw
