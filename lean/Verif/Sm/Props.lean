import Verif.Sm.Spec
import Verif.Sock.Props
/-! # C100-C102: the calls of the socket IO of mbed meet their descriptions -/
namespace Verif.Sm
open Verif.List Verif.Headers
open Verif.Sock (IO_STATE intV loadI fSocket fOnBytes fOnErr fOnBytesCtx fOnErrCtx fHost fPort fState fList gBytes gSize gOnSend gCtx stateV
  add_pending_io hostArg clearLoop Obj Pend HostArg opened shift i32 HostR PendR FdR blk Queue SockR SockR_eq Queue_eq SockR_intro loadI_spec Src Src_block Src_data
  add_pending_io_spec remove_head clearLoop_spec state_code bytesV_length BytesArg addPtr_zero patch_shift shift_length)
variable {rel : Prop} {os : Os} {Net : List Ev → HProp} {Conn : Int → HProp}

theorem method_spec {c : Int} {α : Type} {m : M α} {P : HProp} {Q : α → HProp} (hc : c ≠ -1) (h : Triple rel P m Q) : Triple rel P (method c m) Q := by
  unfold method NULL
  rw [if_neg hc]
  exact h

/-- `send` from a buffer -/
theorem tcpsocketconnection_send_spec (H : Honours rel os Net Conn) {c : Int} {s : CharPtr} {bs : List UInt8} {D : HProp} (hD : Src rel s bs D) (hc : c ≠ -1) {tr : List Ev} :
    Triple rel (Net tr ∗ Conn c ∗ D) (tcpsocketconnection_send os c s bs.length)
      (fun r => (-(2 ^ 31) ≤ r ∧ r ≤ bs.length ∧ r < 2 ^ 31) ⋏ Net (tr ++ [.send c bs r]) ∗ Conn c ∗ D) := by
  unfold tcpsocketconnection_send
  step hD.read
  last (method_spec hc (H.send c bs tr))
  rename_i r
  rw [pand_sep, sep_assoc]
  exact entails_pand_l fun h => entails_pand_r (by sep_cancel) h

/-- `indicate_error` on the instance block -/
theorem indicate_error_spec (H : Honours rel os Net Conn) {p hp l : Nat} {o : Obj} {tr : List Ev} :
    Triple rel (Net tr ∗ p ↦ blk o hp l) (indicate_error os p) (fun _ => Net (tr ++ evError o) ∗ p ↦ blk o hp l) := by
  unfold indicate_error
  stepd (loadPtr_spec (p := p) (q := o.onErr) ?_)
  refine Triple.ite (fun h => ?_) (fun h => ?_)
  · stepd (loadPtr_spec (p := p) (q := o.onErrCtx) ?_)
    last (H.on_io_error o.onErr o.onErrCtx tr h)
    unfold evError; rw [if_neg h]; exact entails_refl _
  · refine Triple.pure ?_
    unfold evError; rw [if_pos (by omega), List.append_nil]; sep_cancel

/-- the first round of a send loop: whether the loop goes on, and the queue after it -/
inductive Round (o : Obj) (x : Pend) (xs : List Pend) : Bool → Obj → List Ev → Prop
  | whole : Round o x xs true { o with pending := xs } (.send o.socket x.bytes x.bytes.length :: evCompleted x.cb x.ctx)
  | wait (n : Int) : -2 ≤ n → n < 0 → Round o x xs false { o with pending := x :: xs } [.send o.socket x.bytes n]
  | fail (n : Int) : n < -2 → Round o x xs false { o with pending := x :: xs, state := .error } (.send o.socket x.bytes n :: evError o)
  | part (n : Nat) : n < x.bytes.length → Round o x xs true { o with pending := { x with bytes := shift n x.bytes } :: xs } [.send o.socket x.bytes n]

theorem Round.loop {o o1 o' : Obj} {x : Pend} {xs : List Pend} {e1 e2 : List Ev} {fin : Bool} {k : Nat} (hp : o.pending = x :: xs)
    (h : Round o x xs true o1 e1) (h2 : SendLoop k o1 fin o' e2) : SendLoop (k + 1) o fin o' (e1 ++ e2) := by
  cases h with
  | whole => exact SendLoop.whole hp h2
  | part n h1 => exact SendLoop.part n hp h1 h2

theorem Round.stop {o o1 : Obj} {x : Pend} {xs : List Pend} {e1 : List Ev} {k : Nat} (hp : o.pending = x :: xs)
    (h : Round o x xs false o1 e1) : SendLoop (k + 1) o true o1 e1 := by
  cases h with
  | wait n h1 h2 =>
    have : ({ o with pending := x :: xs } : Obj) = o := by rw [← hp]
    rw [this]
    exact SendLoop.wait n hp h1 h2
  | fail n h1 =>
    have : ({ o with pending := x :: xs, state := .error } : Obj) = { o with state := .error } := by rw [← hp]
    rw [this]
    exact SendLoop.fail n hp h1

theorem Round.same {o o1 : Obj} {x : Pend} {xs : List Pend} {e1 : List Ev} {go : Bool} (h : Round o x xs go o1 e1) :
    o1.socket = o.socket ∧ o1.host = o.host ∧ o1.port = o.port ∧ (o1.state = o.state ∨ o1.state = .error) := by
  cases h <;> simp

theorem SendLoop.same {k : Nat} {o o' : Obj} {fin : Bool} {evs : List Ev} (h : SendLoop k o fin o' evs) :
    o'.socket = o.socket ∧ o'.host = o.host ∧ o'.port = o.port ∧ (o'.state = o.state ∨ o'.state = .error) := by
  induction h with
  | done => simp
  | cut => simp
  | whole _ _ ih => simpa using ih
  | wait => simp
  | fail => simp
  | part _ _ _ _ ih => simpa using ih

theorem finishPending_spec {p hp l q i : Nat} {o : Obj} {x : Pend} {ns : Items} :
    Triple rel (p ↦ blk o hp l ∗ ListR l ((i, q) :: ns) ∗ PendR l q x) (finishPending os p q i)
      (fun _ => p ↦ blk o hp l ∗ ListR l ns) := by
  unfold finishPending PendR
  hoist
  intro b h1 h2
  stepd (loadPtr_spec (p := q) (q := b) ?_)
  step (free_spec (p := b))
  step (free_spec (p := q))
  stepd (loadPtr_spec (p := p) (q := l) ?_)
  step (remove_head (rel := rel) (l := l) (i := i) (q := q) (ns := ns))
  rw [if_neg (by simp)]
  refine Triple.pure ?_
  sep_cancel

/-- one round of the sending loop -/
theorem sendRound_spec (H : Honours rel os Net Conn) {p hp l q i : Nat} {o : Obj} {x : Pend} {xs : List Pend} {ns : Items} {tr : List Ev}
    (hs : i32 o.socket) (hso : o.socket ≠ -1) :
    Triple rel (Net tr ∗ p ↦ blk o hp l ∗ ListR l ((i, q) :: ns) ∗ PendR l q x ∗ Own (PendR l) (ns.map Prod.snd) xs ∗ Conn o.socket)
      (sendRound os p q i)
      (fun go => ∃∃ o' evs, (Round o x xs go o' evs) ⋏ Net (tr ++ evs) ∗ p ↦ blk o' hp l ∗ Queue l o'.pending ∗ Conn o.socket) := by
  unfold sendRound
  stepd (loadI_spec (p := p) (z := o.socket) ?_ hs)
  unfold PendR
  hoist
  intro b hx1 hx2
  stepd (loadPtr_spec (p := q) (q := b) ?_)
  stepd (loadInt_spec (p := q) (n := x.bytes.length) ?_)
  step (tcpsocketconnection_send_spec H (Src_block (b := b) (off := 0) (vs := bytesV x.bytes) (bs := x.bytes) (Nat.zero_le _) (by simp)) hso (tr := tr)) into r
  intro h1 h2 h3
  stepd (loadInt_spec (p := q) (n := x.bytes.length) ?_)
  have hsz : maxObj < szMod - 1 := by decide
  have hlen : 0 < x.bytes.length := List.length_pos_iff.2 hx1
  refine Triple.ite (fun hne => ?_) (fun heq => ?_)
  · have hkeep : ∀ (o1 : Obj), o1.pending = x :: xs → ∀ R : HProp,
        p ↦ blk o1 hp l ∗ ListR l ((i, q) :: ns) ∗ q ↦ [.ptr b, .int x.bytes.length, .ptr x.cb, .ptr x.ctx, .ptr l] ∗ b ↦ bytesV x.bytes ∗
          Own (PendR l) (ns.map Prod.snd) xs ∗ R ⊢ₕ p ↦ blk o1 hp l ∗ Queue l o1.pending ∗ R := by
      intro o1 ho R
      rw [ho]
      unfold Queue
      rw [hex_sep, sep_hex]
      refine entails_ex_r ((i, q) :: ns) ?_
      simp only [List.map_cons, Map.Own_cons, PendR]
      simp only [hex_sep, sep_hex, pand_sep, sep_pand]
      refine entails_ex_r b ?_
      refine entails_pand_r ?_ ⟨hx1, hx2⟩
      simp only [sep_assoc]
      sep_cancel
    refine Triple.ite (fun hneg => ?_) (fun hpos => ?_)
    · refine Triple.ite (fun h => ?_) (fun h => ?_)
      · stepd (store_spec (p := p) ?_)
        step (indicate_error_spec H (p := p) (hp := hp) (l := l) (o := { o with pending := x :: xs, state := .error }) (tr := tr ++ [.send o.socket x.bytes r]))
        have e : tr ++ [Ev.send o.socket x.bytes r] ++ evError { o with pending := x :: xs, state := .error } = tr ++ (.send o.socket x.bytes r :: evError o) := by
          simp [evError]
        rw [e]
        refine Triple.pure (entails_ex_r _ (entails_ex_r _ (entails_pand_r ?_ (Round.fail r h))))
        refine entails_trans ?_ (sep_mono (entails_refl _) (hkeep { o with pending := x :: xs, state := .error } rfl _))
        sep_cancel
      · refine Triple.pure (entails_ex_r _ (entails_ex_r _ (entails_pand_r ?_ (Round.wait r (by unfold UNABLE_TO_COMPLETE at h; omega) hneg))))
        refine entails_trans ?_ (sep_mono (entails_refl _) (hkeep { o with pending := x :: xs } rfl _))
        sep_cancel
    · have hr : 0 ≤ r := by omega
      have hn : r.toNat < x.bytes.length := by
        have : (r % szMod).toNat = r.toNat := by
          rw [Int.emod_eq_of_lt hr (by omega)]
        omega
      stepd (loadPtr_spec (p := q) (q := b) ?_)
      stepd (loadInt_spec (p := q) (n := x.bytes.length) ?_)
      step (Map.memmove_spec (p := b) (b := bytesV x.bytes) (d := 0) (s := r.toNat) (n := x.bytes.length - r.toNat) (by rw [bytesV_length]; omega) (by rw [bytesV_length]; omega))
      rw [patch_shift]
      refine Triple.pure (entails_ex_r _ (entails_ex_r _ (entails_pand_r ?_ (Round.part r.toNat hn))))
      unfold Queue
      rw [hex_sep, sep_hex, sep_hex]
      refine entails_ex_r ((i, q) :: ns) ?_
      simp only [List.map_cons, Map.Own_cons, PendR]
      rw [hex_sep, sep_hex, hex_sep, sep_hex, sep_hex]
      refine entails_ex_r b ?_
      simp only [pand_sep, sep_pand]
      refine entails_pand_r ?_ ⟨?_, ?_⟩
      · rw [shift_length, Int.toNat_of_nonneg hr]
        simp only [sep_assoc]
        sep_cancel
      · intro h0
        have := congrArg List.length h0
        rw [shift_length] at this
        exact hx1 (List.length_eq_zero_iff.1 this)
      · rw [shift_length]; exact hx2
  · have hr : r = x.bytes.length := by
      by_cases h0 : r < 0
      · exfalso; apply heq
        have h64 : (szMod : Int) = 2 ^ 64 := by decide
        have hmx : (maxObj : Int) = 2 ^ 56 := by decide
        have : (r % szMod) = r + szMod := by
          rw [← Int.add_emod_right, Int.emod_eq_of_lt (by omega) (by omega)]
        rw [this]
        omega
      · have : (r % szMod).toNat = r.toNat := by rw [Int.emod_eq_of_lt (a := r) (b := szMod) (by omega) (by omega)]
        omega
    subst hr
    stepd (loadPtr_spec (p := q) (q := x.cb) ?_)
    have fin : ∀ tr', tr' = tr ++ (.send o.socket x.bytes x.bytes.length :: evCompleted x.cb x.ctx) →
        Triple rel (Net tr' ∗ p ↦ blk o hp l ∗ ListR l ((i, q) :: ns) ∗ PendR l q x ∗ Own (PendR l) (ns.map Prod.snd) xs ∗ Conn o.socket)
        (do finishPending os p q i; pure true)
        (fun go => ∃∃ o' evs, (Round o x xs go o' evs) ⋏ Net (tr ++ evs) ∗ p ↦ blk o' hp l ∗ Queue l o'.pending ∗ Conn o.socket) := by
      rintro _ rfl
      step (finishPending_spec (os := os) (p := p) (hp := hp) (l := l) (q := q) (i := i) (o := o) (x := x) (ns := ns))
      refine Triple.pure (entails_ex_r _ (entails_ex_r _ (entails_pand_r ?_ Round.whole)))
      unfold Queue
      rw [hex_sep, sep_hex, sep_hex]
      refine entails_ex_r ns ?_
      simp only [sep_assoc]
      sep_cancel
    have fold : q ↦ [.ptr b, .int x.bytes.length, .ptr x.cb, .ptr x.ctx, .ptr l] ∗ b ↦ bytesV x.bytes ⊢ₕ PendR l q x :=
      entails_ex_r b (entails_pand_r (entails_refl _) ⟨hx1, hx2⟩)
    refine Triple.ite (fun h => ?_) (fun h => ?_)
    · stepd (loadPtr_spec (p := q) (q := x.ctx) ?_)
      step (H.on_send_complete x.cb x.ctx true (tr ++ [.send o.socket x.bytes x.bytes.length]) h)
      refine (fin (tr ++ [.send o.socket x.bytes x.bytes.length] ++ [.completed x.cb x.ctx true]) (by simp [evCompleted, h])).pre ?_
      refine entails_trans ?_ (sep_mono (entails_refl _) (sep_mono (entails_refl _) (sep_mono (entails_refl _) (sep_mono fold (entails_refl _)))))
      simp only [sep_assoc]
      sep_cancel
    · refine (fin (tr ++ [.send o.socket x.bytes x.bytes.length]) (by simp [evCompleted]; omega)).pre ?_
      refine entails_trans ?_ (sep_mono (entails_refl _) (sep_mono (entails_refl _) (sep_mono (entails_refl _) (sep_mono fold (entails_refl _)))))
      simp only [sep_assoc]
      sep_cancel

/-- the sending loop -/
theorem sendLoop_spec (H : Honours rel os Net Conn) {p hp l : Nat} (n : Nat) : ∀ (o : Obj) (ns : Items) (tr : List Ev), i32 o.socket → o.socket ≠ -1 →
    Triple rel (Net tr ∗ p ↦ blk o hp l ∗ ListR l ns ∗ Own (PendR l) (ns.map Prod.snd) o.pending ∗ Conn o.socket) (sendLoop os p n (first ns 0))
      (fun fin => ∃∃ o' evs, (SendLoop n o fin o' evs) ⋏ Net (tr ++ evs) ∗ p ↦ blk o' hp l ∗ Queue l o'.pending ∗ Conn o.socket) := by
  -- an empty queue
  have hnil : ∀ (n : Nat) (o : Obj) (ns : Items) (tr : List Ev) (c : Bool → M Bool), o.pending = [] → c = (fun b => pure b) →
      Triple rel (Net tr ∗ p ↦ blk o hp l ∗ ListR l ns ∗ Own (PendR l) (ns.map Prod.snd) o.pending ∗ Conn o.socket) (c true)
      (fun fin => ∃∃ o' evs, (SendLoop n o fin o' evs) ⋏ Net (tr ++ evs) ∗ p ↦ blk o' hp l ∗ Queue l o'.pending ∗ Conn o.socket) := by
    rintro n o ns tr _ h rfl
    refine Triple.pure (entails_ex_r o (entails_ex_r [] (entails_pand_r ?_ (SendLoop.done h))))
    rw [List.append_nil]
    unfold Queue
    rw [hex_sep, sep_hex, sep_hex]
    refine entails_ex_r ns ?_
    simp only [sep_assoc]
    sep_cancel
  induction n with
  | zero =>
    intro o ns tr hs hso
    refine Triple.know (φ := ns.length = o.pending.length) ?_ fun hl => ?_
    · rintro h ⟨_, _, _, _, _, ⟨_, _, _, _, _, ⟨_, _, _, _, _, ⟨_, _, _, _, hh, _⟩⟩⟩⟩
      have := hh.1; simpa using this
    refine Triple.know (know_ListR (h := l) (ns := ns) (by pick)) fun hk => ?_
    unfold sendLoop
    cases hp' : o.pending with
    | nil =>
      have : ns = [] := by rw [hp'] at hl; exact List.length_eq_zero_iff.1 (by simpa using hl)
      have h := hnil 0 o ns tr (fun b => pure b) hp' rfl
      rw [hp'] at h
      subst this
      simpa [first] using h
    | cons x xs =>
      cases ns with
      | nil => rw [hp'] at hl; simp at hl
      | cons a ns =>
        have ha : a.1 ≠ 0 := fun h0 => hk.2.2 (by simp [h0])
        rw [← hp']
        refine Triple.pure (entails_ex_r o (entails_ex_r [] (entails_pand_r ?_ ?_)))
        · rw [List.append_nil]
          unfold Queue
          rw [hex_sep, sep_hex, sep_hex]
          refine entails_ex_r (a :: ns) ?_
          simp only [sep_assoc]
          sep_cancel
        · have : decide (first (a :: ns) 0 = 0) = false := by simp [first, ha]
          rw [this]
          exact SendLoop.cut (by simp [hp'])
  | succ n ih =>
    intro o ns tr hs hso
    refine Triple.know (φ := ns.length = o.pending.length) ?_ fun hl => ?_
    · rintro h ⟨_, _, _, _, _, ⟨_, _, _, _, _, ⟨_, _, _, _, _, ⟨_, _, _, _, hh, _⟩⟩⟩⟩
      have := hh.1; simpa using this
    refine Triple.know (know_ListR (h := l) (ns := ns) (by pick)) fun hk => ?_
    unfold sendLoop
    cases hp' : o.pending with
    | nil =>
      have : ns = [] := by rw [hp'] at hl; exact List.length_eq_zero_iff.1 (by simpa using hl)
      have h := hnil (n + 1) o ns tr (fun b => pure b) hp' rfl
      rw [hp'] at h
      subst this
      rw [if_pos (by rfl)]
      exact h
    | cons x xs =>
      cases ns with
      | nil => rw [hp'] at hl; simp at hl
      | cons a ns =>
        obtain ⟨i, q⟩ := a
        have ha : i ≠ 0 := fun h0 => hk.2.2 (by simp [h0])
        rw [if_neg (by simpa [first] using ha)]
        step (list_item_get_value_spec (rel := rel) (h := l) (l1 := []) (l2 := ns) (n := (i, q)))
        simp only [List.nil_append, List.map_cons, Map.Own_cons, first, sep_assoc]
        refine Triple.know (φ := q ≠ 0) ?_ fun hq => ?_
        · unfold PendR
          intro h hh
          simp only [hex_sep, sep_hex, pand_sep, sep_pand, sep_assoc] at hh
          obtain ⟨b, hb, hh⟩ := hh
          exact know_pts (p := q) (φ := q ≠ 0) (by pick) (fun h1 _ => h1) h hh
        rw [if_neg hq]
        step (sendRound_spec H (p := p) (hp := hp) (l := l) (q := q) (i := i) (o := o) (x := x) (xs := xs) (ns := ns) (tr := tr) hs hso) into go
        intro o1 e1 hR
        have hsame := hR.same
        cases go with
        | false =>
          rw [if_neg (by decide)]
          refine Triple.pure (entails_ex_r o1 (entails_ex_r e1 (entails_pand_r ?_ (hR.stop hp'))))
          exact entails_refl _
        | true =>
        rw [if_pos rfl]
        stepd (loadPtr_spec (p := p) (q := l) ?_)
        unfold Queue
        hoist
        intro ns1
        try simp only [sep_assoc]
        step (list_get_head_item_spec (rel := rel) (h := l) (a := some ns1))
        have := ih o1 ns1 (tr ++ e1) (by rw [hsame.1]; exact hs) (by rw [hsame.1]; exact hso)
        simp only [OList, ORep_some, Option.getD_some]
        refine this.conseq ?_ fun fin => ?_
        · rw [hsame.1]; sep_cancel
        · refine entails_ex_l fun o2 => entails_ex_l fun e2 => entails_pand_l fun h2 => entails_ex_r o2 (entails_ex_r (e1 ++ e2) (entails_pand_r ?_ (hR.loop hp' h2)))
          rw [List.append_assoc, hsame.1]
          exact entails_refl _

/-- the receiving loop -/
theorem recvLoop_spec (H : Honours rel os Net Conn) {p hp l : Nat} {o : Obj} (hs : i32 o.socket) (hso : o.socket ≠ -1) (n : Nat) : ∀ tr : List Ev,
    Triple rel (Net tr ∗ p ↦ blk o hp l ∗ Conn o.socket) (recvLoop os p n)
      (fun fin => ∃∃ evs, (RecvLoop o n fin evs) ⋏ Net (tr ++ evs) ∗ p ↦ blk o hp l ∗ Conn o.socket) := by
  induction n with
  | zero =>
    intro tr
    refine Triple.pure (entails_ex_r [] (entails_pand_r ?_ RecvLoop.cut))
    rw [List.append_nil]; exact entails_refl _
  | succ n ih =>
    intro tr
    unfold recvLoop
    stepd (loadI_spec (p := p) (z := o.socket) ?_ hs)
    unfold tcpsocketconnection_receive
    step (method_spec hso (H.receive o.socket 128 tr)) into x
    intro h1 h2
    refine Triple.ite (fun h => ?_) (fun h => ?_)
    · have hx : x.1 = x.2.length := by omega
      have hb0 : x.2 ≠ [] := by intro h0; rw [h0] at hx; simp at hx; omega
      rw [hx]
      have go : ∀ e, e = .receive o.socket x.2.length x.2 :: evReceived o.onBytes o.onBytesCtx x.2 →
          Triple rel (Net (tr ++ e) ∗ p ↦ blk o hp l ∗ Conn o.socket) (recvLoop os p n)
          (fun fin => ∃∃ evs, (RecvLoop o (n + 1) fin evs) ⋏ Net (tr ++ evs) ∗ p ↦ blk o hp l ∗ Conn o.socket) := by
        rintro e rfl
        refine (ih _).conseq (entails_refl _) fun fin => entails_ex_l fun e2 => entails_pand_l fun h2 =>
          entails_ex_r _ (entails_pand_r ?_ (RecvLoop.more (bs := x.2) hb0 (by omega) h2))
        rw [List.append_assoc]; exact entails_refl _
      stepd (loadPtr_spec (p := p) (q := o.onBytes) ?_)
      refine Triple.ite (fun hf => ?_) (fun hf => ?_)
      · stepd (loadPtr_spec (p := p) (q := o.onBytesCtx) ?_)
        step (H.on_bytes_received o.onBytes o.onBytesCtx x.2 (tr ++ [.receive o.socket x.2.length x.2]) hf)
        rw [List.append_assoc]
        refine (go [.receive o.socket x.2.length x.2, .received o.onBytes o.onBytesCtx x.2] (by simp [evReceived, hf])).pre ?_
        sep_cancel
      · refine (go [.receive o.socket x.2.length x.2] (by simp [evReceived]; omega)).pre ?_
        sep_cancel
    · have hl := RecvLoop.last (o := o) (k := n) (r := x.1) (bs := x.2) (by omega)
      refine Triple.pure (entails_ex_r _ (entails_pand_r ?_ hl))
      sep_cancel

/-- `socketio_dowork` -/
theorem socketio_dowork_spec (H : Honours rel os Net Conn) (n m : Nat) (p : Ptr) (a : Option Obj) (tr : List Ev) :
    Triple rel (ORep (SockR Conn) p a ∗ Net tr) (socketio_dowork os n m p)
      (fun fin => ∃∃ a' evs, (DoworkE n m a fin a' evs) ⋏ ORep (SockR Conn) p a' ∗ Net (tr ++ evs)) := by
  unfold socketio_dowork
  cases a with
  | none =>
    rw [ORep_none]
    hoist
    rintro rfl
    rw [if_pos rfl]
    refine Triple.pure (entails_ex_r none (entails_ex_r [] (entails_pand_r ?_ ⟨rfl, rfl, rfl⟩)))
    rw [ORep_null, emp_sep, List.append_nil]; exact entails_refl _
  | some o =>
    rw [ORep_some, SockR_eq]
    hoist
    intro hp l h1 h2 h3
    refine Triple.know (know_pts (p := p) (φ := p ≠ 0) (by pick) fun h1 _ => h1) fun hp0 => ?_
    rw [if_neg hp0]
    stepd (loadInt_spec (p := p) (n := o.state.code) ?_)
    refine Triple.ite (fun h => ?_) (fun h => ?_)
    · refine Triple.pure (entails_ex_r (some o) (entails_ex_r [] (entails_pand_r ?_ ?_)))
      · rw [ORep_some, List.append_nil]
        refine entails_trans ?_ (sep_mono (SockR_intro (hp := hp) (l := l) h1 h2 h3) (entails_refl _))
        simp only [sep_assoc]
        sep_cancel
      · simp only [DoworkE]
        rw [if_pos (fun h' => h (by rw [h']))]
        exact ⟨by trivial, by trivial, by trivial⟩
    · have hst : o.state = .opn := by
        apply state_code.1; exact Decidable.not_not.1 h
      have hso := h3 (by simp [hst])
      have hfd : FdR Conn o.socket = Conn o.socket := by unfold FdR; rw [if_neg hso]
      stepd (loadPtr_spec (p := p) (q := l) ?_)
      rw [Queue_eq]
      hoist
      intro ns
      try simp only [sep_assoc]
      step (list_get_head_item_spec (rel := rel) (h := l) (a := some ns))
      simp only [OList, ORep_some, Option.getD_some, hfd]
      step (sendLoop_spec H (p := p) (hp := hp) (l := l) n o ns tr h1 hso) into fin
      intro o' e1 hL
      have hs := hL.same
      have back : ∀ tr', Net tr' ∗ p ↦ blk o' hp l ∗ Queue l o'.pending ∗ Conn o.socket ∗ HostR hp o.host ⊢ₕ ORep (SockR Conn) p (some o') ∗ Net tr' := by
        intro tr'
        rw [ORep_some]
        refine entails_trans ?_ (sep_mono (SockR_intro (o := o') (hp := hp) (l := l) (by rw [hs.1]; exact h1) (by rw [hs.2.2.1]; exact h2) (fun _ => by rw [hs.1]; exact hso)) (entails_refl _))
        rw [hs.1, hs.2.1, hfd]
        simp only [sep_assoc]
        sep_cancel
      cases fin with
      | false =>
        simp only [Bool.false_eq_true, if_false]
        refine Triple.pure (entails_ex_r (some o') (entails_ex_r e1 (entails_pand_r ?_ ?_)))
        · refine entails_trans ?_ (back _)
          sep_cancel
        · simp only [DoworkE]
          rw [if_neg (by simp [hst])]
          exact ⟨o', by trivial, Or.inl ⟨by trivial, hL⟩⟩
      | true =>
        simp only [if_true]
        have hr := recvLoop_spec H (p := p) (hp := hp) (l := l) (o := o') (by rw [hs.1]; exact h1) (by rw [hs.1]; exact hso) m (tr ++ e1)
        rw [hs.1] at hr
        last hr
        rename_i fin
        simp only [hex_sep, pand_sep]
        refine entails_ex_l fun e2 => entails_pand_l fun h2 => entails_ex_r (some o') (entails_ex_r (e1 ++ e2) (entails_pand_r ?_ ?_))
        · rw [List.append_assoc]
          refine entails_trans ?_ (back _)
          simp only [sep_assoc]
          sep_cancel
        · simp only [DoworkE]
          rw [if_neg (by simp [hst])]
          exact ⟨o', by trivial, Or.inr ⟨e1, e2, by trivial, hL, h2⟩⟩

/-- `socketio_destroy` -/
theorem socketio_destroy_spec (H : Honours rel os Net Conn) (p : Ptr) (a : Option Obj) (tr : List Ev) :
    Triple rel (ORep (SockR Conn) p a ∗ Net tr) (socketio_destroy os p)
      (fun _ => ∃∃ evs, (DestroyE a evs) ⋏ Net (tr ++ evs)) := by
  unfold socketio_destroy
  cases a with
  | none =>
    rw [ORep_none]
    hoist
    rintro rfl
    rw [if_neg (by simp)]
    refine Triple.pure (entails_ex_r [] (entails_pand_r ?_ rfl))
    rw [List.append_nil]; exact entails_refl _
  | some o =>
    rw [ORep_some, SockR_eq]
    hoist
    intro hp l h1 h2 h3
    refine Triple.know (know_pts (p := p) (φ := p ≠ 0) (by pick) fun h1 _ => h1) fun hp0 => ?_
    rw [if_pos hp0]
    stepd (loadI_spec (p := p) (off := fSocket) (z := o.socket) ?_ h1)
    have tail : ∀ evs, DestroyE (some o) evs →
        Triple rel (p ↦ blk o hp l ∗ HostR hp o.host ∗ Queue l o.pending ∗ Net (tr ++ evs))
        (do
          let l ← loadPtr p fList
          let first ← list_get_head_item l
          clearLoop p first
          let l ← loadPtr p fList
          list_destroy l
          let h ← loadPtr p fHost
          free h
          free p)
        (fun _ => ∃∃ evs, (DestroyE (some o) evs) ⋏ Net (tr ++ evs)) := by
      intro evs hE
      stepd (loadPtr_spec (p := p) (q := l) ?_)
      rw [Queue_eq]
      hoist
      intro ns
      try simp only [sep_assoc]
      step (list_get_head_item_spec (rel := rel) (h := l) (a := some ns))
      simp only [OList, ORep_some, Option.getD_some]
      step (clearLoop_spec (rel := rel) (p := p) (hp := hp) (l := l) (o := o) ns o.pending)
      stepd (loadPtr_spec (p := p) (q := l) ?_)
      step (list_destroy_spec (rel := rel) (h := l) (a := some []))
      stepd (loadPtr_spec (p := p) (q := hp) ?_)
      unfold HostR hostArg
      by_cases h0 : hp = 0
      · rw [if_pos h0]
        cases o.host with
        | none =>
          simp only [HostArg]; hoist; intro _
          subst h0
          step free_null_spec
          last (free_spec (p := p))
          refine entails_ex_r evs (entails_pand_r ?_ hE)
          sep_cancel
        | some t => simp only [HostArg, CStr]; hoist; exact fun h => h.elim
      · rw [if_neg h0]
        cases o.host with
        | none => simp only [HostArg]; hoist; intro h; exact absurd h (by simp)
        | some t =>
          simp only [HostArg, CStr]; hoist; intro vs _ _
          step (free_spec (p := hp))
          last (free_spec (p := p))
          refine entails_ex_r evs (entails_pand_r ?_ hE)
          sep_cancel
    unfold tcpsocketconnection_destroy
    by_cases h : o.socket = -1
    · have : FdR Conn o.socket = emp := by unfold FdR; rw [if_pos h]
      rw [this, if_pos (show o.socket = NULL from h), pure_bind]
      refine (tail [] ?_).pre ?_
      · simp only [DestroyE]; rw [if_pos h]
      · rw [List.append_nil]; sep_cancel
    · have : FdR Conn o.socket = Conn o.socket := by unfold FdR; rw [if_neg h]
      rw [this, if_neg (show ¬ o.socket = NULL from h)]
      step (H.delete o.socket tr)
      refine (tail [.delete o.socket] ?_).pre ?_
      · simp only [DestroyE]; rw [if_neg h]
      · sep_cancel

/-- `socketio_open` of a handle without connection -/
theorem socketio_open_spec (H : Honours rel os Net Conn) (f1 c1 f2 c2 f3 c3 : Nat) (p : Ptr) (a : Option Obj) (ha : ∀ o, a = some o → o.state = .closed ∧ o.socket = -1) (tr : List Ev) :
    Triple rel (ORep (SockR Conn) p a ∗ Net tr) (socketio_open os p f1 c1 f2 c2 f3 c3)
      (fun r => ∃∃ a' evs, (OpenE f1 c1 f2 c2 f3 c3 a r a' evs) ⋏ ORep (SockR Conn) p a' ∗ Net (tr ++ evs)) := by
  unfold socketio_open
  cases a with
  | none =>
    rw [ORep_none]
    hoist
    rintro rfl
    rw [if_pos rfl]
    refine Triple.pure (entails_ex_r none (entails_ex_r [] (entails_pand_r ?_ ⟨by decide, rfl, rfl⟩)))
    rw [ORep_null, emp_sep, List.append_nil]; exact entails_refl _
  | some o =>
    rw [ORep_some, SockR_eq]
    hoist
    intro hp l h1 h2 h3
    refine Triple.know (know_pts (p := p) (φ := p ≠ 0) (by pick) fun h1 _ => h1) fun hp0 => ?_
    rw [if_neg hp0]
    have h := (ha o rfl).2
    have hst := (ha o rfl).1
    have hemp : FdR Conn o.socket = emp := by unfold FdR; rw [if_pos h]
    rw [hemp, emp_sep]
    unfold tcpsocketconnection_create
    step (H.create tr) into c
    intro hf1 hf2
    have hc : i32 c := ⟨by omega, hf2⟩
    stepd (store_spec (p := p) ?_)
    stepd (loadI_spec (p := p) (off := fSocket) (z := c) ?_ hc)
    have finish : ∀ (r : Int) o' evs, (o' = o ∨ ∃ c, 0 ≤ c ∧ i32 c ∧ o' = opened o c f2 c2 f3 c3) → OpenE f1 c1 f2 c2 f3 c3 (some o) r (some o') evs →
        Net (tr ++ evs) ∗ p ↦ blk o' hp l ∗ HostR hp o.host ∗ Queue l o.pending ∗ FdR Conn o'.socket ⊢ₕ
        ∃∃ a' evs, (OpenE f1 c1 f2 c2 f3 c3 (some o) r a' evs) ⋏ ORep (SockR Conn) p a' ∗ Net (tr ++ evs) := by
      intro r o' evs ho hE
      refine entails_ex_r (some o') (entails_ex_r evs (entails_pand_r ?_ hE))
      rw [ORep_some]
      rcases ho with rfl | ⟨c, hf0, hf, rfl⟩
      · refine entails_trans ?_ (sep_mono (SockR_intro (hp := hp) (l := l) h1 h2 h3) (entails_refl _))
        simp only [sep_assoc]
        sep_cancel
      · refine entails_trans ?_ (sep_mono (SockR_intro (o := opened o c f2 c2 f3 c3) (hp := hp) (l := l) hf h2 (fun _ => by simp only [opened]; omega)) (entails_refl _))
        simp only [sep_assoc, opened]
        sep_cancel
    have hset : ∀ (o : Obj) c, List.set (blk o hp l) fSocket (intV c) = blk { o with socket := c } hp l := by intros; simp [blk]
    rw [hset]
    refine Triple.ite (fun hneg => ?_) (fun hpos => ?_)
    · have hneg : c = -1 := hneg
      subst hneg
      refine Triple.pure (entails_trans ?_ (finish 200 o [.create (-1)] (Or.inl rfl) ?_))
      · rw [if_pos (by decide), hemp]
        have : ({ o with socket := -1 } : Obj) = o := by rw [← h]
        rw [this]
        sep_cancel
      · simp only [OpenE]
        exact Or.inl ⟨by decide, by trivial, by trivial⟩
    have hpos : ¬ c < 0 := fun h' => hpos (show c = -1 by omega)
    rw [if_neg hpos]
    have hc1 : c ≠ -1 := by omega
    stepd (loadPtr_spec (p := p) (q := hp) ?_)
    stepd (loadI_spec (p := p) (off := fPort) (z := o.port) ?_ h2)
    unfold HostR at finish ⊢
    unfold tcpsocketconnection_connect
    step (method_spec hc1 (H.connect c (hostArg hp) o.host o.port (tr ++ [.create c]))) into r
    refine Triple.ite (fun hx => ?_) (fun hx => ?_)
    · stepd (loadI_spec (p := p) (off := fSocket) (z := c) ?_ hc)
      unfold tcpsocketconnection_destroy
      rw [if_neg (show ¬ c = NULL from hc1)]
      step (H.delete c _)
      stepd (store_spec (p := p) ?_)
      rw [hset]
      refine Triple.pure (entails_trans ?_ (finish 208 o [.create c, .connect c o.host o.port r, .delete c] (Or.inl rfl) ?_))
      · rw [hemp]
        have : ({ ({ o with socket := c } : Obj) with socket := NULL } : Obj) = o := by rw [NULL, ← h]
        rw [this]
        simp only [List.append_assoc, List.cons_append, List.nil_append]
        sep_cancel
      · simp only [OpenE]
        exact Or.inr ⟨c, by omega, hf2, Or.inl ⟨r, hx, by decide, by trivial, by trivial⟩⟩
    have hx : r = 0 := Decidable.not_not.1 hx
    subst hx
    stepd (loadI_spec (p := p) (off := fSocket) (z := c) ?_ hc)
    unfold tcpsocketconnection_set_blocking
    step (method_spec hc1 (H.set_nonblocking c _))
    unfold blk
    stepd (store_spec (p := p) ?_)
    stepd (store_spec (p := p) ?_)
    stepd (store_spec (p := p) ?_)
    stepd (store_spec (p := p) ?_)
    stepd (store_spec (p := p) ?_)
    have hfc : FdR Conn (opened o c f2 c2 f3 c3).socket = Conn c := by
      show FdR Conn c = Conn c
      unfold FdR; rw [if_neg hc1]
    have hE : OpenE f1 c1 f2 c2 f3 c3 (some o) 0 (some (opened o c f2 c2 f3 c3)) ([.create c, .connect c o.host o.port 0, .nonblocking c] ++ evOpened f1 c1 true) := by
      simp only [OpenE]
      exact Or.inr ⟨c, by omega, hf2, Or.inr ⟨by trivial, by trivial, by trivial⟩⟩
    have hfin := finish 0 (opened o c f2 c2 f3 c3) _ (Or.inr ⟨c, by omega, hc, rfl⟩) hE
    rw [hfc] at hfin
    refine Triple.ite (fun h => ?_) (fun h => ?_)
    · step (H.on_io_open_complete f1 c1 true _ h)
      refine Triple.pure (entails_trans ?_ hfin)
      simp only [List.append_assoc, List.cons_append, List.nil_append, evOpened, if_neg h, opened, blk]
      sep_cancel
    · refine Triple.pure (entails_trans ?_ hfin)
      rw [evOpened, if_pos (by omega)]
      simp only [List.append_assoc, List.cons_append, List.nil_append, opened, blk]
      sep_cancel

/-- objects nobody knows any more -/
def Lost (Conn : Int → HProp) : List Int → HProp
  | [] => emp
  | c :: cs => Conn c ∗ Lost Conn cs

theorem Lost_nil : Lost Conn [] = emp := rfl
theorem Lost_one {c : Int} : Lost Conn [c] = Conn c := sep_emp _
theorem Lost_append {l1 l2 : List Int} : Lost Conn (l1 ++ l2) = (Lost Conn l1 ∗ Lost Conn l2) := by
  induction l1 with
  | nil => rw [List.nil_append, Lost_nil, emp_sep]
  | cons c l ih => simp only [List.cons_append, Lost, ih, sep_assoc]

/-- `socketio_close` -/
theorem socketio_close_spec (H : Honours rel os Net Conn) (f1 c1 : Nat) (p : Ptr) (a : Option Obj) (tr : List Ev) :
    Triple rel (ORep (SockR Conn) p a ∗ Net tr) (socketio_close os p f1 c1)
      (fun r => ∃∃ a' evs lost, (CloseE f1 c1 a r a' evs lost) ⋏ ORep (SockR Conn) p a' ∗ Net (tr ++ evs) ∗ Lost Conn lost) := by
  unfold socketio_close
  cases a with
  | none =>
    rw [ORep_none]
    hoist
    rintro rfl
    rw [if_pos rfl]
    refine Triple.pure (entails_ex_r none (entails_ex_r [] (entails_ex_r [] (entails_pand_r ?_ ⟨by decide, rfl, rfl, rfl⟩))))
    rw [ORep_null, emp_sep, List.append_nil, Lost_nil, sep_emp]; exact entails_refl _
  | some o =>
    rw [ORep_some, SockR_eq]
    hoist
    intro hp l h1 h2 h3
    refine Triple.know (know_pts (p := p) (φ := p ≠ 0) (by pick) fun h1 _ => h1) fun hp0 => ?_
    rw [if_neg hp0]
    stepd (loadInt_spec (p := p) (n := o.state.code) ?_)
    refine Triple.ite (fun h => ?_) (fun h => ?_)
    · refine Triple.pure (entails_ex_r (some o) (entails_ex_r [] (entails_ex_r [] (entails_pand_r ?_ ?_))))
      · rw [ORep_some, List.append_nil, Lost_nil, sep_emp]
        refine entails_trans ?_ (sep_mono (SockR_intro (hp := hp) (l := l) h1 h2 h3) (entails_refl _))
        simp only [sep_assoc]
        sep_cancel
      · simp only [CloseE]
        rw [if_pos (by simpa only [ne_eq, state_code] using h)]
        exact ⟨by decide, by trivial, by trivial, by trivial⟩
    have hst : ¬ (o.state = .closed ∨ o.state = .closing) := by simpa only [ne_eq, state_code] using h
    have hso : o.socket ≠ -1 := h3 fun h' => hst (Or.inl h')
    have hfd : FdR Conn o.socket = Conn o.socket := by unfold FdR; rw [if_neg hso]
    rw [hfd]
    stepd (loadI_spec (p := p) (off := fSocket) (z := o.socket) ?_ h1)
    unfold tcpsocketconnection_close
    step (method_spec hso (H.close o.socket _))
    stepd (store_spec (p := p) ?_)
    stepd (store_spec (p := p) ?_)
    have hset : List.set (List.set (blk o hp l) fSocket (intV NULL)) fState (stateV .closed) = blk { o with socket := -1, state := .closed } hp l := by
      simp [blk, NULL]
    rw [hset]
    have finish : ∀ evs, evs = [.close o.socket] ++ evClosed f1 c1 → 
        Net (tr ++ evs) ∗ p ↦ blk { o with socket := -1, state := .closed } hp l ∗ HostR hp o.host ∗ Queue l o.pending ∗ Conn o.socket ⊢ₕ
        ∃∃ a' evs lost, (CloseE f1 c1 (some o) 0 a' evs lost) ⋏ ORep (SockR Conn) p a' ∗ Net (tr ++ evs) ∗ Lost Conn lost := by
      rintro evs rfl
      refine entails_ex_r (some { o with socket := -1, state := .closed }) (entails_ex_r ([.close o.socket] ++ evClosed f1 c1) (entails_ex_r [o.socket] (entails_pand_r ?_ ?_)))
      · rw [ORep_some]
        refine entails_trans ?_ (sep_mono (SockR_intro (o := { o with socket := -1, state := .closed }) (hp := hp) (l := l) (show i32 (-1) from ⟨by decide, by decide⟩) h2 (by simp)) (entails_refl _))
        rw [Lost_one]
        simp only [sep_assoc, FdR, if_true]
        sep_cancel
      · simp only [CloseE]
        rw [if_neg hst]
        exact ⟨by trivial, by trivial, by trivial, by trivial⟩
    refine Triple.ite (fun h => ?_) (fun h => ?_)
    · step (H.on_io_close_complete f1 c1 _ h)
      refine Triple.pure (entails_trans ?_ (finish [.close o.socket, .closed f1 c1] (by simp [evClosed, h])))
      simp only [List.append_assoc, List.cons_append, List.nil_append]
      sep_cancel
    · refine Triple.pure (entails_trans ?_ (finish [.close o.socket] (by simp [evClosed]; omega)))
      sep_cancel

/-- sending from a buffer -/
theorem send_core (H : Honours rel os Net Conn) {s : CharPtr} {bs : List UInt8} {D : HProp} (hD : Src rel s bs D) (hs : s ≠ .null)
    (hm : bs.length ≤ maxObj) (cb ctx : Nat) (p : Ptr) (o : Obj) (tr : List Ev) :
    Triple rel ((SockR Conn p o ∗ Net tr) ∗ D) (socketio_send os p s bs.length cb ctx)
      (fun r => (∃∃ a' evs, (SendE (¬ rel) (some bs) cb ctx (some o) r a' evs) ⋏ ORep (SockR Conn) p a' ∗ Net (tr ++ evs)) ∗ D) := by
  unfold socketio_send
  rw [SockR_eq]
  simp only [hex_sep, pand_sep, sep_assoc]
  hoist
  intro hp l h1 h2 h3
  refine Triple.know (know_pts (p := p) (φ := p ≠ 0) (by pick) fun h1 _ => h1) fun hp0 => ?_
  have finish : ∀ (r : Int) ps evs, SendE (¬ rel) (some bs) cb ctx (some o) r (some { o with pending := ps }) evs →
      p ↦ blk o hp l ∗ HostR hp o.host ∗ Queue l ps ∗ FdR Conn o.socket ∗ Net (tr ++ evs) ∗ D ⊢ₕ
      ∃∃ a' evs, (SendE (¬ rel) (some bs) cb ctx (some o) r a' evs) ⋏ ORep (SockR Conn) p a' ∗ Net (tr ++ evs) ∗ D := by
    intro r ps evs hE
    refine entails_ex_r (some { o with pending := ps }) (entails_ex_r evs (entails_pand_r ?_ hE))
    rw [ORep_some]
    refine entails_trans ?_ (sep_mono (SockR_intro (o := { o with pending := ps }) (hp := hp) (l := l) h1 h2 h3) (entails_refl _))
    simp only [sep_assoc]
    sep_cancel
  have same : ∀ (r : Int) evs, SendE (¬ rel) (some bs) cb ctx (some o) r (some o) evs →
      p ↦ blk o hp l ∗ HostR hp o.host ∗ Queue l o.pending ∗ FdR Conn o.socket ∗ Net (tr ++ evs) ∗ D ⊢ₕ
      ∃∃ a' evs, (SendE (¬ rel) (some bs) cb ctx (some o) r a' evs) ⋏ ORep (SockR Conn) p a' ∗ Net (tr ++ evs) ∗ D := by
    intro r evs hE
    exact finish r o.pending evs hE
  refine Triple.ite (fun h => ?_) (fun h => ?_)
  · have h0 : bs = [] := by
      rcases h with h | h | h
      · exact absurd h hp0
      · exact absurd h hs
      · exact List.length_eq_zero_iff.1 h
    refine Triple.pure (entails_trans ?_ (same 279 [] ?_))
    · rw [List.append_nil]; exact entails_refl _
    · simp only [SendE]
      rw [if_pos (Or.inl h0)]
      exact ⟨by decide, by trivial, by trivial⟩
  have hne : bs ≠ [] := by
    rintro rfl; exact h (Or.inr (Or.inr rfl))
  stepd (loadInt_spec (p := p) (n := o.state.code) ?_)
  refine Triple.ite (fun h => ?_) (fun h => ?_)
  · refine Triple.pure (entails_trans ?_ (same 286 [] ?_))
    · rw [List.append_nil]; sep_cancel
    · simp only [SendE]
      rw [if_pos (Or.inr fun h' => h (by rw [h']))]
      exact ⟨by decide, by trivial, by trivial⟩
  have hst : o.state = .opn := state_code.1 (Decidable.not_not.1 h)
  have hopen : ¬ (bs = [] ∨ o.state ≠ .opn) := by simp [hne, hst]
  have hso : o.socket ≠ -1 := h3 (by simp [hst])
  have hfd : FdR Conn o.socket = Conn o.socket := by unfold FdR; rw [if_neg hso]
  stepd (loadPtr_spec (p := p) (q := l) ?_)
  rw [Queue_eq]
  hoist
  intro ns
  try simp only [sep_assoc]
  refine Triple.know (φ := ns.length = o.pending.length) ?_ fun hl => ?_
  · intro hh hP
    have : Pick (p ↦ blk o hp l ∗ HostR hp o.host ∗ ListR l ns ∗ Own (PendR l) (List.map Prod.snd ns) o.pending ∗ FdR Conn o.socket ∗ Net tr ∗ D)
      (Own (PendR l) (List.map Prod.snd ns) o.pending) (p ↦ blk o hp l ∗ HostR hp o.host ∗ ListR l ns ∗ FdR Conn o.socket ∗ Net tr ∗ D) := by pick
    unfold Pick at this
    rw [this] at hP
    obtain ⟨_, _, _, _, hO, _⟩ := hP
    simpa using hO.1
  refine Triple.know (know_ListR (h := l) (ns := ns) (by pick)) fun hk => ?_
  step (list_get_head_item_spec (rel := rel) (h := l) (a := some ns))
  simp only [OList, ORep_some, Option.getD_some]
  have hzero : first ns 0 ≠ 0 ↔ o.pending ≠ [] := by
    cases ns with
    | nil =>
      have : o.pending = [] := List.length_eq_zero_iff.1 (by simpa using hl.symm)
      simp [first, this]
    | cons a ns =>
      have : o.pending ≠ [] := by intro h0; rw [h0] at hl; simp at hl
      have ha : a.1 ≠ 0 := fun h0 => hk.2.2 (by simp [h0])
      simp [first, this, ha]
  have toQ : ListR l ns ∗ Own (PendR l) (ns.map Prod.snd) o.pending ⊢ₕ Queue l o.pending := entails_ex_r ns (entails_refl _)
  have add := fun n => add_pending_io_spec (n := n) (rel := rel) (p := p) (hp := hp) (l := l) (o := o) (ps := o.pending) (s := s) (bs := bs) (D := D) (cb := cb) (ctx := ctx) hD hm
  refine Triple.ite (fun h => ?_) (fun h => ?_)
  · have hpd := hzero.1 h
    have hlen : 0 < bs.length := List.length_pos_iff.2 hne
    have := add 0 hlen
    rw [addPtr_zero, Nat.sub_zero, List.drop_zero] at this
    refine (fun h1 h2 => Triple.pre (P' := p ↦ blk o hp l ∗ HostR hp o.host ∗ Queue l o.pending ∗ FdR Conn o.socket ∗ Net tr ∗ D) h2 h1) ?_ ?_
    · refine entails_trans ?_ (sep_mono (entails_refl _) (sep_mono (entails_refl _) (sep_mono toQ (entails_refl _))))
      simp only [sep_assoc]; sep_cancel
    step this into r
    intro ps' hA
    rcases hA with ⟨rfl, rfl⟩ | ⟨hr, hrel, rfl⟩
    · rw [if_neg (by simp)]
      refine Triple.pure (entails_trans ?_ (finish 0 (o.pending ++ [⟨bs, cb, ctx⟩]) [] ?_))
      · rw [List.append_nil]; sep_cancel
      · simp only [SendE]
        rw [if_neg hopen, if_pos hpd]
        exact ⟨by trivial, Or.inl ⟨by trivial, by trivial⟩⟩
    · rw [if_pos hr]
      refine Triple.pure (entails_trans ?_ (same 295 [] ?_))
      · rw [List.append_nil]; sep_cancel
      · simp only [SendE]
        rw [if_neg hopen, if_pos hpd]
        exact ⟨by trivial, Or.inr ⟨by decide, hrel, by trivial⟩⟩
  have hpd : o.pending = [] := Decidable.not_not.1 fun h' => h (hzero.2 h')
  rw [hfd]
  stepd (loadI_spec (p := p) (off := fSocket) (z := o.socket) ?_ h1)
  step (tcpsocketconnection_send_spec H hD hso (tr := tr)) into r
  intro hr1 hr2 hr3
  have hsz : maxObj < szMod - 1 := by decide
  have hlen : 0 < bs.length := List.length_pos_iff.2 hne
  rw [hfd] at finish same
  refine (fun h1 h2 => Triple.pre (P' := p ↦ blk o hp l ∗ HostR hp o.host ∗ Queue l o.pending ∗ Conn o.socket ∗ Net (tr ++ [.send o.socket bs r]) ∗ D) h2 h1) ?_ ?_
  · refine entails_trans ?_ (sep_mono (entails_refl _) (sep_mono (entails_refl _) (sep_mono toQ (entails_refl _))))
    simp only [sep_assoc]; sep_cancel
  refine Triple.ite (fun hne' => ?_) (fun heq => ?_)
  · have hn : r < bs.length := by
      rcases Int.lt_or_eq_of_le hr2 with h | h
      · exact h
      · exfalso; apply hne'
        rw [h, Int.emod_eq_of_lt (by omega) (by omega)]; simp
    have hcut : (if r < 0 then 0 else r).toNat = r.toNat := by
      split
      · omega
      · rfl
    rw [hcut]
    step (add r.toNat (by omega)) into r'
    intro ps' hA
    rcases hA with ⟨rfl, rfl⟩ | ⟨hr', hrel, rfl⟩
    · rw [if_neg (by simp)]
      refine Triple.pure (entails_trans ?_ (finish 0 (o.pending ++ [⟨bs.drop r.toNat, cb, ctx⟩]) [.send o.socket bs r] ?_))
      · sep_cancel
      · simp only [SendE]
        rw [if_neg hopen, if_neg (by simp [hpd])]
        exact Or.inr ⟨r, hn, rfl, Or.inl ⟨by trivial, by rw [hpd]; rfl⟩⟩
    · rw [if_pos hr']
      refine Triple.pure (entails_trans ?_ (same 315 [.send o.socket bs r] ?_))
      · sep_cancel
      · simp only [SendE]
        rw [if_neg hopen, if_neg (by simp [hpd])]
        exact Or.inr ⟨r, hn, rfl, Or.inr ⟨by decide, hrel, by trivial⟩⟩
  · have hr : r = bs.length := by
      by_cases h0 : r < 0
      · exfalso; apply heq
        have h64 : (szMod : Int) = 2 ^ 64 := by decide
        have hmx : (maxObj : Int) = 2 ^ 56 := by decide
        have : (r % szMod) = r + szMod := by
          rw [← Int.add_emod_right, Int.emod_eq_of_lt (by omega) (by omega)]
        rw [this]
        omega
      · have : (r % szMod).toNat = r.toNat := by rw [Int.emod_eq_of_lt (a := r) (b := szMod) (by omega) (by omega)]
        omega
    subst hr
    refine Triple.ite (fun h => ?_) (fun h => ?_)
    · step (H.on_send_complete cb ctx true _ h)
      refine Triple.pure (entails_trans ?_ (same 0 [.send o.socket bs bs.length, .completed cb ctx true] ?_))
      · simp only [List.append_assoc, List.cons_append, List.nil_append]; sep_cancel
      · simp only [SendE]
        rw [if_neg hopen, if_neg (by simp [hpd])]
        exact Or.inl ⟨by trivial, by trivial, by simp [evCompleted, h]⟩
    · refine Triple.pure (entails_trans ?_ (same 0 [.send o.socket bs bs.length] ?_))
      · exact entails_refl _
      · simp only [SendE]
        rw [if_neg hopen, if_neg (by simp [hpd])]
        exact Or.inl ⟨by trivial, by trivial, by simp [evCompleted]; omega⟩

/-- `socketio_send` -/
theorem socketio_send_spec (H : Honours rel os Net Conn) (s : CharPtr) (n : Nat) (bytes : Option (List UInt8)) (cb ctx : Nat) (p : Ptr) (a : Option Obj) (tr : List Ev) :
    Triple rel (ORep (SockR Conn) p a ∗ Net tr ∗ BytesArg s n bytes) (socketio_send os p s n cb ctx)
      (fun r => ∃∃ a' evs, (SendE (¬ rel) bytes cb ctx a r a' evs) ⋏ ORep (SockR Conn) p a' ∗ Net (tr ++ evs) ∗ BytesArg s n bytes) := by
  cases a with
  | none =>
    unfold socketio_send
    rw [ORep_none]
    hoist
    rintro rfl
    rw [if_pos (Or.inl rfl)]
    refine Triple.pure (entails_ex_r none (entails_ex_r [] (entails_pand_r ?_ ⟨by decide, rfl, rfl⟩)))
    rw [ORep_null, emp_sep, List.append_nil]; exact entails_refl _
  | some o =>
    cases bytes with
    | none =>
      unfold socketio_send
      simp only [BytesArg]
      hoist
      intro hs
      rw [if_pos (Or.inr (Or.inl hs))]
      refine Triple.pure (entails_ex_r (some o) (entails_ex_r [] (entails_pand_r ?_ ⟨by decide, rfl, rfl⟩)))
      rw [List.append_nil]
      rw [sep_pand, sep_pand, sep_emp]
      exact entails_pand_r (entails_refl _) hs
    | some bs =>
      simp only [BytesArg]
      hoist
      rintro hs rfl
      refine Triple.know (know_Data (s := s) (bs := bs) (by pick)) fun hm => ?_
      refine (Src_data (rel := rel) (s := s) (bs := bs) hs fun D hD => send_core H hD hs hm cb ctx p o tr).conseq ?_ fun r => ?_
      · rw [sep_assoc]; exact entails_refl _
      · simp only [hex_sep, pand_sep]
        refine entails_ex_l fun a' => entails_ex_l fun evs => entails_pand_l fun hE => entails_ex_r a' (entails_ex_r evs (entails_pand_r ?_ hE))
        rw [sep_pand, sep_pand, sep_assoc]
        exact entails_pand_r (entails_refl _) ⟨hs, by trivial⟩

/-- `socketio_create` argument: a configuration has a host name -/
def CfgArg (cfg : Option Config) (c : Option (List UInt8 × Int)) : HProp :=
  match cfg, c with
  | none, none => emp
  | some g, some t => (g.port = t.2 ∧ i32 t.2) ⋏ CStr g.hostname t.1
  | _, _ => False ⋏ emp

/-- `socketio_create` -/
theorem socketio_create_spec (cfg : Option Config) (c : Option (List UInt8 × Int)) (logger : Nat) :
    Triple rel (CfgArg cfg c) (socketio_create cfg logger)
      (fun r => ∃∃ a', (CreateE (¬ rel) c logger (decide (r ≠ 0)) a') ⋏ ORep (SockR Conn) r a' ∗ CfgArg cfg c) := by
  unfold socketio_create
  cases cfg with
  | none =>
    cases c with
    | none =>
      simp only [CfgArg]
      refine Triple.pure (entails_ex_r none (entails_pand_r ?_ ?_))
      · rw [ORep_null]; sep_cancel
      · simp [CreateE]
    | some t => simp only [CfgArg]; hoist; exact fun h => h.elim
  | some g =>
    cases c with
    | none => simp only [CfgArg]; hoist; exact fun h => h.elim
    | some t =>
      simp only [CfgArg]
      hoist
      intro h1 h2
      have back : CStr g.hostname t.1 ⊢ₕ (g.port = t.2 ∧ i32 t.2) ⋏ CStr g.hostname t.1 :=
        entails_pand_r (entails_refl _) ⟨h1, h2⟩
      have fail : ¬ rel → CStr g.hostname t.1 ⊢ₕ
          ∃∃ a', (CreateE (¬ rel) (some t) logger (decide ((0 : Nat) ≠ 0)) a') ⋏ ORep (SockR Conn) 0 a' ∗
            ((g.port = t.2 ∧ i32 t.2) ⋏ CStr g.hostname t.1) := by
        intro hc
        refine entails_ex_r none (entails_pand_r ?_ ?_)
        · rw [ORep_null, emp_sep]
          exact entails_pand_r (entails_refl _) ⟨h1, h2⟩
        · exact Or.inl ⟨by simp, rfl, hc⟩
      refine Triple.mallocS (by decide) (fun hr => ?_) fun r hr0 => ?_
      · rw [if_neg (by simp)]
        exact Triple.pure (fail hr)
      rw [if_pos hr0]
      simp only [List.replicate]
      step (list_create_spec (rel := rel)) into l
      by_cases hl : l = 0
      · subst hl
        rw [Made_zero]
        hoist
        intro hr
        stepd (store_spec (p := r) ?_)
        rw [if_pos rfl]
        step (free_spec (p := r))
        exact Triple.pure (fail hr)
      rw [Made_ne hl]
      hoist
      rintro _ rfl
      stepd (store_spec (p := r) ?_)
      rw [if_neg hl]
      refine Triple.know (know_CStr (s := g.hostname) (t := t.1) (by pick)) fun ⟨hk1, hk2, hk3⟩ => ?_
      step strlen_spec
      refine Triple.malloc (fun hr => ?_) fun b hb _ => ?_
      · stepd (store_spec (p := r) ?_)
        rw [if_pos rfl]
        stepd (loadPtr_spec (p := r) (q := l) ?_)
        step (list_destroy_spec (rel := rel) (h := l) (a := some []))
        step (free_spec (p := r))
        refine Triple.pure (entails_trans ?_ (fail (hr.resolve_right (by omega))))
        sep_cancel
      · stepd (store_spec (p := r) ?_)
        rw [if_neg hb]
        step (strcpy_spec (dst := b) (off := 0) (src := g.hostname) (t := t.1) (b := List.replicate (t.1.length + 1) .undef) (by simp))
        rw [patch_full (by simp [bytesV])]
        stepd (store_spec (p := r) ?_)
        stepd (store_spec (p := r) ?_)
        stepd (store_spec (p := r) ?_)
        stepd (store_spec (p := r) ?_)
        stepd (store_spec (p := r) ?_)
        stepd (store_spec (p := r) ?_)
        stepd (store_spec (p := r) ?_)
        stepd (store_spec (p := r) ?_)
        refine Triple.pure (entails_ex_r (some ⟨-1, logger, 0, 0, 0, 0, some t.1, t.2, .closed, []⟩) (entails_pand_r ?_ ?_))
        · rw [ORep_some]
          refine entails_trans ?_ (sep_mono (SockR_intro (hp := b) (l := l) (show i32 (-1) from ⟨by decide, by decide⟩) h2 (by simp)) back)
          have hq : ListR l [] ⊢ₕ Queue l [] := by
            refine entails_ex_r [] ?_
            rw [List.map_nil, Own_nil, sep_emp]; exact entails_refl _
          have hhost : b ↦ bytesV (t.1 ++ [0]) ⊢ₕ HostR b (some t.1) := by
            simp only [HostR, hostArg, if_neg hb, HostArg, CStr]
            exact entails_ex_r (bytesV (t.1 ++ [0])) (entails_pand_r (entails_refl _) ⟨Nat.zero_le _, cstrV_bytes' hk2⟩)
          refine entails_trans ?_ (sep_mono (sep_mono (entails_refl _) (sep_mono hhost (sep_mono hq (entails_of_eq (show emp = FdR Conn (-1) by simp [FdR]))))) (entails_refl _))
          simp only [blk, h1, sep_assoc, NULL]
          sep_cancel
        · exact Or.inr ⟨by simp [hr0], rfl⟩

end Verif.Sm
