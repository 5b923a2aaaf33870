import Verif.Sock.Props
/-! # C118: a client that sends on the handle from within its callbacks -/
namespace Verif.Sock
open Verif.List Verif.Headers

/-- What a client does inside its callbacks: the messages it sends on the handle, each with its completion callback. -/
structure Client where
  /-- in the completion callback `fn` with context `ctx` -/
  done : Nat → Nat → List Pend
  /-- in the callback `fn` with context `ctx` for received bytes -/
  got : Nat → Nat → List UInt8 → List Pend

/-- calls of `socketio_send`, one per message, from buffers of the client; the results are dropped -/
def sendAll (os : Os) (p : Ptr) : List Pend → M Unit
  | [] => pure ()
  | m :: ms => do
    let _ ← socketio_send os p (.lit m.bytes) m.bytes.length m.cb m.ctx
    sendAll os p ms

/-- The system `os` with callbacks that call back into the handle `p`, nested at most `d` deep. -/
def nest (os : Os) (c : Client) (p : Ptr) : Nat → Os
  | 0 => os
  | d + 1 => { os with
      on_send_complete := fun fn ctx ok => do
        os.on_send_complete fn ctx ok
        sendAll (nest os c p d) p (c.done fn ctx)
      on_bytes_received := fun fn ctx bs => do
        os.on_bytes_received fn ctx bs
        sendAll (nest os c p d) p (c.got fn ctx bs) }

/-! ## What is promised -/

/-- calls one after the other; `S` describes one of them -/
inductive Each (S : Obj → Pend → Obj → List Ev → Prop) : Obj → List Pend → Obj → List Ev → Prop
  | nil {o} : Each S o [] o []
  | cons {o m o1 e1 ms o2 e2} : S o m o1 e1 → Each S o1 ms o2 e2 → Each S o (m :: ms) o2 (e1 ++ e2)

/-- One call of `socketio_send`: what it does for a client that does nothing in its callbacks, and, if it called the
completion callback, what the calls made there do. -/
def SendIn (oom : Prop) (c : Client) : Nat → Obj → Pend → Int → Obj → List Ev → Prop
  | 0, o, m, r, o', evs => SendE oom (some m.bytes) m.cb m.ctx (some o) r (some o') evs
  | d + 1, o, m, r, o', evs => ∃ o1 e1 e2, SendE oom (some m.bytes) m.cb m.ctx (some o) r (some o1) e1 ∧ evs = e1 ++ e2 ∧
      ((Ev.completed m.cb m.ctx true ∈ e1 ∧ Each (fun o m o' e => ∃ r, SendIn oom c d o m r o' e) o1 (c.done m.cb m.ctx) o' e2) ∨
       (Ev.completed m.cb m.ctx true ∉ e1 ∧ o' = o1 ∧ e2 = []))

/-- The messages `ms` sent while other data is waiting: queued in order; an empty one is refused; after a failure all are;
one may be left out if memory is refused. -/
def Queued (oom : Prop) (o : Obj) (ms added : List Pend) : Prop :=
  if o.state = .opn then added.Sublist (ms.filter fun m => m.bytes ≠ []) ∧ (¬ oom → added = ms.filter fun m => m.bytes ≠ [])
  else added = []

/-- The sending loop for such a client -/
inductive SendLoopC (oom : Prop) (c : Client) : Nat → Obj → Bool → Obj → List Ev → Prop
  | done {k o} : o.pending = [] → SendLoopC oom c k o true o []
  | cut {o} : o.pending ≠ [] → SendLoopC oom c 0 o false o []
  | whole {k o p ps added fin o' evs} : o.pending = p :: ps → Queued oom o (if p.cb = 0 then [] else c.done p.cb p.ctx) added →
      SendLoopC oom c k { o with pending := ps ++ added } fin o' evs →
      SendLoopC oom c (k + 1) o fin o' (.send o.socket p.bytes p.bytes.length :: evCompleted p.cb p.ctx ++ evs)
  | fail {k o p ps fin o' evs} : o.pending = p :: ps →
      SendLoopC oom c k { o with pending := ps, state := .error } fin o' evs →
      SendLoopC oom c (k + 1) o fin o' (.send o.socket p.bytes (-1) :: evError o ++ evs)
  | part {k o p ps fin o' evs} (n : Nat) : o.pending = p :: ps → n < p.bytes.length →
      SendLoopC oom c k { o with pending := { p with bytes := shift n p.bytes } :: ps } fin o' evs →
      SendLoopC oom c (k + 1) o fin o' (.send o.socket p.bytes n :: evs)

/-- The receiving loop for such a client -/
inductive RecvLoopC (oom : Prop) (c : Client) (d : Nat) : Nat → Obj → Bool → Obj → List Ev → Prop
  | cut {o} : RecvLoopC oom c d 0 o false o []
  | last {k o r b} : r ≤ 0 → RecvLoopC oom c d (k + 1) o true o [.recv o.socket r b]
  | more {k o b o1 e1 fin o' evs} :
      Each (fun o m o' e => ∃ r, SendIn oom c d o m r o' e) o (if o.onBytes = 0 then [] else c.got o.onBytes o.onBytesCtx [b]) o1 e1 →
      RecvLoopC oom c d k o1 fin o' evs →
      RecvLoopC oom c d (k + 1) o fin o' (.recv o.socket 1 b :: evReceived o.onBytes o.onBytesCtx [b] ++ e1 ++ evs)

/-- `socketio_dowork` for such a client -/
def DoworkC (oom : Prop) (c : Client) (d n m : Nat) (o : Obj) (fin : Bool) (o' : Obj) (evs : List Ev) : Prop :=
  if o.state ≠ .opn then fin = true ∧ o' = o ∧ evs = []
  else (fin = false ∧ SendLoopC oom c n o false o' evs) ∨
    ∃ o1 e1 e2, evs = e1 ++ e2 ∧ SendLoopC oom c n o true o1 e1 ∧ RecvLoopC oom c d m o1 fin o' e2

/-- the messages of the client are objects -/
structure Client.fits (c : Client) : Prop where
  done : ∀ f x, ∀ m ∈ c.done f x, m.bytes.length ≤ maxObj
  got : ∀ f x b, ∀ m ∈ c.got f x [b], m.bytes.length ≤ maxObj

/-! ## Proofs -/
variable {rel : Prop} {os : Os} {Net : List Ev → HProp} {Fd : Int → HProp} {Ai : Nat → HProp}

theorem sendTo_nest (c : Client) (p : Ptr) (d : Nat) : sendTo (nest os c p d) = sendTo os := by cases d <;> rfl
theorem error_nest (c : Client) (p : Ptr) (d : Nat) : indicate_error (nest os c p d) = indicate_error os := by cases d <;> rfl
theorem recv_nest (c : Client) (p : Ptr) (d : Nat) : (nest os c p d).recv = os.recv := by cases d <;> rfl
theorem finish_nest (c : Client) (p : Ptr) (d : Nat) : finishPending (nest os c p d) = finishPending os := by cases d <;> rfl

/-- appending to the queue, with its first node known -/
theorem add_pending_nodes {p hp l : Nat} {o : Obj} {n0 : Nat × Nat} {ns : Items} {ps : List Pend} {s : CharPtr} {bs : List UInt8} {D : HProp} {cb ctx : Nat}
    (hD : Src rel s bs D) (hm : bs.length ≤ maxObj) (hn : bs ≠ []) :
    Triple rel (p ↦ blk o hp l ∗ ListR l (n0 :: ns) ∗ Own (PendR l) (ns.map Prod.snd) ps ∗ D) (add_pending_io p s bs.length cb ctx)
      (fun r => ∃∃ ns' : Items, ∃∃ ps' : List Pend, ((r = 0 ∧ ps' = ps ++ [⟨bs, cb, ctx⟩]) ∨ (r ≠ 0 ∧ ¬ rel ∧ ps' = ps)) ⋏
        p ↦ blk o hp l ∗ ListR l (n0 :: ns') ∗ Own (PendR l) (ns'.map Prod.snd) ps' ∗ D) := by
  have hlen : 0 < bs.length := List.length_pos_iff.2 hn
  unfold add_pending_io
  refine Triple.mallocS (by decide) (fun hr => ?_) fun q hq => ?_
  · rw [if_pos rfl]
    exact Triple.pure (entails_ex_r ns (entails_ex_r ps (entails_pand_r (entails_refl _) (Or.inr ⟨by decide, hr, rfl⟩))))
  rw [if_neg hq]
  hoist
  refine Triple.malloc (fun hr => ?_) fun b hb _ => ?_
  · stepd (store_spec (p := q) ?_)
    rw [if_pos rfl]
    step free_spec
    exact Triple.pure (entails_ex_r ns (entails_ex_r ps (entails_pand_r (entails_refl _) (Or.inr ⟨by decide, hr.resolve_right (by omega), rfl⟩))))
  stepd (store_spec (p := q) ?_)
  rw [if_neg hb]
  stepd (store_spec (p := q) ?_)
  stepd (store_spec (p := q) ?_)
  stepd (store_spec (p := q) ?_)
  stepd (loadPtr_spec (p := p) (q := l) ?_)
  stepd (store_spec (p := q) ?_)
  have hc := hD.copy 0 b (by omega)
  rw [addPtr_zero, Nat.sub_zero, List.drop_zero] at hc
  step hc
  stepd (loadPtr_spec (p := p) (q := l) ?_)
  step (list_add_spec (h := l) (v := q) (a := some (n0 :: ns))) into r
  intro a' hA
  rcases hA with ⟨rfl, rfl, h⟩ | ⟨ns', h1, h2, h3, h4, rfl⟩
  · rw [if_pos rfl]
    stepd (loadPtr_spec (p := q) (q := b) ?_)
    step (free_spec (p := b))
    step (free_spec (p := q))
    refine Triple.pure (entails_ex_r ns (entails_ex_r ps (entails_pand_r ?_ (Or.inr ⟨by decide, ?_, rfl⟩))))
    · simp only [OList, ORep_some]
      sep_cancel
    · rcases h with h | h | h
      · simp at h
      · exact absurd h hq
      · exact h
  · simp at h1
    subst h1
    rw [if_neg h3]
    refine Triple.pure (entails_ex_r (ns ++ [(r, q)]) (entails_ex_r _ (entails_pand_r ?_ (Or.inl ⟨rfl, rfl⟩))))
    simp only [OList, ORep_some]
    rw [List.map_append]
    refine entails_trans ?_ (sep_mono (entails_refl _) (sep_mono (entails_refl _) (sep_mono Own_snoc (entails_refl _))))
    have hx : q ↦ [.ptr b, .int bs.length, .ptr cb, .ptr ctx, .ptr l] ∗ b ↦ bytesV bs ⊢ₕ PendR l q ⟨bs, cb, ctx⟩ :=
      entails_ex_r b (entails_pand_r (entails_refl _) ⟨hn, hm⟩)
    refine entails_trans ?_ (sep_mono (entails_refl _) (sep_mono (entails_refl _) (sep_mono (sep_mono hx (entails_refl _)) (entails_refl _))))
    simp only [sep_assoc, List.cons_append]
    sep_cancel

/-- one call while other data is waiting -/
theorem send_queued {os' : Os} {p hp l : Nat} {o : Obj} {n0 : Nat × Nat} {ns : Items} {ps : List Pend} {m : Pend} (hm : m.bytes.length ≤ maxObj) :
    Triple rel (p ↦ blk o hp l ∗ ListR l (n0 :: ns) ∗ Own (PendR l) (ns.map Prod.snd) ps)
      (socketio_send os' p (.lit m.bytes) m.bytes.length m.cb m.ctx)
      (fun _ => ∃∃ ns' : Items, ∃∃ added : List Pend, (Queued (¬ rel) o [m] added) ⋏
        p ↦ blk o hp l ∗ ListR l (n0 :: ns') ∗ Own (PendR l) (ns'.map Prod.snd) (ps ++ added)) := by
  unfold socketio_send
  refine Triple.know (know_pts (p := p) (φ := p ≠ 0) (by pick) fun h1 _ => h1) fun hp0 => ?_
  have none : Queued (¬ rel) o [m] [] → p ↦ blk o hp l ∗ ListR l (n0 :: ns) ∗ Own (PendR l) (ns.map Prod.snd) ps ⊢ₕ
      ∃∃ ns' : Items, ∃∃ added : List Pend, (Queued (¬ rel) o [m] added) ⋏
        p ↦ blk o hp l ∗ ListR l (n0 :: ns') ∗ Own (PendR l) (ns'.map Prod.snd) (ps ++ added) := by
    intro hQ
    refine entails_ex_r ns (entails_ex_r [] (entails_pand_r ?_ hQ))
    rw [List.append_nil]; exact entails_refl _
  refine Triple.ite (fun h => ?_) (fun h => ?_)
  · have h0 : m.bytes = [] := by
      rcases h with h | h | h
      · exact absurd h hp0
      · simp at h
      · exact List.length_eq_zero_iff.1 h
    refine Triple.pure (none ?_)
    unfold Queued
    simp [h0]
  have hne : m.bytes ≠ [] := by
    intro h0; exact h (Or.inr (Or.inr (by rw [h0]; rfl)))
  stepd (loadInt_spec (p := p) (n := o.state.code) ?_)
  refine Triple.ite (fun h => ?_) (fun h => ?_)
  · refine Triple.pure (entails_trans ?_ (none ?_))
    · sep_cancel
    · unfold Queued
      rw [if_neg fun h' => h (by rw [h'])]
  have hst : o.state = .opn := state_code.1 (Decidable.not_not.1 h)
  stepd (loadPtr_spec (p := p) (q := l) ?_)
  refine Triple.know (know_ListR (h := l) (ns := n0 :: ns) (by pick)) fun hk => ?_
  step (list_get_head_item_spec (rel := rel) (h := l) (a := some (n0 :: ns)))
  simp only [OList, ORep_some, Option.getD_some]
  have hn0 : n0.1 ≠ 0 := fun h0 => hk.2.2 (by simp [h0])
  rw [if_pos (by simpa [first] using hn0)]
  have add := add_pending_nodes (rel := rel) (p := p) (hp := hp) (l := l) (o := o) (n0 := n0) (ns := ns) (ps := ps) (cb := m.cb) (ctx := m.ctx)
    (Src_lit (rel := rel) (l := m.bytes) (bs := m.bytes) (List.prefix_refl _) hm) hm hne
  refine (fun h1 h2 => Triple.pre (P' := p ↦ blk o hp l ∗ ListR l (n0 :: ns) ∗ Own (PendR l) (ns.map Prod.snd) ps ∗ emp) h2 h1) (by rw [sep_emp]; sep_cancel) ?_
  step add into r
  intro ns' ps' hA
  have hf : [m].filter (fun m => m.bytes ≠ []) = [m] := by simp [hne]
  rcases hA with ⟨rfl, rfl⟩ | ⟨hr, hrel, rfl⟩
  · rw [if_neg (by simp)]
    refine Triple.pure (entails_ex_r ns' (entails_ex_r [m] (entails_pand_r ?_ ?_)))
    · exact entails_refl _
    · unfold Queued
      rw [if_pos hst, hf]
      exact ⟨List.Sublist.refl _, fun _ => rfl⟩
  · rw [if_pos hr]
    refine Triple.pure (entails_ex_r ns' (entails_ex_r [] (entails_pand_r ?_ ?_)))
    · rw [List.append_nil]; exact entails_refl _
    · unfold Queued
      rw [if_pos hst, hf]
      exact ⟨List.nil_sublist _, fun h => absurd hrel h⟩

theorem Queued.cons {oom : Prop} {o : Obj} {m : Pend} {ms a b : List Pend} (h1 : Queued oom o [m] a) (h2 : Queued oom o ms b) : Queued oom o (m :: ms) (a ++ b) := by
  unfold Queued at *
  have e : (m :: ms).filter (fun m => m.bytes ≠ []) = [m].filter (fun m => m.bytes ≠ []) ++ ms.filter (fun m => m.bytes ≠ []) := by
    rw [← List.filter_append]; rfl
  split
  · rename_i h
    rw [if_pos h] at h1 h2
    rw [e]
    exact ⟨List.Sublist.append h1.1 h2.1, fun hr => by rw [h1.2 hr, h2.2 hr]⟩
  · rename_i h
    rw [if_neg h] at h1 h2
    rw [h1, h2]; rfl

/-- the calls made while other data is waiting -/
theorem sendAll_queued {os' : Os} {p hp l : Nat} {o : Obj} {n0 : Nat × Nat} (ms : List Pend) : ∀ {ns : Items} {ps : List Pend}, (∀ m ∈ ms, m.bytes.length ≤ maxObj) →
    Triple rel (p ↦ blk o hp l ∗ ListR l (n0 :: ns) ∗ Own (PendR l) (ns.map Prod.snd) ps) (sendAll os' p ms)
      (fun _ => ∃∃ ns' : Items, ∃∃ added : List Pend, (Queued (¬ rel) o ms added) ⋏
        p ↦ blk o hp l ∗ ListR l (n0 :: ns') ∗ Own (PendR l) (ns'.map Prod.snd) (ps ++ added)) := by
  induction ms with
  | nil =>
    intro ns ps _
    refine Triple.pure (entails_ex_r ns (entails_ex_r [] (entails_pand_r ?_ ?_)))
    · rw [List.append_nil]; exact entails_refl _
    · unfold Queued; split <;> simp
  | cons m ms ih =>
    intro ns ps hm
    unfold sendAll
    step (send_queued (rel := rel) (os' := os') (p := p) (hp := hp) (l := l) (o := o) (n0 := n0) (ns := ns) (ps := ps) (hm m (by simp)))
    intro ns' a h1
    refine (ih (ns := ns') (ps := ps ++ a) fun m h => hm m (by simp [h])).conseq (entails_refl _) fun _ => ?_
    refine entails_ex_l fun ns2 => entails_ex_l fun b => entails_pand_l fun h2 => entails_ex_r ns2 (entails_ex_r (a ++ b) (entails_pand_r ?_ (h1.cons h2)))
    rw [List.append_assoc]; exact entails_refl _

/-- one round of the sending loop -/
inductive RoundC (oom : Prop) (c : Client) (o : Obj) (x : Pend) (xs : List Pend) : Obj → List Ev → Prop
  | whole {added} : Queued oom o (if x.cb = 0 then [] else c.done x.cb x.ctx) added →
      RoundC oom c o x xs { o with pending := xs ++ added } (.send o.socket x.bytes x.bytes.length :: evCompleted x.cb x.ctx)
  | fail : RoundC oom c o x xs { o with pending := xs, state := .error } (.send o.socket x.bytes (-1) :: evError o)
  | part (n : Nat) : n < x.bytes.length →
      RoundC oom c o x xs { o with pending := { x with bytes := shift n x.bytes } :: xs } [.send o.socket x.bytes n]

theorem RoundC.loop {oom : Prop} {c : Client} {o o1 o' : Obj} {x : Pend} {xs : List Pend} {e1 e2 : List Ev} {fin : Bool} (hp : o.pending = x :: xs)
    (h : RoundC oom c o x xs o1 e1) (h2 : SendLoopC oom c k o1 fin o' e2) : SendLoopC oom c (k + 1) o fin o' (e1 ++ e2) := by
  cases h with
  | whole hq => exact SendLoopC.whole hp hq h2
  | fail => exact SendLoopC.fail hp h2
  | part n hn => exact SendLoopC.part n hp hn h2

theorem RoundC.same {oom : Prop} {c : Client} {o o1 : Obj} {x : Pend} {xs : List Pend} {e1 : List Ev} (h : RoundC oom c o x xs o1 e1) :
    o1.socket = o.socket ∧ o1.host = o.host ∧ o1.port = o.port ∧ (o1.state = o.state ∨ o1.state = .error) := by
  cases h <;> simp

theorem SendLoopC.same {oom : Prop} {c : Client} {o o' : Obj} {fin : Bool} {k : Nat} {evs : List Ev} (h : SendLoopC oom c k o fin o' evs) :
    o'.socket = o.socket ∧ o'.host = o.host ∧ o'.port = o.port ∧ (o'.state = o.state ∨ o'.state = .error) := by
  induction h with
  | done => simp
  | cut => simp
  | whole _ _ _ ih => simpa using ih
  | fail _ _ ih =>
    refine ⟨ih.1, ih.2.1, ih.2.2.1, Or.inr ?_⟩
    rcases ih.2.2.2 with h | h <;> exact h
  | part _ _ _ _ ih => simpa using ih

theorem blk_pending {o : Obj} {ps : List Pend} {hp l : Nat} : blk { o with pending := ps } hp l = blk o hp l := rfl

theorem sendRoundC_spec (H : Honours rel os Net Fd Ai) {c : Client} (hc : c.fits) {d : Nat} {p hp l q i : Nat} {o : Obj} {x : Pend} {xs : List Pend}
    {ns : Items} {tr : List Ev} (hs : i32 o.socket) :
    Triple rel (Net tr ∗ p ↦ blk o hp l ∗ ListR l ((i, q) :: ns) ∗ PendR l q x ∗ Own (PendR l) (ns.map Prod.snd) xs ∗ Fd o.socket)
      (sendRound (nest os c p (d + 1)) p q i)
      (fun _ => ∃∃ o' evs, (RoundC (¬ rel) c o x xs o' evs) ⋏ Net (tr ++ evs) ∗ p ↦ blk o' hp l ∗ Queue l o'.pending ∗ Fd o.socket) := by
  unfold sendRound
  simp only [sendTo_nest, error_nest, finish_nest]
  stepd (loadI_spec (p := p) (z := o.socket) ?_ hs)
  unfold PendR
  hoist
  intro b hx1 hx2
  stepd (loadPtr_spec (p := q) (q := b) ?_)
  stepd (loadInt_spec (p := q) (n := x.bytes.length) ?_)
  step (sendTo_spec H (Src_block (b := b) (off := 0) (vs := bytesV x.bytes) (bs := x.bytes) (Nat.zero_le _) (by simp)) (tr := tr) (fd := o.socket)) into r
  intro h1 h2 h3
  stepd (loadInt_spec (p := q) (n := x.bytes.length) ?_)
  have hsz : maxObj < szMod - 1 := by decide
  have hlen : 0 < x.bytes.length := List.length_pos_iff.2 hx1
  refine Triple.ite (fun hne => ?_) (fun heq => ?_)
  · refine Triple.ite (fun h => ?_) (fun h => ?_)
    · subst h
      stepd (loadPtr_spec (p := q) (q := b) ?_)
      step (free_spec (p := b))
      step (free_spec (p := q))
      stepd (loadPtr_spec (p := p) (q := l) ?_)
      step (remove_head (rel := rel) (l := l) (i := i) (q := q) (ns := ns)) into r
      intro _
      stepd (store_spec (p := p) ?_)
      last (indicate_error_spec H (p := p) (hp := hp) (l := l) (o := { o with pending := xs, state := .error }) (tr := tr ++ [.send o.socket x.bytes (-1)]))
      refine entails_ex_r _ (entails_ex_r _ (entails_pand_r ?_ RoundC.fail))
      have e : tr ++ [Ev.send o.socket x.bytes (-1)] ++ evError { o with pending := xs, state := .error } = tr ++ (.send o.socket x.bytes (-1) :: evError o) := by
        simp [evError]
      rw [← e]
      unfold Queue
      rw [hex_sep, sep_hex, sep_hex]
      refine entails_ex_r ns ?_
      simp only [sep_assoc]
      sep_cancel
    · have hr : 0 ≤ r := by unfold INVALID_SOCKET at h; omega
      have hn : r.toNat < x.bytes.length := by
        have : (r % szMod).toNat = r.toNat := by
          rw [Int.emod_eq_of_lt hr (by omega)]
        omega
      stepd (loadPtr_spec (p := q) (q := b) ?_)
      stepd (loadInt_spec (p := q) (n := x.bytes.length) ?_)
      last (Map.memmove_spec (p := b) (b := bytesV x.bytes) (d := 0) (s := r.toNat) (n := x.bytes.length - r.toNat) (by rw [bytesV_length]; omega) (by rw [bytesV_length]; omega))
      rw [patch_shift]
      refine entails_ex_r _ (entails_ex_r _ (entails_pand_r ?_ (RoundC.part r.toNat hn)))
      unfold Queue
      rw [hex_sep, sep_hex, sep_hex]
      refine entails_ex_r ((i, q) :: ns) ?_
      simp only [List.map_cons, Map.Own_cons, PendR]
      rw [hex_sep, sep_hex, hex_sep, sep_hex, sep_hex]
      refine entails_ex_r b ?_
      simp only [pand_sep, sep_pand]
      refine entails_pand_r ?_ ⟨?_, ?_⟩
      · rw [shift_length, Int.toNat_of_nonneg hr]
        simp only [sep_assoc]
        sep_cancel
      · intro h0
        have := congrArg List.length h0
        rw [shift_length] at this
        exact hx1 (List.length_eq_zero_iff.1 this)
      · rw [shift_length]; exact hx2
  · have hr : r = x.bytes.length := by
      by_cases h0 : r = -1
      · subst h0; exfalso; apply heq
        have : ((-1 : Int) % szMod).toNat = szMod - 1 := by decide
        omega
      · have : (r % szMod).toNat = r.toNat := by rw [Int.emod_eq_of_lt (a := r) (b := szMod) (by omega) (by omega)]
        omega
    subst hr
    stepd (loadPtr_spec (p := q) (q := x.cb) ?_)
    have fin : ∀ (ns : Items) added tr', Queued (¬ rel) o (if x.cb = 0 then [] else c.done x.cb x.ctx) added →
        tr' = tr ++ (.send o.socket x.bytes x.bytes.length :: evCompleted x.cb x.ctx) →
        Triple rel (Net tr' ∗ p ↦ blk o hp l ∗ ListR l ((i, q) :: ns) ∗ PendR l q x ∗ Own (PendR l) (ns.map Prod.snd) (xs ++ added) ∗ Fd o.socket)
        (finishPending os p q i)
        (fun _ => ∃∃ o' evs, (RoundC (¬ rel) c o x xs o' evs) ⋏ Net (tr ++ evs) ∗ p ↦ blk o' hp l ∗ Queue l o'.pending ∗ Fd o.socket) := by
      rintro ns added _ hq rfl
      last (finishPending_spec (os := os) (p := p) (hp := hp) (l := l) (q := q) (i := i) (o := o) (x := x) (ns := ns))
      refine entails_ex_r _ (entails_ex_r _ (entails_pand_r ?_ (RoundC.whole hq)))
      unfold Queue
      rw [hex_sep, sep_hex, sep_hex]
      refine entails_ex_r ns ?_
      simp only [sep_assoc, blk_pending]
      sep_cancel
    have fold : q ↦ [.ptr b, .int x.bytes.length, .ptr x.cb, .ptr x.ctx, .ptr l] ∗ b ↦ bytesV x.bytes ⊢ₕ PendR l q x :=
      entails_ex_r b (entails_pand_r (entails_refl _) ⟨hx1, hx2⟩)
    refine Triple.ite (fun h => ?_) (fun h => ?_)
    · stepd (loadPtr_spec (p := q) (q := x.ctx) ?_)
      simp only [nest, bind_assoc]
      step (H.on_send_complete x.cb x.ctx true (tr ++ [.send o.socket x.bytes x.bytes.length]) h)
      step (sendAll_queued (rel := rel) (os' := nest os c p d) (p := p) (hp := hp) (l := l) (o := o) (n0 := (i, q)) (c.done x.cb x.ctx) (ns := ns) (ps := xs) (hc.done x.cb x.ctx))
      intro ns' added hq
      refine (fin ns' added (tr ++ [.send o.socket x.bytes x.bytes.length] ++ [.completed x.cb x.ctx true]) (by rw [if_neg h]; exact hq) (by simp [evCompleted, h])).pre ?_
      refine entails_trans ?_ (sep_mono (entails_refl _) (sep_mono (entails_refl _) (sep_mono (entails_refl _) (sep_mono fold (entails_refl _)))))
      simp only [sep_assoc]
      sep_cancel
    · have h0 : x.cb = 0 := by omega
      refine (fin ns [] (tr ++ [.send o.socket x.bytes x.bytes.length]) (by rw [if_pos h0]; unfold Queued; split <;> simp) (by simp [evCompleted]; omega)).pre ?_
      rw [List.append_nil]
      refine entails_trans ?_ (sep_mono (entails_refl _) (sep_mono (entails_refl _) (sep_mono (entails_refl _) (sep_mono fold (entails_refl _)))))
      simp only [sep_assoc]
      sep_cancel

/-- the sending loop -/
theorem sendLoopC_spec (H : Honours rel os Net Fd Ai) {c : Client} (hc : c.fits) {d : Nat} {p hp l : Nat} (n : Nat) : ∀ (o : Obj) (ns : Items) (tr : List Ev), i32 o.socket →
    Triple rel (Net tr ∗ p ↦ blk o hp l ∗ ListR l ns ∗ Own (PendR l) (ns.map Prod.snd) o.pending ∗ Fd o.socket) (sendLoop (nest os c p (d + 1)) p n (first ns 0))
      (fun fin => ∃∃ o' evs, (SendLoopC (¬ rel) c n o fin o' evs) ⋏ Net (tr ++ evs) ∗ p ↦ blk o' hp l ∗ Queue l o'.pending ∗ Fd o.socket) := by
  -- an empty queue
  have hnil : ∀ (n : Nat) (o : Obj) (ns : Items) (tr : List Ev) (k : Bool → M Bool), o.pending = [] → k = (fun b => pure b) →
      Triple rel (Net tr ∗ p ↦ blk o hp l ∗ ListR l ns ∗ Own (PendR l) (ns.map Prod.snd) o.pending ∗ Fd o.socket) (k true)
      (fun fin => ∃∃ o' evs, (SendLoopC (¬ rel) c n o fin o' evs) ⋏ Net (tr ++ evs) ∗ p ↦ blk o' hp l ∗ Queue l o'.pending ∗ Fd o.socket) := by
    rintro n o ns tr _ h rfl
    refine Triple.pure (entails_ex_r o (entails_ex_r [] (entails_pand_r ?_ (SendLoopC.done h))))
    rw [List.append_nil]
    unfold Queue
    rw [hex_sep, sep_hex, sep_hex]
    refine entails_ex_r ns ?_
    simp only [sep_assoc]
    sep_cancel
  induction n with
  | zero =>
    intro o ns tr hs
    refine Triple.know (φ := ns.length = o.pending.length) ?_ fun hl => ?_
    · rintro h ⟨_, _, _, _, _, ⟨_, _, _, _, _, ⟨_, _, _, _, _, ⟨_, _, _, _, hh, _⟩⟩⟩⟩
      have := hh.1; simpa using this
    refine Triple.know (know_ListR (h := l) (ns := ns) (by pick)) fun hk => ?_
    unfold sendLoop
    cases hp' : o.pending with
    | nil =>
      have : ns = [] := by rw [hp'] at hl; exact List.length_eq_zero_iff.1 (by simpa using hl)
      have h := hnil 0 o ns tr (fun b => pure b) hp' rfl
      rw [hp'] at h
      subst this
      simpa [first] using h
    | cons x xs =>
      cases ns with
      | nil => rw [hp'] at hl; simp at hl
      | cons a ns =>
        have ha : a.1 ≠ 0 := fun h0 => hk.2.2 (by simp [h0])
        rw [← hp']
        refine Triple.pure (entails_ex_r o (entails_ex_r [] (entails_pand_r ?_ ?_)))
        · rw [List.append_nil]
          unfold Queue
          rw [hex_sep, sep_hex, sep_hex]
          refine entails_ex_r (a :: ns) ?_
          simp only [sep_assoc]
          sep_cancel
        · have : decide (first (a :: ns) 0 = 0) = false := by simp [first, ha]
          rw [this]
          exact SendLoopC.cut (by simp [hp'])
  | succ n ih =>
    intro o ns tr hs
    refine Triple.know (φ := ns.length = o.pending.length) ?_ fun hl => ?_
    · rintro h ⟨_, _, _, _, _, ⟨_, _, _, _, _, ⟨_, _, _, _, _, ⟨_, _, _, _, hh, _⟩⟩⟩⟩
      have := hh.1; simpa using this
    refine Triple.know (know_ListR (h := l) (ns := ns) (by pick)) fun hk => ?_
    unfold sendLoop
    cases hp' : o.pending with
    | nil =>
      have : ns = [] := by rw [hp'] at hl; exact List.length_eq_zero_iff.1 (by simpa using hl)
      have h := hnil (n+1) o ns tr (fun b => pure b) hp' rfl
      rw [hp'] at h
      subst this
      rw [if_pos (by rfl)]
      exact h
    | cons x xs =>
      cases ns with
      | nil => rw [hp'] at hl; simp at hl
      | cons a ns =>
        obtain ⟨i, q⟩ := a
        have ha : i ≠ 0 := fun h0 => hk.2.2 (by simp [h0])
        rw [if_neg (by simpa [first] using ha)]
        step (list_item_get_value_spec (rel := rel) (h := l) (l1 := []) (l2 := ns) (n := (i, q)))
        simp only [List.nil_append, List.map_cons, Map.Own_cons, first, sep_assoc]
        refine Triple.know (φ := q ≠ 0) ?_ fun hq => ?_
        · unfold PendR
          intro h hh
          simp only [hex_sep, sep_hex, pand_sep, sep_pand, sep_assoc] at hh
          obtain ⟨b, hb, hh⟩ := hh
          exact know_pts (p := q) (φ := q ≠ 0) (by pick) (fun h1 _ => h1) h hh
        rw [if_neg hq]
        step (sendRoundC_spec H hc (d := d) (p := p) (hp := hp) (l := l) (q := q) (i := i) (o := o) (x := x) (xs := xs) (ns := ns) (tr := tr) hs)
        intro o1 e1 hR
        have hsame := hR.same
        stepd (loadPtr_spec (p := p) (q := l) ?_)
        unfold Queue
        hoist
        intro ns1
        try simp only [sep_assoc]
        step (list_get_head_item_spec (rel := rel) (h := l) (a := some ns1))
        have := ih o1 ns1 (tr ++ e1) (by rw [hsame.1]; exact hs)
        simp only [OList, ORep_some, Option.getD_some]
        refine this.conseq ?_ fun fin => ?_
        · rw [hsame.1]; sep_cancel
        · refine entails_ex_l fun o2 => entails_ex_l fun e2 => entails_pand_l fun h2 => entails_ex_r o2 (entails_ex_r (e1 ++ e2) (entails_pand_r ?_ (hR.loop hp' h2)))
          rw [List.append_assoc, hsame.1]
          exact entails_refl _

theorem SendE_some {oom : Prop} {bs : List UInt8} {cb ctx : Nat} {o : Obj} {r : Int} {a' : Option Obj} {evs : List Ev}
    (h : SendE oom (some bs) cb ctx (some o) r a' evs) : ∃ ps, a' = some { o with pending := ps } := by
  simp only [SendE] at h
  split at h
  · exact ⟨o.pending, h.2.1⟩
  · split at h
    · rcases h.2 with h | h
      · exact ⟨_, h.2⟩
      · exact ⟨o.pending, h.2.2⟩
    · rcases h with h | h | ⟨n, _, _, h | h⟩
      · exact ⟨o.pending, h.2.1⟩
      · exact ⟨o.pending, h.2.1⟩
      · exact ⟨_, h.2⟩
      · exact ⟨o.pending, h.2.2⟩

theorem SendIn.socket {oom : Prop} {c : Client} {d : Nat} : ∀ {o : Obj} {m : Pend} {r : Int} {o' : Obj} {e : List Ev}, SendIn oom c d o m r o' e →
    ∃ ps, o' = { o with pending := ps } := by
  induction d with
  | zero =>
    intro o m r o' e h
    obtain ⟨ps, h⟩ := SendE_some h
    exact ⟨ps, by simpa using h⟩
  | succ d ih =>
    rintro o m r o' e ⟨o1, e1, e2, h1, _, h2⟩
    obtain ⟨ps, h1⟩ := SendE_some h1
    simp only [Option.some.injEq] at h1
    subst h1
    rcases h2 with ⟨_, h2⟩ | ⟨_, rfl, _⟩
    · suffices hE : ∀ {o1 : Obj} {ms : List Pend} {o2 : Obj} {e : List Ev}, Each (fun o m o' e => ∃ r, SendIn oom c d o m r o' e) o1 ms o2 e →
          ∃ ps, o2 = { o1 with pending := ps } by
        obtain ⟨ps, h⟩ := hE h2
        exact ⟨ps, h⟩
      intro o1 ms o2 e h
      induction h with
      | nil => exact ⟨_, rfl⟩
      | cons h _ ih' =>
        obtain ⟨_, h⟩ := h
        obtain ⟨ps, h⟩ := ih h
        obtain ⟨qs, h'⟩ := ih'
        subst h
        exact ⟨qs, h'⟩
    · exact ⟨ps, rfl⟩

/-- the calls change nothing but the queue -/
theorem Each.only {oom : Prop} {c : Client} {d : Nat} {o1 : Obj} {ms : List Pend} {o2 : Obj} {e : List Ev}
    (h : Each (fun o m o' e => ∃ r, SendIn oom c d o m r o' e) o1 ms o2 e) : ∃ ps, o2 = { o1 with pending := ps } := by
  induction h with
  | nil => exact ⟨_, rfl⟩
  | cons h _ ih =>
    obtain ⟨_, h⟩ := h
    obtain ⟨ps, h⟩ := h.socket
    obtain ⟨qs, h'⟩ := ih
    subst h
    exact ⟨qs, h'⟩

theorem Each.socket {oom : Prop} {c : Client} {d : Nat} {o1 : Obj} {ms : List Pend} {o2 : Obj} {e : List Ev}
    (h : Each (fun o m o' e => ∃ r, SendIn oom c d o m r o' e) o1 ms o2 e) : o2.socket = o1.socket := by
  obtain ⟨ps, rfl⟩ := h.only; rfl

/-- the call with a completion callback that changes the handle as `R` says -/
theorem send_core_again (H : Honours rel os Net Fd Ai) {os' : Os} (hs1 : sendTo os' = sendTo os) (hs2 : indicate_error os' = indicate_error os)
    {s : CharPtr} {bs : List UInt8} {D : HProp} (hD : Src rel s bs D) (hs : s ≠ .null)
    (hm : bs.length ≤ maxObj) (cb ctx : Nat) (p : Ptr) {R : Obj → Obj → List Ev → Prop}
    (hcb : ∀ o tr, cb ≠ 0 → Triple rel (SockR Fd p o ∗ Net tr) (os'.on_send_complete cb ctx true)
      (fun _ => ∃∃ o' e, (R o o' e) ⋏ SockR Fd p o' ∗ Net (tr ++ .completed cb ctx true :: e)))
    (o : Obj) (tr : List Ev) :
    Triple rel ((SockR Fd p o ∗ Net tr) ∗ D) (socketio_send os' p s bs.length cb ctx)
      (fun r => ∃∃ o1 e1, ∃∃ o' e2, (SendE (¬ rel) (some bs) cb ctx (some o) r (some o1) e1 ∧
        ((Ev.completed cb ctx true ∈ e1 ∧ R o1 o' e2) ∨ (Ev.completed cb ctx true ∉ e1 ∧ o' = o1 ∧ e2 = []))) ⋏
        SockR Fd p o' ∗ Net (tr ++ (e1 ++ e2)) ∗ D) := by
  unfold socketio_send
  rw [hs1, hs2, SockR_eq]
  simp only [hex_sep, pand_sep, sep_assoc]
  hoist
  intro hp l h1 h2 h3
  refine Triple.know (know_pts (p := p) (φ := p ≠ 0) (by pick) fun h1 _ => h1) fun hp0 => ?_
  have fold : ∀ ps tr', p ↦ blk o hp l ∗ HostR hp o.host ∗ Queue l ps ∗ FdR Fd o.socket ∗ Net tr' ∗ D ⊢ₕ
      SockR Fd p { o with pending := ps } ∗ Net tr' ∗ D := by
    intro ps tr'
    refine entails_trans ?_ (sep_mono (SockR_intro (o := { o with pending := ps }) (hp := hp) (l := l) h1 h2 h3) (entails_refl _))
    simp only [sep_assoc]
    sep_cancel
  have finish : ∀ (r : Int) ps evs, SendE (¬ rel) (some bs) cb ctx (some o) r (some { o with pending := ps }) evs → Ev.completed cb ctx true ∉ evs →
      p ↦ blk o hp l ∗ HostR hp o.host ∗ Queue l ps ∗ FdR Fd o.socket ∗ Net (tr ++ evs) ∗ D ⊢ₕ
      ∃∃ o1 e1, ∃∃ o' e2, (SendE (¬ rel) (some bs) cb ctx (some o) r (some o1) e1 ∧
        ((Ev.completed cb ctx true ∈ e1 ∧ R o1 o' e2) ∨ (Ev.completed cb ctx true ∉ e1 ∧ o' = o1 ∧ e2 = []))) ⋏
        SockR Fd p o' ∗ Net (tr ++ (e1 ++ e2)) ∗ D := by
    intro r ps evs hE hne
    refine entails_ex_r { o with pending := ps } (entails_ex_r evs (entails_ex_r { o with pending := ps } (entails_ex_r [] (entails_pand_r ?_ ⟨hE, Or.inr ⟨hne, rfl, rfl⟩⟩))))
    rw [List.append_nil]
    exact fold ps _
  have same : ∀ (r : Int) evs, SendE (¬ rel) (some bs) cb ctx (some o) r (some o) evs → Ev.completed cb ctx true ∉ evs →
      p ↦ blk o hp l ∗ HostR hp o.host ∗ Queue l o.pending ∗ FdR Fd o.socket ∗ Net (tr ++ evs) ∗ D ⊢ₕ
      ∃∃ o1 e1, ∃∃ o' e2, (SendE (¬ rel) (some bs) cb ctx (some o) r (some o1) e1 ∧
        ((Ev.completed cb ctx true ∈ e1 ∧ R o1 o' e2) ∨ (Ev.completed cb ctx true ∉ e1 ∧ o' = o1 ∧ e2 = []))) ⋏
        SockR Fd p o' ∗ Net (tr ++ (e1 ++ e2)) ∗ D := by
    intro r evs hE hne
    exact finish r o.pending evs hE hne
  refine Triple.ite (fun h => ?_) (fun h => ?_)
  · have h0 : bs = [] := by
      rcases h with h | h | h
      · exact absurd h hp0
      · exact absurd h hs
      · exact List.length_eq_zero_iff.1 h
    refine Triple.pure (entails_trans ?_ (same 373 [] ?_ (by simp)))
    · rw [List.append_nil]; exact entails_refl _
    · simp only [SendE]
      rw [if_pos (Or.inl h0)]
      exact ⟨by decide, by trivial, by trivial⟩
  have hne : bs ≠ [] := by
    rintro rfl; exact h (Or.inr (Or.inr rfl))
  stepd (loadInt_spec (p := p) (n := o.state.code) ?_)
  refine Triple.ite (fun h => ?_) (fun h => ?_)
  · refine Triple.pure (entails_trans ?_ (same 381 [] ?_ (by simp)))
    · rw [List.append_nil]; sep_cancel
    · simp only [SendE]
      rw [if_pos (Or.inr fun h' => h (by rw [h']))]
      exact ⟨by decide, by trivial, by trivial⟩
  have hst : o.state = .opn := state_code.1 (Decidable.not_not.1 h)
  have hopen : ¬ (bs = [] ∨ o.state ≠ .opn) := by simp [hne, hst]
  have hso : o.socket ≠ -1 := h3 (by simp [hst])
  have hfd : FdR Fd o.socket = Fd o.socket := by unfold FdR; rw [if_neg hso]
  stepd (loadPtr_spec (p := p) (q := l) ?_)
  rw [Queue_eq]
  hoist
  intro ns
  try simp only [sep_assoc]
  refine Triple.know (φ := ns.length = o.pending.length) ?_ fun hl => ?_
  · intro hh hP
    have : Pick (p ↦ blk o hp l ∗ HostR hp o.host ∗ ListR l ns ∗ Own (PendR l) (List.map Prod.snd ns) o.pending ∗ FdR Fd o.socket ∗ Net tr ∗ D)
      (Own (PendR l) (List.map Prod.snd ns) o.pending) (p ↦ blk o hp l ∗ HostR hp o.host ∗ ListR l ns ∗ FdR Fd o.socket ∗ Net tr ∗ D) := by pick
    unfold Pick at this
    rw [this] at hP
    obtain ⟨_, _, _, _, hO, _⟩ := hP
    simpa using hO.1
  refine Triple.know (know_ListR (h := l) (ns := ns) (by pick)) fun hk => ?_
  step (list_get_head_item_spec (rel := rel) (h := l) (a := some ns))
  simp only [OList, ORep_some, Option.getD_some]
  have hzero : first ns 0 ≠ 0 ↔ o.pending ≠ [] := by
    cases ns with
    | nil =>
      have : o.pending = [] := List.length_eq_zero_iff.1 (by simpa using hl.symm)
      simp [first, this]
    | cons a ns =>
      have : o.pending ≠ [] := by intro h0; rw [h0] at hl; simp at hl
      have ha : a.1 ≠ 0 := fun h0 => hk.2.2 (by simp [h0])
      simp [first, this, ha]
  have toQ : ListR l ns ∗ Own (PendR l) (ns.map Prod.snd) o.pending ⊢ₕ Queue l o.pending := entails_ex_r ns (entails_refl _)
  have add := fun n => add_pending_io_spec (n := n) (rel := rel) (p := p) (hp := hp) (l := l) (o := o) (ps := o.pending) (s := s) (bs := bs) (D := D) (cb := cb) (ctx := ctx) hD hm
  refine Triple.ite (fun h => ?_) (fun h => ?_)
  · have hpd := hzero.1 h
    have hlen : 0 < bs.length := List.length_pos_iff.2 hne
    have := add 0 hlen
    rw [addPtr_zero, Nat.sub_zero, List.drop_zero] at this
    refine (fun h1 h2 => Triple.pre (P' := p ↦ blk o hp l ∗ HostR hp o.host ∗ Queue l o.pending ∗ FdR Fd o.socket ∗ Net tr ∗ D) h2 h1) ?_ ?_
    · refine entails_trans ?_ (sep_mono (entails_refl _) (sep_mono (entails_refl _) (sep_mono toQ (entails_refl _))))
      simp only [sep_assoc]; sep_cancel
    step this into r
    intro ps' hA
    rcases hA with ⟨rfl, rfl⟩ | ⟨hr, hrel, rfl⟩
    · rw [if_neg (by simp)]
      refine Triple.pure (entails_trans ?_ (finish 0 (o.pending ++ [⟨bs, cb, ctx⟩]) [] ?_ (by simp)))
      · rw [List.append_nil]; sep_cancel
      · simp only [SendE]
        rw [if_neg hopen, if_pos hpd]
        exact ⟨by trivial, Or.inl ⟨by trivial, by trivial⟩⟩
    · rw [if_pos hr]
      refine Triple.pure (entails_trans ?_ (same 391 [] ?_ (by simp)))
      · rw [List.append_nil]; sep_cancel
      · simp only [SendE]
        rw [if_neg hopen, if_pos hpd]
        exact ⟨by trivial, Or.inr ⟨by decide, hrel, by trivial⟩⟩
  have hpd : o.pending = [] := Decidable.not_not.1 fun h' => h (hzero.2 h')
  rw [hfd]
  stepd (loadI_spec (p := p) (off := fSocket) (z := o.socket) ?_ h1)
  step (sendTo_spec H hD (tr := tr) (fd := o.socket)) into r
  intro hr1 hr2 hr3
  have hsz : maxObj < szMod - 1 := by decide
  have hlen : 0 < bs.length := List.length_pos_iff.2 hne
  rw [hfd] at finish same fold
  refine (fun h1 h2 => Triple.pre (P' := p ↦ blk o hp l ∗ HostR hp o.host ∗ Queue l o.pending ∗ Fd o.socket ∗ Net (tr ++ [.send o.socket bs r]) ∗ D) h2 h1) ?_ ?_
  · refine entails_trans ?_ (sep_mono (entails_refl _) (sep_mono (entails_refl _) (sep_mono toQ (entails_refl _))))
    simp only [sep_assoc]; sep_cancel
  refine Triple.ite (fun hne' => ?_) (fun heq => ?_)
  · refine Triple.ite (fun h => ?_) (fun h => ?_)
    · subst h
      step (indicate_error_spec H (p := p) (hp := hp) (l := l) (o := o))
      refine Triple.pure (entails_trans ?_ (same 407 (.send o.socket bs (-1) :: evError o) ?_ (by unfold evError; split <;> simp)))
      · rw [List.append_assoc]; exact entails_trans (by sep_cancel) (entails_refl _)
      · simp only [SendE]
        rw [if_neg hopen, if_neg (by simp [hpd])]
        exact Or.inr (Or.inl ⟨by decide, by trivial, by trivial⟩)
    · have hr : 0 ≤ r := by unfold INVALID_SOCKET at h; omega
      have hn : r.toNat < bs.length := by
        have : (r % szMod).toNat = r.toNat := by
          rw [Int.emod_eq_of_lt hr (by omega)]
        omega
      have hev : [Ev.send o.socket bs r] = [Ev.send o.socket bs (r.toNat : Nat)] := by rw [Int.toNat_of_nonneg hr]
      rw [hev]
      step (add r.toNat hn) into r'
      intro ps' hA
      rcases hA with ⟨rfl, rfl⟩ | ⟨hr', hrel, rfl⟩
      · rw [if_neg (by simp)]
        refine Triple.pure (entails_trans ?_ (finish 0 (o.pending ++ [⟨bs.drop r.toNat, cb, ctx⟩]) [.send o.socket bs (r.toNat : Nat)] ?_ (by simp)))
        · sep_cancel
        · simp only [SendE]
          rw [if_neg hopen, if_neg (by simp [hpd])]
          exact Or.inr (Or.inr ⟨r.toNat, hn, rfl, Or.inl ⟨by trivial, by rw [hpd]; rfl⟩⟩)
      · rw [if_pos hr']
        refine Triple.pure (entails_trans ?_ (same 415 [.send o.socket bs (r.toNat : Nat)] ?_ (by simp)))
        · sep_cancel
        · simp only [SendE]
          rw [if_neg hopen, if_neg (by simp [hpd])]
          exact Or.inr (Or.inr ⟨r.toNat, hn, rfl, Or.inr ⟨by decide, hrel, by trivial⟩⟩)
  · have hr : r = bs.length := by
      by_cases h0 : r = -1
      · subst h0; exfalso; apply heq
        have : ((-1 : Int) % szMod).toNat = szMod - 1 := by decide
        omega
      · have : (r % szMod).toNat = r.toNat := by rw [Int.emod_eq_of_lt (a := r) (b := szMod) (by omega) (by omega)]
        omega
    subst hr
    refine Triple.ite (fun h => ?_) (fun h => ?_)
    · refine (fun h1 h2 => Triple.pre (P' := SockR Fd p o ∗ Net (tr ++ [.send o.socket bs bs.length]) ∗ D) h2 h1) ?_ ?_
      · exact fold o.pending _
      step (hcb o (tr ++ [.send o.socket bs bs.length]) h)
      intro o' e hR
      refine Triple.pure (entails_ex_r o (entails_ex_r [.send o.socket bs bs.length, .completed cb ctx true] (entails_ex_r o' (entails_ex_r e
        (entails_pand_r ?_ ⟨?_, Or.inl ⟨by simp, hR⟩⟩)))))
      · simp only [List.append_assoc, List.cons_append, List.nil_append]; sep_cancel
      · simp only [SendE]
        rw [if_neg hopen, if_neg (by simp [hpd])]
        exact Or.inl ⟨by trivial, by trivial, by simp [evCompleted, h]⟩
    · refine Triple.pure (entails_trans ?_ (same 0 [.send o.socket bs bs.length] ?_ (by simp)))
      · exact entails_refl _
      · simp only [SendE]
        rw [if_neg hopen, if_neg (by simp [hpd])]
        exact Or.inl ⟨by trivial, by trivial, by simp [evCompleted]; omega⟩

/-- calls one after the other -/
theorem sendAll_spec {os' : Os} {p : Ptr} {S : Obj → Pend → Int → Obj → List Ev → Prop}
    (hS : ∀ m o tr, m.bytes.length ≤ maxObj → Triple rel (SockR Fd p o ∗ Net tr) (socketio_send os' p (.lit m.bytes) m.bytes.length m.cb m.ctx)
      (fun r => ∃∃ o' e, (S o m r o' e) ⋏ SockR Fd p o' ∗ Net (tr ++ e))) (ms : List Pend) : ∀ (o : Obj) (tr : List Ev), (∀ m ∈ ms, m.bytes.length ≤ maxObj) →
    Triple rel (SockR Fd p o ∗ Net tr) (sendAll os' p ms)
      (fun _ => ∃∃ o' e, (Each (fun o m o' e => ∃ r, S o m r o' e) o ms o' e) ⋏ SockR Fd p o' ∗ Net (tr ++ e)) := by
  induction ms with
  | nil =>
    intro o tr _
    refine Triple.pure (entails_ex_r o (entails_ex_r [] (entails_pand_r ?_ Each.nil)))
    rw [List.append_nil]; exact entails_refl _
  | cons m ms ih =>
    intro o tr hm
    unfold sendAll
    step (hS m o tr (hm m (by simp))) into r
    intro o1 e1 h1
    refine (ih o1 (tr ++ e1) fun m h => hm m (by simp [h])).conseq (entails_refl _) fun _ => ?_
    refine entails_ex_l fun o2 => entails_ex_l fun e2 => entails_pand_l fun h2 => entails_ex_r o2 (entails_ex_r (e1 ++ e2) (entails_pand_r ?_ (Each.cons ⟨r, h1⟩ h2)))
    rw [List.append_assoc]; exact entails_refl _

/-- `socketio_send` by a client that sends in its callbacks -/
theorem sendIn_spec (H : Honours rel os Net Fd Ai) {c : Client} (hc : c.fits) {p : Ptr} (d : Nat) : ∀ (m : Pend) (o : Obj) (tr : List Ev), m.bytes.length ≤ maxObj →
    Triple rel (SockR Fd p o ∗ Net tr) (socketio_send (nest os c p d) p (.lit m.bytes) m.bytes.length m.cb m.ctx)
      (fun r => ∃∃ o' e, (SendIn (¬ rel) c d o m r o' e) ⋏ SockR Fd p o' ∗ Net (tr ++ e)) := by
  induction d with
  | zero =>
    intro m o tr hm
    have := send_core H (Src_lit (rel := rel) (List.prefix_refl m.bytes) hm) (by simp) hm m.cb m.ctx p o tr
    refine this.conseq (by rw [sep_emp]; exact entails_refl _) fun r => ?_
    rw [sep_emp]
    refine entails_ex_l fun a' => entails_ex_l fun e => entails_pand_l fun hE => ?_
    obtain ⟨ps, rfl⟩ := SendE_some hE
    exact entails_ex_r _ (entails_ex_r e (entails_pand_r (by rw [ORep_some]; exact entails_refl _) hE))
  | succ d ih =>
    intro m o tr hm
    have := send_core_again H (os' := nest os c p (d + 1)) (sendTo_nest c p (d + 1)) (error_nest c p (d + 1)) (Src_lit (rel := rel) (List.prefix_refl m.bytes) hm)
      (by simp) hm m.cb m.ctx p (R := fun o o' e => Each (fun o m o' e => ∃ r, SendIn (¬ rel) c d o m r o' e) o (c.done m.cb m.ctx) o' e)
      (fun o tr h => by
        simp only [nest]
        step (H.on_send_complete m.cb m.ctx true tr h)
        refine (sendAll_spec (S := SendIn (¬ rel) c d) (fun m o tr hm => ih m o tr hm) (c.done m.cb m.ctx) o (tr ++ [.completed m.cb m.ctx true]) (hc.done _ _)).conseq (by sep_cancel) fun _ => ?_
        simp only [List.append_assoc, List.cons_append, List.nil_append]
        exact entails_refl _) o tr
    refine this.conseq (by rw [sep_emp]; exact entails_refl _) fun r => ?_
    simp only [sep_emp]
    refine entails_ex_l fun o1 => entails_ex_l fun e1 => entails_ex_l fun o' => entails_ex_l fun e2 => entails_pand_l fun h => ?_
    exact entails_ex_r o' (entails_ex_r (e1 ++ e2) (entails_pand_r (entails_refl _) ⟨o1, e1, e2, h.1, rfl, h.2⟩))

/-- the receiving loop -/
theorem recvLoopC_spec (H : Honours rel os Net Fd Ai) {c : Client} (hc : c.fits) {d : Nat} {p : Ptr} (n : Nat) : ∀ (o : Obj) (tr : List Ev), o.socket ≠ -1 →
    Triple rel (SockR Fd p o ∗ Net tr) (recvLoop (nest os c p (d + 1)) p n)
      (fun fin => ∃∃ o' evs, (RecvLoopC (¬ rel) c d n o fin o' evs) ⋏ SockR Fd p o' ∗ Net (tr ++ evs)) := by
  induction n with
  | zero =>
    intro o tr _
    refine Triple.pure (entails_ex_r o (entails_ex_r [] (entails_pand_r ?_ RecvLoopC.cut)))
    rw [List.append_nil]; exact entails_refl _
  | succ n ih =>
    intro o tr hso
    have hfd : FdR Fd o.socket = Fd o.socket := by unfold FdR; rw [if_neg hso]
    unfold recvLoop
    rw [recv_nest, SockR_eq]
    hoist
    intro hp l h1 h2 h3
    have fold : ∀ tr', p ↦ blk o hp l ∗ HostR hp o.host ∗ Queue l o.pending ∗ Fd o.socket ∗ Net tr' ⊢ₕ SockR Fd p o ∗ Net tr' := by
      intro tr'
      refine entails_trans ?_ (sep_mono (SockR_intro (hp := hp) (l := l) h1 h2 h3) (entails_refl _))
      rw [hfd]
      simp only [sep_assoc]
      sep_cancel
    stepd (loadI_spec (p := p) (z := o.socket) ?_ h1)
    rw [hfd]
    step (H.recv o.socket tr) into x
    intro hx1 hx2
    refine Triple.ite (fun h => ?_) (fun h => ?_)
    · have hx : x.1 = 1 := by omega
      rw [hx]
      stepd (loadPtr_spec (p := p) (q := o.onBytes) ?_)
      refine Triple.ite (fun hf => ?_) (fun hf => ?_)
      · stepd (loadPtr_spec (p := p) (q := o.onBytesCtx) ?_)
        refine (fun h1 h2 => Triple.pre (P' := SockR Fd p o ∗ Net (tr ++ [.recv o.socket 1 x.2])) h2 h1) (entails_trans (by sep_cancel) (fold _)) ?_
        simp only [nest, bind_assoc]
        step (H.on_bytes_received o.onBytes o.onBytesCtx [x.2] (tr ++ [.recv o.socket 1 x.2]) hf)
        step (sendAll_spec (rel := rel) (Fd := Fd) (Net := Net) (os' := nest os c p d) (p := p) (S := SendIn (¬ rel) c d) (fun m o tr hm => sendIn_spec H hc d m o tr hm) (c.got o.onBytes o.onBytesCtx [x.2]) o
          (tr ++ [.recv o.socket 1 x.2] ++ [.received o.onBytes o.onBytesCtx [x.2]]) (hc.got _ _ _))
        intro o1 e1 hE
        have hs := hE.socket
        refine (ih o1 _ (by rw [hs]; exact hso)).conseq (entails_refl _) fun fin => ?_
        refine entails_ex_l fun o2 => entails_ex_l fun e2 => entails_pand_l fun h2 => entails_ex_r o2 (entails_ex_r _ (entails_pand_r ?_
          (RecvLoopC.more (b := x.2) (e1 := e1) (o1 := o1) (by rw [if_neg hf]; exact hE) h2)))
        simp only [evReceived, if_neg hf, List.append_assoc, List.cons_append, List.nil_append]
        exact entails_refl _
      · have hf0 : o.onBytes = 0 := by omega
        refine (fun h1 h2 => Triple.pre (P' := SockR Fd p o ∗ Net (tr ++ [.recv o.socket 1 x.2])) h2 h1) (entails_trans (by sep_cancel) (fold _)) ?_
        refine (ih o _ hso).conseq (entails_refl _) fun fin => ?_
        refine entails_ex_l fun o2 => entails_ex_l fun e2 => entails_pand_l fun h2 => entails_ex_r o2 (entails_ex_r _ (entails_pand_r ?_
          (RecvLoopC.more (b := x.2) (e1 := []) (o1 := o) (by rw [if_pos hf0]; exact Each.nil) h2)))
        simp only [evReceived, if_pos hf0, List.append_assoc, List.cons_append, List.nil_append]
        exact entails_refl _
    · refine Triple.pure (entails_ex_r o (entails_ex_r _ (entails_pand_r (entails_trans (by sep_cancel) (fold _)) (RecvLoopC.last (r := x.1) (b := x.2) (by omega)))))

/-- `socketio_dowork` for a client that sends in its callbacks, which are nested at most `d + 1` deep -/
theorem doworkC_spec (H : Honours rel os Net Fd Ai) {c : Client} (hc : c.fits) (d n m : Nat) (p : Ptr) (o : Obj) (tr : List Ev) :
    Triple rel (SockR Fd p o ∗ Net tr) (socketio_dowork (nest os c p (d + 1)) n m p)
      (fun fin => ∃∃ o' evs, (DoworkC (¬ rel) c d n m o fin o' evs) ⋏ SockR Fd p o' ∗ Net (tr ++ evs)) := by
  unfold socketio_dowork
  rw [SockR_eq]
  hoist
  intro hp l h1 h2 h3
  refine Triple.know (know_pts (p := p) (φ := p ≠ 0) (by pick) fun h1 _ => h1) fun hp0 => ?_
  rw [if_neg hp0]
  stepd (loadInt_spec (p := p) (n := o.state.code) ?_)
  refine Triple.ite (fun h => ?_) (fun h => ?_)
  · refine Triple.pure (entails_ex_r o (entails_ex_r [] (entails_pand_r ?_ ?_)))
    · rw [List.append_nil]
      refine entails_trans ?_ (sep_mono (SockR_intro (hp := hp) (l := l) h1 h2 h3) (entails_refl _))
      simp only [sep_assoc]
      sep_cancel
    · simp only [DoworkC]
      rw [if_pos (fun h' => h (by rw [h']))]
      exact ⟨by trivial, by trivial, by trivial⟩
  · have hst : o.state = .opn := by
      apply state_code.1; exact Decidable.not_not.1 h
    have hso := h3 (by simp [hst])
    have hfd : FdR Fd o.socket = Fd o.socket := by unfold FdR; rw [if_neg hso]
    stepd (loadPtr_spec (p := p) (q := l) ?_)
    rw [Queue_eq]
    hoist
    intro ns
    try simp only [sep_assoc]
    step (list_get_head_item_spec (rel := rel) (h := l) (a := some ns))
    simp only [OList, ORep_some, Option.getD_some, hfd]
    step (sendLoopC_spec H hc (d := d) (p := p) (hp := hp) (l := l) n o ns tr h1) into fin
    intro o1 e1 hL
    have hs := hL.same
    have back : ∀ tr', Net tr' ∗ p ↦ blk o1 hp l ∗ Queue l o1.pending ∗ Fd o.socket ∗ HostR hp o.host ⊢ₕ SockR Fd p o1 ∗ Net tr' := by
      intro tr'
      refine entails_trans ?_ (sep_mono (SockR_intro (o := o1) (hp := hp) (l := l) (by rw [hs.1]; exact h1) (by rw [hs.2.2.1]; exact h2) (fun _ => by rw [hs.1]; exact hso)) (entails_refl _))
      rw [hs.1, hs.2.1, hfd]
      simp only [sep_assoc]
      sep_cancel
    cases fin with
    | false =>
      simp only [Bool.false_eq_true, if_false]
      refine Triple.pure (entails_ex_r o1 (entails_ex_r e1 (entails_pand_r ?_ ?_)))
      · refine entails_trans ?_ (back _)
        sep_cancel
      · simp only [DoworkC]
        rw [if_neg (by simp [hst])]
        exact Or.inl ⟨by trivial, hL⟩
    | true =>
      simp only [if_true]
      refine (fun h1 h2 => Triple.pre (P' := SockR Fd p o1 ∗ Net (tr ++ e1)) h2 h1) (entails_trans (by sep_cancel) (back _)) ?_
      refine (recvLoopC_spec H hc (d := d) (p := p) m o1 (tr ++ e1) (by rw [hs.1]; exact hso)).conseq (entails_refl _) fun fin => ?_
      refine entails_ex_l fun o2 => entails_ex_l fun e2 => entails_pand_l fun h2 => entails_ex_r o2 (entails_ex_r (e1 ++ e2) (entails_pand_r ?_ ?_))
      · rw [List.append_assoc]; exact entails_refl _
      · simp only [DoworkC]
        rw [if_neg (by simp [hst])]
        exact Or.inr ⟨o1, e1, e2, by trivial, hL, h2⟩

end Verif.Sock
