import Verif.Sock.Spec
import Verif.List.Props
import Verif.Headers.Props
import Verif.Hmac.Sha256
import Verif.Tac
/-! # C47, C48: the calls of the socket IO meet their descriptions -/
namespace Verif.Sock
open Verif.List Verif.Headers
variable {rel : Prop} {os : Os} {Net : List Ev → HProp} {Fd : Int → HProp} {Ai : Nat → HProp}

/-- range of `int` -/
def i32 (z : Int) : Prop := -(2 ^ 31) ≤ z ∧ z < 2 ^ 31

/-- the block of a host name -/
def HostR (hp : Nat) (h : Option (List UInt8)) : HProp := HostArg (hostArg hp) h

/-- one pending IO -/
def PendR (l : Nat) (q : Nat) (x : Pend) : HProp :=
  ∃∃ b : Nat, (x.bytes ≠ [] ∧ x.bytes.length ≤ maxObj) ⋏ q ↦ [.ptr b, .int x.bytes.length, .ptr x.cb, .ptr x.ctx, .ptr l] ∗ b ↦ bytesV x.bytes

def FdR (Fd : Int → HProp) (fd : Int) : HProp := if fd = -1 then emp else Fd fd

/-- the instance structure -/
def blk (o : Obj) (hp l : Nat) : Block :=
  [intV o.socket, .ptr o.logger, .ptr o.onBytes, .ptr o.onErr, .ptr o.onBytesCtx, .ptr o.onErrCtx, .ptr hp, intV o.port, stateV o.state, .ptr l]

/-- the queue -/
def Queue (l : Nat) (ps : List Pend) : HProp :=
  ∃∃ ns : Items, ListR l ns ∗ Own (PendR l) (ns.map Prod.snd) ps

/-- a handle -/
def SockR (Fd : Int → HProp) (p : Ptr) (o : Obj) : HProp :=
  ∃∃ hp l : Nat, (i32 o.socket ∧ i32 o.port ∧ (o.state ≠ .closed → o.socket ≠ -1)) ⋏
    p ↦ blk o hp l ∗ HostR hp o.host ∗ Queue l o.pending ∗ FdR Fd o.socket

theorem SockR_eq {p : Ptr} {o : Obj} : SockR Fd p o = (∃∃ hp l : Nat, (i32 o.socket ∧ i32 o.port ∧ (o.state ≠ .closed → o.socket ≠ -1)) ⋏
    p ↦ blk o hp l ∗ HostR hp o.host ∗ Queue l o.pending ∗ FdR Fd o.socket) := rfl

theorem Queue_eq {l : Nat} {ps : List Pend} : Queue l ps = (∃∃ ns : Items, ListR l ns ∗ Own (PendR l) (ns.map Prod.snd) ps) := rfl

/-- building a handle -/
theorem SockR_intro {p : Ptr} {o : Obj} {hp l : Nat} (h1 : i32 o.socket) (h2 : i32 o.port) (h3 : o.state ≠ .closed → o.socket ≠ -1) :
    p ↦ blk o hp l ∗ HostR hp o.host ∗ Queue l o.pending ∗ FdR Fd o.socket ⊢ₕ SockR Fd p o :=
  entails_ex_r hp (entails_ex_r l (entails_pand_r (entails_refl _) ⟨h1, h2, h3⟩))

theorem loadI_spec {p off : Nat} {b : Block} {z : Int} (h : b[off]? = some (intV z)) (hz : i32 z) :
    Triple rel (p ↦ b) (loadI p off) (fun r => (r = z) ⋏ p ↦ b) := by
  unfold loadI
  stepd (loadInt_spec (n := (z % 2 ^ 32).toNat) ?_)
  refine Triple.pure (entails_pand_r (entails_refl _) ?_)
  unfold i32 at hz
  split <;> omega

/-- `D` owns a buffer of the bytes `bs` at `s` -/
structure Src (rel : Prop) (s : CharPtr) (bs : List UInt8) (D : HProp) : Prop where
  read : Triple rel D (Hmac.readBytes s bs.length) (fun r => (r = bs) ⋏ D)
  copy : ∀ n dst, n ≤ bs.length → Triple rel (dst ↦ List.replicate (bs.length - n) .undef ∗ D) (memcpy dst 0 (addPtr s n) (bs.length - n))
    (fun _ => dst ↦ bytesV (bs.drop n) ∗ D)

theorem Src_block {b : Ptr} {off : Nat} {vs : List Val} {bs : List UInt8} (ho : off ≤ vs.length) (h : bytesV bs <+: vs.drop off) :
    Src rel (.heap b off) bs (b ↦ vs) := by
  obtain ⟨w, hw⟩ := h
  have hl : (bytesV bs ++ w).length = vs.length - off := by rw [hw]; simp
  simp [bytesV] at hl
  refine ⟨?_, fun n dst hn => ?_⟩
  · unfold Hmac.readBytes
    refine Triple.ite (fun h => ?_) (fun h => ?_)
    · refine Triple.pure (entails_pand_r (entails_refl _) ?_)
      exact (List.length_eq_zero_iff.1 h).symm
    · stepd (storage_pts (p := b) (off := off) (vs := vs) ho)
      rw [← hw, if_pos (by simp [bytesV]), List.take_append_of_le_length (by simp [bytesV]), List.take_of_length_le (by simp [bytesV]), Hmac.go_bytes]
      exact Triple.pure (entails_pand_r (entails_refl _) rfl)
  · refine (memcpy_heap (dst := dst) (p := b) (off := 0) (o := off + n) (n := bs.length - n) (b := List.replicate (bs.length - n) .undef) (vs := vs)
      (by omega) (by simp)).conseq (entails_refl _) fun _ => entails_of_eq ?_
    have e : (vs.drop (off + n)).take (bs.length - n) = bytesV (bs.drop n) := by
      rw [← List.drop_drop, ← hw, List.drop_append_of_le_length (by simp [bytesV]; exact hn), List.take_append_of_le_length (by simp [bytesV]),
        List.take_of_length_le (by simp [bytesV])]
      simp [bytesV]
    rw [e, patch_full (by simp [bytesV])]

theorem Src_lit {l bs : List UInt8} (h : bs <+: l) (hm : l.length ≤ maxObj) : Src rel (.lit l) bs emp := by
  have hl := h.length_le
  refine ⟨?_, fun n dst hn => ?_⟩
  · have := Hmac.readBytes_spec (rel := rel) (p := .lit l) (bs := bs) (n := bs.length) (Nat.le_refl _)
    rw [Data_lit h hm, List.take_length] at this
    exact this
  · have h' : bs.drop n <+: l.drop n := by
      obtain ⟨w, rfl⟩ := h
      exact ⟨w, by rw [List.drop_append_of_le_length hn]⟩
    have := memcpy_data (rel := rel) (dst := dst) (off := 0) (n := bs.length - n) (src := .lit (l.drop n)) (b := List.replicate (bs.length - n) .undef)
      (bs := bs.drop n) (by simp) (by simp)
    rw [Data_lit h' (by simp; omega), List.take_of_length_le (by simp), patch_full (by simp [bytesV])] at this
    exact this

/-- the caller's buffer -/
theorem Src_data {s : CharPtr} {bs : List UInt8} {β : Type} {c : M β} {P : HProp} {Q : β → HProp} (hs : s ≠ .null)
    (h : ∀ D, Src rel s bs D → Triple rel (P ∗ D) c (fun r => Q r ∗ D)) : Triple rel (P ∗ Data s bs) c (fun r => Q r ∗ Data s bs) := by
  cases s with
  | null => exact absurd rfl hs
  | lit l =>
    unfold Data
    hoist
    intro h1 h2
    refine (h emp (Src_lit h1 h2)).conseq (by rw [sep_emp]; exact entails_refl _) fun r => ?_
    exact sep_mono (entails_refl _) (entails_pand_r (entails_refl _) ⟨h1, h2⟩)
  | heap p off =>
    unfold Data
    hoist
    intro vs h1 h2
    refine (h (p ↦ vs) (Src_block h1 h2)).conseq (entails_refl _) fun r => ?_
    exact sep_mono (entails_refl _) (entails_ex_r vs (entails_pand_r (entails_refl _) ⟨h1, h2⟩))

/-- `send` from a buffer -/
theorem sendTo_spec (H : Honours rel os Net Fd Ai) {fd : Int} {s : CharPtr} {bs : List UInt8} {D : HProp} (hD : Src rel s bs D) {tr : List Ev} :
    Triple rel (Net tr ∗ Fd fd ∗ D) (sendTo os fd s bs.length)
      (fun r => (-1 ≤ r ∧ r ≤ bs.length ∧ r < 2 ^ 31) ⋏ Net (tr ++ [.send fd bs r]) ∗ Fd fd ∗ D) := by
  unfold sendTo
  step hD.read
  last (H.send fd bs tr)
  rename_i r
  rw [pand_sep, sep_assoc]
  exact entails_pand_l fun h => entails_pand_r (by sep_cancel) h

/-- `indicate_error` on the instance block -/
theorem indicate_error_spec (H : Honours rel os Net Fd Ai) {p hp l : Nat} {o : Obj} {tr : List Ev} :
    Triple rel (Net tr ∗ p ↦ blk o hp l) (indicate_error os p) (fun _ => Net (tr ++ evError o) ∗ p ↦ blk o hp l) := by
  unfold indicate_error
  stepd (loadPtr_spec (p := p) (q := o.onErr) ?_)
  refine Triple.ite (fun h => ?_) (fun h => ?_)
  · stepd (loadPtr_spec (p := p) (q := o.onErrCtx) ?_)
    last (H.on_io_error o.onErr o.onErrCtx tr h)
    unfold evError; rw [if_neg h]; exact entails_refl _
  · refine Triple.pure ?_
    unfold evError; rw [if_pos (by omega), List.append_nil]; sep_cancel

theorem Queue_snoc {l q r : Nat} {ns : Items} {ps : List Pend} {x : Pend} :
    ListR l (ns ++ [(r, q)]) ∗ PendR l q x ∗ Own (PendR l) (ns.map Prod.snd) ps ⊢ₕ Queue l (ps ++ [x]) := by
  unfold Queue
  refine entails_ex_r (ns ++ [(r, q)]) (sep_mono (entails_refl _) ?_)
  rw [List.map_append]
  exact Own_snoc

/-- appending to the queue -/
theorem add_pending_io_spec {p hp l : Nat} {o : Obj} {ps : List Pend} {s : CharPtr} {bs : List UInt8} {D : HProp} {n cb ctx : Nat}
    (hD : Src rel s bs D) (hm : bs.length ≤ maxObj) (hn : n < bs.length) :
    Triple rel (p ↦ blk o hp l ∗ Queue l ps ∗ D) (add_pending_io p (addPtr s n) (bs.length - n) cb ctx)
      (fun r => ∃∃ ps', ((r = 0 ∧ ps' = ps ++ [⟨bs.drop n, cb, ctx⟩]) ∨ (r ≠ 0 ∧ ¬ rel ∧ ps' = ps)) ⋏
        p ↦ blk o hp l ∗ Queue l ps' ∗ D) := by
  unfold add_pending_io
  refine Triple.mallocS (by decide) (fun hr => ?_) fun q hq => ?_
  · rw [if_pos rfl]
    exact Triple.pure (entails_ex_r ps (entails_pand_r (entails_refl _) (Or.inr ⟨by decide, hr, rfl⟩)))
  rw [if_neg hq]
  hoist
  refine Triple.malloc (fun hr => ?_) fun b hb _ => ?_
  · stepd (store_spec (p := q) ?_)
    rw [if_pos rfl]
    step free_spec
    exact Triple.pure (entails_ex_r ps (entails_pand_r (entails_refl _) (Or.inr ⟨by decide, hr.resolve_right (by omega), rfl⟩)))
  stepd (store_spec (p := q) ?_)
  rw [if_neg hb]
  stepd (store_spec (p := q) ?_)
  stepd (store_spec (p := q) ?_)
  stepd (store_spec (p := q) ?_)
  stepd (loadPtr_spec (p := p) (q := l) ?_)
  stepd (store_spec (p := q) ?_)
  step (hD.copy n b (by omega))
  stepd (loadPtr_spec (p := p) (q := l) ?_)
  unfold Queue
  hoist
  intro ns
  step (list_add_spec (h := l) (v := q) (a := some ns)) into r
  intro a' hA
  rcases hA with ⟨rfl, rfl, h⟩ | ⟨ns', h1, h2, h3, h4, rfl⟩
  · rw [if_pos rfl]
    stepd (loadPtr_spec (p := q) (q := b) ?_)
    step (free_spec (p := b))
    step (free_spec (p := q))
    refine Triple.pure (entails_ex_r ps (entails_pand_r ?_ (Or.inr ⟨by decide, ?_, rfl⟩)))
    · rw [hex_sep, sep_hex]
      refine entails_ex_r ns ?_
      simp only [OList, ORep_some, sep_assoc]
      sep_cancel
    · rcases h with h | h | h
      · simp at h
      · exact absurd h hq
      · exact h
  · simp at h1
    subst h1
    rw [if_neg h3]
    refine Triple.pure (entails_ex_r _ (entails_pand_r ?_ (Or.inl ⟨rfl, rfl⟩)))
    refine entails_trans ?_ (sep_mono (entails_refl _) (sep_mono (Queue_snoc (ns := ns) (r := r) (q := q)) (entails_refl _)))
    simp only [OList, ORep_some]
    have hx : q ↦ [.ptr b, .int (bs.length - n), .ptr cb, .ptr ctx, .ptr l] ∗ b ↦ bytesV (bs.drop n) ⊢ₕ PendR l q ⟨bs.drop n, cb, ctx⟩ := by
      refine entails_ex_r b (entails_pand_r ?_ ⟨?_, ?_⟩)
      · rw [List.length_drop]; exact entails_refl _
      · simp; omega
      · simp only [List.length_drop]; omega
    refine entails_trans ?_ (sep_mono (entails_refl _) (sep_mono (sep_mono (entails_refl _) (sep_mono hx (entails_refl _))) (entails_refl _)))
    simp only [sep_assoc]
    sep_cancel

/-! ## The queue -/

theorem Queue_nil {l : Nat} {ns : Items} : Own (PendR l) (ns.map Prod.snd) [] ⊢ₕ (ns = []) ⋏ emp := by
  intro h hh
  have hl := hh.1
  have : ns = [] := by
    cases ns with
    | nil => rfl
    | cons a b => simp at hl
  subst this
  refine ⟨rfl, ?_⟩
  have : Own (PendR l) (List.map (Prod.snd : Nat × Nat → Nat) []) [] = emp := Own_nil _
  rw [← this]; exact hh

/-- the first round of a send loop: what can happen, and the queue and state after it -/
inductive Round (o : Obj) (x : Pend) (xs : List Pend) : Obj → List Ev → Prop
  | whole : Round o x xs { o with pending := xs } (.send o.socket x.bytes x.bytes.length :: evCompleted x.cb x.ctx)
  | fail : Round o x xs { o with pending := xs, state := .error } (.send o.socket x.bytes (-1) :: evError o)
  | part (n : Nat) : n < x.bytes.length →
      Round o x xs { o with pending := { x with bytes := shift n x.bytes } :: xs } [.send o.socket x.bytes n]

theorem Round.loop {o o1 o' : Obj} {x : Pend} {xs : List Pend} {e1 e2 : List Ev} {fin : Bool} (hp : o.pending = x :: xs)
    (h : Round o x xs o1 e1) (h2 : SendLoop k o1 fin o' e2) : SendLoop (k + 1) o fin o' (e1 ++ e2) := by
  cases h with
  | whole => exact SendLoop.whole hp h2
  | fail => exact SendLoop.fail hp h2
  | part n hn => exact SendLoop.part n hp hn h2

theorem Round.same {o o1 : Obj} {x : Pend} {xs : List Pend} {e1 : List Ev} (h : Round o x xs o1 e1) :
    o1.socket = o.socket ∧ o1.host = o.host ∧ o1.port = o.port ∧ (o1.state = o.state ∨ o1.state = .error) := by
  cases h <;> simp

theorem SendLoop.same {o o' : Obj} {fin : Bool} {k : Nat} {evs : List Ev} (h : SendLoop k o fin o' evs) :
    o'.socket = o.socket ∧ o'.host = o.host ∧ o'.port = o.port ∧ (o'.state = o.state ∨ o'.state = .error) := by
  induction h with
  | done => simp
  | cut => simp
  | whole _ _ ih => simpa using ih
  | fail _ _ ih =>
    refine ⟨ih.1, ih.2.1, ih.2.2.1, Or.inr ?_⟩
    rcases ih.2.2.2 with h | h <;> exact h
  | part _ _ _ _ ih => simpa using ih

theorem filter_head {i q : Nat} {ns : Items} (h : (((i, q) :: ns).map Prod.fst).Nodup) : ((i, q) :: ns).filter (fun n => n.1 ≠ i) = ns := by
  simp only [List.map_cons, List.nodup_cons] at h
  rw [List.filter_cons_of_neg (by simp)]
  exact filter_out h.1

/-- removing the first item -/
theorem remove_head {l i q : Nat} {ns : Items} :
    Triple rel (ListR l ((i, q) :: ns)) (list_remove l i) (fun r => (r = 0) ⋏ ListR l ns) := by
  refine Triple.know (know_ListR (h := l) (by pick)) fun hk => ?_
  refine (list_remove_spec (h := l) (item := i) (a := some ((i, q) :: ns))).conseq (entails_refl _) fun r => ?_
  refine entails_ex_l fun a' => entails_pand_l fun h => ?_
  rcases h with ⟨rfl, ns', h1, _, rfl⟩ | ⟨_, _, h3⟩
  · simp at h1
    subst h1
    rw [filter_head hk.2.1]
    exact entails_pand_r (entails_refl _) rfl
  · exact absurd (by simp) (h3 _ rfl)

theorem bytesV_length {bs : List UInt8} : (bytesV bs).length = bs.length := by simp [bytesV]

theorem patch_shift {bs : List UInt8} {n : Nat} :
    patch (bytesV bs) 0 (((bytesV bs).drop n).take (bs.length - n)) = bytesV (shift n bs) := by
  have e : ((bytesV bs).drop n).take (bs.length - n) = (bytesV bs).drop n := List.take_of_length_le (by simp [bytesV])
  rw [e]
  simp [patch, shift, bytesV]

theorem shift_length {bs : List UInt8} {n : Nat} : (shift n bs).length = bs.length := by
  simp [shift]

theorem finishPending_spec {p hp l q i : Nat} {o : Obj} {x : Pend} {ns : Items} :
    Triple rel (p ↦ blk o hp l ∗ ListR l ((i, q) :: ns) ∗ PendR l q x) (finishPending os p q i)
      (fun _ => p ↦ blk o hp l ∗ ListR l ns) := by
  unfold finishPending PendR
  hoist
  intro b h1 h2
  stepd (loadPtr_spec (p := q) (q := b) ?_)
  step (free_spec (p := b))
  step (free_spec (p := q))
  stepd (loadPtr_spec (p := p) (q := l) ?_)
  step (remove_head (rel := rel) (l := l) (i := i) (q := q) (ns := ns))
  rw [if_neg (by simp)]
  refine Triple.pure ?_
  sep_cancel

/-- one round of the sending loop -/
theorem sendRound_spec (H : Honours rel os Net Fd Ai) {p hp l q i : Nat} {o : Obj} {x : Pend} {xs : List Pend} {ns : Items} {tr : List Ev}
    (hs : i32 o.socket) :
    Triple rel (Net tr ∗ p ↦ blk o hp l ∗ ListR l ((i, q) :: ns) ∗ PendR l q x ∗ Own (PendR l) (ns.map Prod.snd) xs ∗ Fd o.socket)
      (sendRound os p q i)
      (fun _ => ∃∃ o' evs, (Round o x xs o' evs) ⋏ Net (tr ++ evs) ∗ p ↦ blk o' hp l ∗ Queue l o'.pending ∗ Fd o.socket) := by
  unfold sendRound
  stepd (loadI_spec (p := p) (z := o.socket) ?_ hs)
  unfold PendR
  hoist
  intro b hx1 hx2
  stepd (loadPtr_spec (p := q) (q := b) ?_)
  stepd (loadInt_spec (p := q) (n := x.bytes.length) ?_)
  step (sendTo_spec H (Src_block (b := b) (off := 0) (vs := bytesV x.bytes) (bs := x.bytes) (Nat.zero_le _) (by simp)) (tr := tr) (fd := o.socket)) into r
  intro h1 h2 h3
  stepd (loadInt_spec (p := q) (n := x.bytes.length) ?_)
  have hsz : maxObj < szMod - 1 := by decide
  have hlen : 0 < x.bytes.length := List.length_pos_iff.2 hx1
  refine Triple.ite (fun hne => ?_) (fun heq => ?_)
  · refine Triple.ite (fun h => ?_) (fun h => ?_)
    · subst h
      stepd (loadPtr_spec (p := q) (q := b) ?_)
      step (free_spec (p := b))
      step (free_spec (p := q))
      stepd (loadPtr_spec (p := p) (q := l) ?_)
      step (remove_head (rel := rel) (l := l) (i := i) (q := q) (ns := ns)) into r
      intro _
      stepd (store_spec (p := p) ?_)
      last (indicate_error_spec H (p := p) (hp := hp) (l := l) (o := { o with pending := xs, state := .error }) (tr := tr ++ [.send o.socket x.bytes (-1)]))
      refine entails_ex_r _ (entails_ex_r _ (entails_pand_r ?_ Round.fail))
      have e : tr ++ [Ev.send o.socket x.bytes (-1)] ++ evError { o with pending := xs, state := .error } = tr ++ (.send o.socket x.bytes (-1) :: evError o) := by
        simp [evError]
      rw [← e]
      unfold Queue
      rw [hex_sep, sep_hex, sep_hex]
      refine entails_ex_r ns ?_
      simp only [sep_assoc]
      sep_cancel
    · have hr : 0 ≤ r := by unfold INVALID_SOCKET at h; omega
      have hn : r.toNat < x.bytes.length := by
        have : (r % szMod).toNat = r.toNat := by
          rw [Int.emod_eq_of_lt hr (by omega)]
        omega
      stepd (loadPtr_spec (p := q) (q := b) ?_)
      stepd (loadInt_spec (p := q) (n := x.bytes.length) ?_)
      last (Map.memmove_spec (p := b) (b := bytesV x.bytes) (d := 0) (s := r.toNat) (n := x.bytes.length - r.toNat) (by rw [bytesV_length]; omega) (by rw [bytesV_length]; omega))
      rw [patch_shift]
      refine entails_ex_r _ (entails_ex_r _ (entails_pand_r ?_ (Round.part r.toNat hn)))
      unfold Queue
      rw [hex_sep, sep_hex, sep_hex]
      refine entails_ex_r ((i, q) :: ns) ?_
      simp only [List.map_cons, Map.Own_cons, PendR]
      rw [hex_sep, sep_hex, hex_sep, sep_hex, sep_hex]
      refine entails_ex_r b ?_
      simp only [pand_sep, sep_pand]
      refine entails_pand_r ?_ ⟨?_, ?_⟩
      · rw [shift_length, Int.toNat_of_nonneg hr]
        simp only [sep_assoc]
        sep_cancel
      · intro h0
        have := congrArg List.length h0
        rw [shift_length] at this
        exact hx1 (List.length_eq_zero_iff.1 this)
      · rw [shift_length]; exact hx2
  · have hr : r = x.bytes.length := by
      by_cases h0 : r = -1
      · subst h0; exfalso; apply heq
        have : ((-1 : Int) % szMod).toNat = szMod - 1 := by decide
        omega
      · have : (r % szMod).toNat = r.toNat := by rw [Int.emod_eq_of_lt (a := r) (b := szMod) (by omega) (by omega)]
        omega
    subst hr
    stepd (loadPtr_spec (p := q) (q := x.cb) ?_)
    have fin : ∀ tr', tr' = tr ++ (.send o.socket x.bytes x.bytes.length :: evCompleted x.cb x.ctx) →
        Triple rel (Net tr' ∗ p ↦ blk o hp l ∗ ListR l ((i, q) :: ns) ∗ PendR l q x ∗ Own (PendR l) (ns.map Prod.snd) xs ∗ Fd o.socket)
        (finishPending os p q i)
        (fun _ => ∃∃ o' evs, (Round o x xs o' evs) ⋏ Net (tr ++ evs) ∗ p ↦ blk o' hp l ∗ Queue l o'.pending ∗ Fd o.socket) := by
      rintro _ rfl
      last (finishPending_spec (os := os) (p := p) (hp := hp) (l := l) (q := q) (i := i) (o := o) (x := x) (ns := ns))
      refine entails_ex_r _ (entails_ex_r _ (entails_pand_r ?_ Round.whole))
      unfold Queue
      rw [hex_sep, sep_hex, sep_hex]
      refine entails_ex_r ns ?_
      simp only [sep_assoc]
      sep_cancel
    have fold : q ↦ [.ptr b, .int x.bytes.length, .ptr x.cb, .ptr x.ctx, .ptr l] ∗ b ↦ bytesV x.bytes ⊢ₕ PendR l q x :=
      entails_ex_r b (entails_pand_r (entails_refl _) ⟨hx1, hx2⟩)
    refine Triple.ite (fun h => ?_) (fun h => ?_)
    · stepd (loadPtr_spec (p := q) (q := x.ctx) ?_)
      step (H.on_send_complete x.cb x.ctx true (tr ++ [.send o.socket x.bytes x.bytes.length]) h)
      refine (fin (tr ++ [.send o.socket x.bytes x.bytes.length] ++ [.completed x.cb x.ctx true]) (by simp [evCompleted, h])).pre ?_
      refine entails_trans ?_ (sep_mono (entails_refl _) (sep_mono (entails_refl _) (sep_mono (entails_refl _) (sep_mono fold (entails_refl _)))))
      simp only [sep_assoc]
      sep_cancel
    · refine (fin (tr ++ [.send o.socket x.bytes x.bytes.length]) (by simp [evCompleted]; omega)).pre ?_
      refine entails_trans ?_ (sep_mono (entails_refl _) (sep_mono (entails_refl _) (sep_mono (entails_refl _) (sep_mono fold (entails_refl _)))))
      simp only [sep_assoc]
      sep_cancel

/-- the sending loop -/
theorem sendLoop_spec (H : Honours rel os Net Fd Ai) {p hp l : Nat} (n : Nat) : ∀ (o : Obj) (ns : Items) (tr : List Ev), i32 o.socket →
    Triple rel (Net tr ∗ p ↦ blk o hp l ∗ ListR l ns ∗ Own (PendR l) (ns.map Prod.snd) o.pending ∗ Fd o.socket) (sendLoop os p n (first ns 0))
      (fun fin => ∃∃ o' evs, (SendLoop n o fin o' evs) ⋏ Net (tr ++ evs) ∗ p ↦ blk o' hp l ∗ Queue l o'.pending ∗ Fd o.socket) := by
  -- an empty queue
  have hnil : ∀ (n : Nat) (o : Obj) (ns : Items) (tr : List Ev) (c : Bool → M Bool), o.pending = [] → c = (fun b => pure b) →
      Triple rel (Net tr ∗ p ↦ blk o hp l ∗ ListR l ns ∗ Own (PendR l) (ns.map Prod.snd) o.pending ∗ Fd o.socket) (c true)
      (fun fin => ∃∃ o' evs, (SendLoop n o fin o' evs) ⋏ Net (tr ++ evs) ∗ p ↦ blk o' hp l ∗ Queue l o'.pending ∗ Fd o.socket) := by
    rintro n o ns tr _ h rfl
    refine Triple.pure (entails_ex_r o (entails_ex_r [] (entails_pand_r ?_ (SendLoop.done h))))
    rw [List.append_nil]
    unfold Queue
    rw [hex_sep, sep_hex, sep_hex]
    refine entails_ex_r ns ?_
    simp only [sep_assoc]
    sep_cancel
  induction n with
  | zero =>
    intro o ns tr hs
    refine Triple.know (φ := ns.length = o.pending.length) ?_ fun hl => ?_
    · rintro h ⟨_, _, _, _, _, ⟨_, _, _, _, _, ⟨_, _, _, _, _, ⟨_, _, _, _, hh, _⟩⟩⟩⟩
      have := hh.1; simpa using this
    refine Triple.know (know_ListR (h := l) (ns := ns) (by pick)) fun hk => ?_
    unfold sendLoop
    cases hp' : o.pending with
    | nil =>
      have : ns = [] := by rw [hp'] at hl; exact List.length_eq_zero_iff.1 (by simpa using hl)
      have h := hnil 0 o ns tr (fun b => pure b) hp' rfl
      rw [hp'] at h
      subst this
      simpa [first] using h
    | cons x xs =>
      cases ns with
      | nil => rw [hp'] at hl; simp at hl
      | cons a ns =>
        have ha : a.1 ≠ 0 := fun h0 => hk.2.2 (by simp [h0])
        rw [← hp']
        refine Triple.pure (entails_ex_r o (entails_ex_r [] (entails_pand_r ?_ ?_)))
        · rw [List.append_nil]
          unfold Queue
          rw [hex_sep, sep_hex, sep_hex]
          refine entails_ex_r (a :: ns) ?_
          simp only [sep_assoc]
          sep_cancel
        · have : decide (first (a :: ns) 0 = 0) = false := by simp [first, ha]
          rw [this]
          exact SendLoop.cut (by simp [hp'])
  | succ n ih =>
    intro o ns tr hs
    refine Triple.know (φ := ns.length = o.pending.length) ?_ fun hl => ?_
    · rintro h ⟨_, _, _, _, _, ⟨_, _, _, _, _, ⟨_, _, _, _, _, ⟨_, _, _, _, hh, _⟩⟩⟩⟩
      have := hh.1; simpa using this
    refine Triple.know (know_ListR (h := l) (ns := ns) (by pick)) fun hk => ?_
    unfold sendLoop
    cases hp' : o.pending with
    | nil =>
      have : ns = [] := by rw [hp'] at hl; exact List.length_eq_zero_iff.1 (by simpa using hl)
      have h := hnil (n+1) o ns tr (fun b => pure b) hp' rfl
      rw [hp'] at h
      subst this
      rw [if_pos (by rfl)]
      exact h
    | cons x xs =>
      cases ns with
      | nil => rw [hp'] at hl; simp at hl
      | cons a ns =>
        obtain ⟨i, q⟩ := a
        have ha : i ≠ 0 := fun h0 => hk.2.2 (by simp [h0])
        rw [if_neg (by simpa [first] using ha)]
        step (list_item_get_value_spec (rel := rel) (h := l) (l1 := []) (l2 := ns) (n := (i, q)))
        simp only [List.nil_append, List.map_cons, Map.Own_cons, first, sep_assoc]
        refine Triple.know (φ := q ≠ 0) ?_ fun hq => ?_
        · unfold PendR
          intro h hh
          simp only [hex_sep, sep_hex, pand_sep, sep_pand, sep_assoc] at hh
          obtain ⟨b, hb, hh⟩ := hh
          exact know_pts (p := q) (φ := q ≠ 0) (by pick) (fun h1 _ => h1) h hh
        rw [if_neg hq]
        step (sendRound_spec H (p := p) (hp := hp) (l := l) (q := q) (i := i) (o := o) (x := x) (xs := xs) (ns := ns) (tr := tr) hs)
        intro o1 e1 hR
        have hsame := hR.same
        stepd (loadPtr_spec (p := p) (q := l) ?_)
        unfold Queue
        hoist
        intro ns1
        try simp only [sep_assoc]
        step (list_get_head_item_spec (rel := rel) (h := l) (a := some ns1))
        have := ih o1 ns1 (tr ++ e1) (by rw [hsame.1]; exact hs)
        simp only [OList, ORep_some, Option.getD_some]
        refine this.conseq ?_ fun fin => ?_
        · rw [hsame.1]; sep_cancel
        · refine entails_ex_l fun o2 => entails_ex_l fun e2 => entails_pand_l fun h2 => entails_ex_r o2 (entails_ex_r (e1 ++ e2) (entails_pand_r ?_ (hR.loop hp' h2)))
          rw [List.append_assoc, hsame.1]
          exact entails_refl _

/-- the receiving loop -/
theorem recvLoop_spec (H : Honours rel os Net Fd Ai) {p hp l : Nat} {o : Obj} (hs : i32 o.socket) (n : Nat) : ∀ tr : List Ev,
    Triple rel (Net tr ∗ p ↦ blk o hp l ∗ Fd o.socket) (recvLoop os p n)
      (fun fin => ∃∃ evs, (RecvLoop o n fin evs) ⋏ Net (tr ++ evs) ∗ p ↦ blk o hp l ∗ Fd o.socket) := by
  induction n with
  | zero =>
    intro tr
    refine Triple.pure (entails_ex_r [] (entails_pand_r ?_ RecvLoop.cut))
    rw [List.append_nil]; exact entails_refl _
  | succ n ih =>
    intro tr
    unfold recvLoop
    stepd (loadI_spec (p := p) (z := o.socket) ?_ hs)
    step (H.recv o.socket tr) into x
    intro h1 h2
    refine Triple.ite (fun h => ?_) (fun h => ?_)
    · have hx : x.1 = 1 := by omega
      rw [hx]
      have go : ∀ e, e = .recv o.socket 1 x.2 :: evReceived o.onBytes o.onBytesCtx [x.2] →
          Triple rel (Net (tr ++ e) ∗ p ↦ blk o hp l ∗ Fd o.socket) (recvLoop os p n)
          (fun fin => ∃∃ evs, (RecvLoop o (n+1) fin evs) ⋏ Net (tr ++ evs) ∗ p ↦ blk o hp l ∗ Fd o.socket) := by
        rintro e rfl
        refine (ih _).conseq (entails_refl _) fun fin => entails_ex_l fun e2 => entails_pand_l fun h2 =>
          entails_ex_r _ (entails_pand_r ?_ (RecvLoop.more (b := x.2) h2))
        rw [List.append_assoc]; exact entails_refl _
      stepd (loadPtr_spec (p := p) (q := o.onBytes) ?_)
      refine Triple.ite (fun hf => ?_) (fun hf => ?_)
      · stepd (loadPtr_spec (p := p) (q := o.onBytesCtx) ?_)
        step (H.on_bytes_received o.onBytes o.onBytesCtx [x.2] (tr ++ [.recv o.socket 1 x.2]) hf)
        rw [List.append_assoc]
        refine (go [.recv o.socket 1 x.2, .received o.onBytes o.onBytesCtx [x.2]] (by simp [evReceived, hf])).pre ?_
        sep_cancel
      · refine (go [.recv o.socket 1 x.2] (by simp [evReceived]; omega)).pre ?_
        sep_cancel
    · refine Triple.pure (entails_ex_r _ (entails_pand_r ?_ (RecvLoop.last (r := x.1) (b := x.2) (by omega))))
      sep_cancel

theorem state_code {a b : IO_STATE} : a.code = b.code ↔ a = b := by
  cases a <;> cases b <;> simp [IO_STATE.code]

/-- `socketio_dowork` -/
theorem socketio_dowork_spec (H : Honours rel os Net Fd Ai) (n m : Nat) (p : Ptr) (a : Option Obj) (tr : List Ev) :
    Triple rel (ORep (SockR Fd) p a ∗ Net tr) (socketio_dowork os n m p)
      (fun fin => ∃∃ a' evs, (DoworkE n m a fin a' evs) ⋏ ORep (SockR Fd) p a' ∗ Net (tr ++ evs)) := by
  unfold socketio_dowork
  cases a with
  | none =>
    rw [ORep_none]
    hoist
    rintro rfl
    rw [if_pos rfl]
    refine Triple.pure (entails_ex_r none (entails_ex_r [] (entails_pand_r ?_ ⟨rfl, rfl, rfl⟩)))
    rw [ORep_null, emp_sep, List.append_nil]; exact entails_refl _
  | some o =>
    rw [ORep_some, SockR_eq]
    hoist
    intro hp l h1 h2 h3
    refine Triple.know (know_pts (p := p) (φ := p ≠ 0) (by pick) fun h1 _ => h1) fun hp0 => ?_
    rw [if_neg hp0]
    stepd (loadInt_spec (p := p) (n := o.state.code) ?_)
    refine Triple.ite (fun h => ?_) (fun h => ?_)
    · refine Triple.pure (entails_ex_r (some o) (entails_ex_r [] (entails_pand_r ?_ ?_)))
      · rw [ORep_some, List.append_nil]
        refine entails_trans ?_ (sep_mono (SockR_intro (hp := hp) (l := l) h1 h2 h3) (entails_refl _))
        simp only [sep_assoc]
        sep_cancel
      · simp only [DoworkE]
        rw [if_pos (fun h' => h (by rw [h']))]
        exact ⟨by trivial, by trivial, by trivial⟩
    · have hst : o.state = .opn := by
        apply state_code.1; exact Decidable.not_not.1 h
      have hso := h3 (by simp [hst])
      have hfd : FdR Fd o.socket = Fd o.socket := by unfold FdR; rw [if_neg hso]
      stepd (loadPtr_spec (p := p) (q := l) ?_)
      rw [Queue_eq]
      hoist
      intro ns
      try simp only [sep_assoc]
      step (list_get_head_item_spec (rel := rel) (h := l) (a := some ns))
      simp only [OList, ORep_some, Option.getD_some, hfd]
      step (sendLoop_spec H (p := p) (hp := hp) (l := l) n o ns tr h1) into fin
      intro o' e1 hL
      have hs := hL.same
      have back : ∀ tr', Net tr' ∗ p ↦ blk o' hp l ∗ Queue l o'.pending ∗ Fd o.socket ∗ HostR hp o.host ⊢ₕ ORep (SockR Fd) p (some o') ∗ Net tr' := by
        intro tr'
        rw [ORep_some]
        refine entails_trans ?_ (sep_mono (SockR_intro (o := o') (hp := hp) (l := l) (by rw [hs.1]; exact h1) (by rw [hs.2.2.1]; exact h2) (fun _ => by rw [hs.1]; exact hso)) (entails_refl _))
        rw [hs.1, hs.2.1, hfd]
        simp only [sep_assoc]
        sep_cancel
      cases fin with
      | false =>
        simp only [Bool.false_eq_true, if_false]
        refine Triple.pure (entails_ex_r (some o') (entails_ex_r e1 (entails_pand_r ?_ ?_)))
        · refine entails_trans ?_ (back _)
          sep_cancel
        · simp only [DoworkE]
          rw [if_neg (by simp [hst])]
          exact ⟨o', by trivial, Or.inl ⟨by trivial, hL⟩⟩
      | true =>
        simp only [if_true]
        have hr := recvLoop_spec H (p := p) (hp := hp) (l := l) (o := o') (by rw [hs.1]; exact h1) m (tr ++ e1)
        rw [hs.1] at hr
        last hr
        rename_i fin
        simp only [hex_sep, pand_sep]
        refine entails_ex_l fun e2 => entails_pand_l fun h2 => entails_ex_r (some o') (entails_ex_r (e1 ++ e2) (entails_pand_r ?_ ?_))
        · rw [List.append_assoc]
          refine entails_trans ?_ (back _)
          simp only [sep_assoc]
          sep_cancel
        · simp only [DoworkE]
          rw [if_neg (by simp [hst])]
          exact ⟨o', by trivial, Or.inr ⟨e1, e2, by trivial, hL, h2⟩⟩

/-! ## Creation and destruction -/

/-- `socketio_create` argument -/
def CfgArg (cfg : Option Config) (c : Option Target) : HProp :=
  match cfg, c with
  | none, none => emp
  | some g, some t => (g.port = t.port ∧ i32 t.port ∧ (t.host = none → g.accepted_socket = some t.accepted ∧ i32 t.accepted)) ⋏ HostArg g.hostname t.host
  | _, _ => False ⋏ emp

/-- the right to use the accepted socket comes with the configuration -/
def FdIn (Fd : Int → HProp) (c : Option Target) : HProp :=
  match c with
  | none => emp
  | some t => if t.host = none then FdR Fd t.accepted else emp

/-- the fields `hostname` and `socket` of a new instance -/
theorem initTarget_spec {r l : Nat} {g : Config} {t : Target} (hh : t.host = none → g.accepted_socket = some t.accepted) :
    Triple rel (r ↦ [.undef, .undef, .undef, .undef, .undef, .undef, .undef, .undef, .undef, .ptr l] ∗ HostArg g.hostname t.host) (initTarget r g)
      (fun _ => ∃∃ hp : Nat, (hp = 0 ↔ t.host = none ∨ (t.host ≠ none ∧ ¬ rel ∧ hp = 0)) ⋏
        r ↦ [intV (if t.host = none then t.accepted else -1), .undef, .undef, .undef, .undef, .undef, .ptr hp, .undef, .undef, .ptr l] ∗
        HostArg g.hostname t.host ∗ (if hp = 0 then emp else HostR hp t.host)) := by
  unfold initTarget
  cases hhost : t.host with
  | none =>
    simp only [HostArg]
    hoist
    intro hn
    rw [if_neg (by simp [hn]), hh hhost]
    stepd (store_spec (p := r) ?_)
    refine (store_spec (p := r) (off := 0) (v := intV t.accepted) ?_).conseq (entails_refl _) fun _ => ?_
    · simp
    refine entails_ex_r 0 (entails_pand_r ?_ (by simp))
    simp only [if_true, sep_emp, sep_pand]
    exact entails_pand_r (entails_refl _) hn
  | some x =>
    simp only [HostArg]
    refine Triple.know (know_CStr (s := g.hostname) (t := x) (by pick)) fun ⟨hk1, hk2, hk3⟩ => ?_
    rw [if_pos hk1]
    step strlen_spec
    refine Triple.malloc (fun hr => ?_) fun b hb _ => ?_
    · stepd (store_spec (p := r) ?_)
      rw [if_neg (by simp)]
      lastd (store_spec (p := r) (off := 0) (v := intV INVALID_SOCKET) ?_)
      refine entails_ex_r 0 (entails_pand_r ?_ ⟨fun _ => Or.inr ⟨by simp, hr.resolve_right (by omega), rfl⟩, fun _ => rfl⟩)
      rw [if_pos rfl, sep_emp]
      exact entails_refl _
    · stepd (store_spec (p := r) ?_)
      rw [if_pos hb]
      step (strcpy_spec (dst := b) (off := 0) (src := g.hostname) (t := x) (b := List.replicate (x.length + 1) .undef) (by simp))
      rw [patch_full (by simp [bytesV])]
      lastd (store_spec (p := r) (off := 0) (v := intV INVALID_SOCKET) ?_)
      refine entails_ex_r b (entails_pand_r ?_ ⟨fun h => absurd h hb, fun h => absurd h (by simp [hb])⟩)
      rw [if_neg hb]
      have : b ↦ bytesV (x ++ [0]) ⊢ₕ HostR b (some x) := by
        simp only [HostR, hostArg, if_neg hb, HostArg, CStr]
        exact entails_ex_r (bytesV (x ++ [0])) (entails_pand_r (entails_refl _) ⟨Nat.zero_le _, cstrV_bytes' hk2⟩)
      refine entails_trans ?_ (sep_mono (entails_refl _) (sep_mono (entails_refl _) this))
      sep_cancel

/-- `socketio_create` -/
theorem socketio_create_spec (cfg : Option Config) (c : Option Target) (logger : Nat) :
    Triple rel (CfgArg cfg c ∗ FdIn Fd c) (socketio_create cfg logger)
      (fun r => ∃∃ a', (CreateE (¬ rel) c logger (decide (r ≠ 0)) a') ⋏ ORep (SockR Fd) r a' ∗ CfgArg cfg c ∗ (if r = 0 then FdIn Fd c else emp)) := by
  unfold socketio_create
  cases cfg with
  | none =>
    cases c with
    | none =>
      simp only [CfgArg, FdIn]
      refine Triple.pure (entails_ex_r none (entails_pand_r ?_ ?_))
      · rw [ORep_null, if_pos rfl]; sep_cancel
      · simp [CreateE]
    | some t => simp only [CfgArg]; hoist; exact fun h => h.elim
  | some g =>
    cases c with
    | none => simp only [CfgArg]; hoist; exact fun h => h.elim
    | some t =>
      simp only [CfgArg]
      hoist
      intro h1 h2 h3
      have back : HostArg g.hostname t.host ⊢ₕ (g.port = t.port ∧ i32 t.port ∧ (t.host = none → g.accepted_socket = some t.accepted ∧ i32 t.accepted)) ⋏ HostArg g.hostname t.host :=
        entails_pand_r (entails_refl _) ⟨h1, h2, h3⟩
      have fail : ¬ rel ∨ (t.host = none ∧ t.accepted = -1) → HostArg g.hostname t.host ∗ FdIn Fd (some t) ⊢ₕ
          ∃∃ a', (CreateE (¬ rel) (some t) logger (decide ((0 : Nat) ≠ 0)) a') ⋏ ORep (SockR Fd) 0 a' ∗
            ((g.port = t.port ∧ i32 t.port ∧ (t.host = none → g.accepted_socket = some t.accepted ∧ i32 t.accepted)) ⋏ HostArg g.hostname t.host) ∗
            (if (0 : Nat) = 0 then FdIn Fd (some t) else emp) := by
        intro hc
        refine entails_ex_r none (entails_pand_r ?_ ?_)
        · rw [ORep_null, if_pos rfl, emp_sep, pand_sep]
          exact entails_pand_r (entails_refl _) ⟨h1, h2, h3⟩
        · exact Or.inl ⟨by simp, rfl, hc⟩
      refine Triple.mallocS (by decide) (fun hr => ?_) fun r hr0 => ?_
      · rw [if_neg (by simp)]
        exact Triple.pure (fail (Or.inl hr))
      rw [if_pos hr0]
      simp only [List.replicate]
      step (list_create_spec (rel := rel)) into l
      by_cases hl : l = 0
      · subst hl
        rw [Made_zero]
        hoist
        intro hr
        stepd (store_spec (p := r) ?_)
        rw [if_pos rfl]
        step (free_spec (p := r))
        exact Triple.pure (fail (Or.inl hr))
      rw [Made_ne hl]
      hoist
      rintro _ rfl
      stepd (store_spec (p := r) ?_)
      rw [if_neg hl]
      step (initTarget_spec (rel := rel) (r := r) (l := l) (g := g) (t := t) (fun h => (h3 h).1))
      intro hp hhp
      have hfd : i32 (if t.host = none then t.accepted else -1) := by
        split
        · rename_i h; exact (h3 h).2
        · exact ⟨by decide, by decide⟩
      stepd (loadPtr_spec (p := r) (q := hp) ?_)
      stepd (loadI_spec (p := r) (off := fSocket) (z := if t.host = none then t.accepted else -1) ?_ hfd)
      refine Triple.ite (fun h => ?_) (fun h => ?_)
      · stepd (loadPtr_spec (p := r) (q := l) ?_)
        rw [if_pos h.1]
        step (list_destroy_spec (rel := rel) (h := l) (a := some []))
        step (free_spec (p := r))
        refine Triple.pure ?_
        have hc : ¬ rel ∨ (t.host = none ∧ t.accepted = -1) := by
          rcases hhp.1 h.1 with h0 | h0
          · refine Or.inr ⟨h0, ?_⟩
            have := h.2; rw [if_pos h0] at this; exact this
          · exact Or.inl h0.2.1
        refine entails_trans ?_ (fail hc)
        sep_cancel
      · stepd (store_spec (p := r) ?_)
        stepd (store_spec (p := r) ?_)
        stepd (store_spec (p := r) ?_)
        stepd (store_spec (p := r) ?_)
        stepd (store_spec (p := r) ?_)
        stepd (store_spec (p := r) ?_)
        stepd (store_spec (p := r) ?_)
        refine Triple.pure (entails_ex_r (some ⟨if t.host = none then t.accepted else -1, logger, 0, 0, 0, 0, t.host, t.port, .closed, []⟩) (entails_pand_r ?_ ?_))
        · rw [ORep_some, if_neg hr0, sep_emp]
          refine entails_trans ?_ (sep_mono (SockR_intro (hp := hp) (l := l) hfd h2 (by simp)) back)
          have hq : ListR l [] ⊢ₕ Queue l [] := by
            refine entails_ex_r [] ?_
            rw [List.map_nil, Own_nil, sep_emp]; exact entails_refl _
          have hhost : (if hp = 0 then emp else HostR hp t.host) ⊢ₕ HostR hp t.host := by
            by_cases h0 : hp = 0
            · rw [if_pos h0]
              rcases hhp.1 h0 with h' | h'
              · rw [h']; simp only [HostR, HostArg, hostArg, if_pos h0]; exact entails_pand_r (entails_refl _) trivial
              · exfalso; apply h; exact ⟨h0, by rw [if_neg h'.1]; rfl⟩
            · rw [if_neg h0]; exact entails_refl _
          have hfdr : FdIn Fd (some t) ⊢ₕ FdR Fd (if t.host = none then t.accepted else -1) := by
            simp only [FdIn]
            split
            · exact entails_refl _
            · simp [FdR]; exact entails_refl _
          refine entails_trans ?_ (sep_mono (sep_mono (entails_refl _) (sep_mono hhost (sep_mono hq hfdr))) (entails_refl _))
          simp only [blk, h1, sep_assoc]
          sep_cancel
        · refine Or.inr ⟨by simp [hr0], ?_, rfl⟩
          intro h0 ha
          exact h ⟨hhp.2 (Or.inl h0), by rw [if_pos h0, ha]; rfl⟩

/-- emptying the queue -/
theorem clearLoop_spec {p hp l : Nat} {o : Obj} (ns : Items) : ∀ ps : List Pend,
    Triple rel (p ↦ blk o hp l ∗ ListR l ns ∗ Own (PendR l) (ns.map Prod.snd) ps) (clearLoop p (first ns 0))
      (fun _ => p ↦ blk o hp l ∗ ListR l []) := by
  induction ns with
  | nil =>
    intro ps
    refine Triple.know (φ := ps = []) ?_ fun hl => ?_
    · rintro h ⟨_, _, _, _, _, ⟨_, _, _, _, _, hh⟩⟩
      have := hh.1
      exact List.length_eq_zero_iff.1 (by simpa using this.symm)
    subst hl
    rw [clearLoop, if_neg (by simp [first]), List.map_nil, Own_nil, sep_emp]
    exact Triple.pure (entails_refl _)
  | cons a ns ih =>
    intro ps
    obtain ⟨i, q⟩ := a
    refine Triple.know (know_ListR (h := l) (ns := (i, q) :: ns) (by pick)) fun hk => ?_
    have ha : i ≠ 0 := fun h0 => hk.2.2 (by simp [h0])
    refine Triple.know (φ := ps ≠ []) ?_ fun hl => ?_
    · rintro h ⟨_, _, _, _, _, ⟨_, _, _, _, _, hh⟩⟩ rfl
      have := hh.1
      simp at this
    cases ps with
    | nil => exact absurd rfl hl
    | cons x xs =>
      rw [clearLoop]
      rw [if_pos (by simpa [first] using ha)]
      simp only [first]
      step (list_item_get_value_spec (rel := rel) (h := l) (l1 := []) (l2 := ns) (n := (i, q)))
      simp only [List.nil_append, List.map_cons, Map.Own_cons]
      unfold PendR
      hoist
      intro b _ _
      refine Triple.know (know_pts (p := q) (φ := q ≠ 0) (by pick) fun h1 _ => h1) fun hq => ?_
      rw [if_pos hq]
      stepd (loadPtr_spec (p := q) (q := b) ?_)
      step (free_spec (p := b))
      step (free_spec (p := q))
      stepd (loadPtr_spec (p := p) (q := l) ?_)
      step (remove_head (rel := rel) (l := l) (i := i) (q := q) (ns := ns)) into r
      intro _
      step (list_get_head_item_spec (rel := rel) (h := l) (a := some ns))
      simp only [OList, ORep_some, Option.getD_some]
      refine (ih xs).pre ?_
      sep_cancel

/-- `socketio_destroy` -/
theorem socketio_destroy_spec (H : Honours rel os Net Fd Ai) (p : Ptr) (a : Option Obj) (tr : List Ev) :
    Triple rel (ORep (SockR Fd) p a ∗ Net tr) (socketio_destroy os p)
      (fun _ => ∃∃ evs, (DestroyE a evs) ⋏ Net (tr ++ evs)) := by
  unfold socketio_destroy
  cases a with
  | none =>
    rw [ORep_none]
    hoist
    rintro rfl
    rw [if_neg (by simp)]
    refine Triple.pure (entails_ex_r [] (entails_pand_r ?_ rfl))
    rw [List.append_nil]; exact entails_refl _
  | some o =>
    rw [ORep_some, SockR_eq]
    hoist
    intro hp l h1 h2 h3
    refine Triple.know (know_pts (p := p) (φ := p ≠ 0) (by pick) fun h1 _ => h1) fun hp0 => ?_
    rw [if_pos hp0]
    stepd (loadI_spec (p := p) (off := fSocket) (z := o.socket) ?_ h1)
    have tail : ∀ evs, DestroyE (some o) evs →
        Triple rel (p ↦ blk o hp l ∗ HostR hp o.host ∗ Queue l o.pending ∗ Net (tr ++ evs))
        (do
          let l ← loadPtr p fList
          let first ← list_get_head_item l
          clearLoop p first
          let l ← loadPtr p fList
          list_destroy l
          let h ← loadPtr p fHost
          free h
          free p)
        (fun _ => ∃∃ evs, (DestroyE (some o) evs) ⋏ Net (tr ++ evs)) := by
      intro evs hE
      stepd (loadPtr_spec (p := p) (q := l) ?_)
      rw [Queue_eq]
      hoist
      intro ns
      try simp only [sep_assoc]
      step (list_get_head_item_spec (rel := rel) (h := l) (a := some ns))
      simp only [OList, ORep_some, Option.getD_some]
      step (clearLoop_spec (rel := rel) (p := p) (hp := hp) (l := l) (o := o) ns o.pending)
      stepd (loadPtr_spec (p := p) (q := l) ?_)
      step (list_destroy_spec (rel := rel) (h := l) (a := some []))
      stepd (loadPtr_spec (p := p) (q := hp) ?_)
      have hfree : Triple rel (HostR hp o.host) (free hp) (fun _ => emp) := by
        unfold HostR hostArg
        by_cases h0 : hp = 0
        · subst h0
          rw [if_pos rfl]
          cases o.host with
          | none => simp only [HostArg]; hoist; exact free_null_spec
          | some t => simp only [HostArg, CStr]; hoist; exact fun h => h.elim
        · rw [if_neg h0]
          cases o.host with
          | none => simp only [HostArg]; hoist; intro h; exact absurd h (by simp)
          | some t => simp only [HostArg, CStr]; hoist; intro vs _ _; exact free_spec
      step hfree
      last (free_spec (p := p))
      refine entails_ex_r evs (entails_pand_r ?_ hE)
      sep_cancel
    refine Triple.ite (fun h => ?_) (fun h => ?_)
    · have h : ¬ o.socket = -1 := h
      have : FdR Fd o.socket = Fd o.socket := by unfold FdR; rw [if_neg h]
      rw [this]
      step (H.close o.socket tr) into r
      refine (tail [.close o.socket] ?_).pre ?_
      · simp only [DestroyE]; rw [if_neg h]
      · sep_cancel
    · have h : o.socket = -1 := Decidable.not_not.1 h
      have : FdR Fd o.socket = emp := by unfold FdR; rw [if_pos h]
      rw [this]
      refine (tail [] ?_).pre ?_
      · simp only [DestroyE]; rw [if_pos h]
      · rw [List.append_nil]; sep_cancel

/-! ## Opening and closing -/

theorem becomeOpen_spec (H : Honours rel os Net Fd Ai) {p hp l : Nat} {o : Obj} {tr : List Ev} {f1 c1 f2 c2 f3 c3 : Nat} :
    Triple rel (Net tr ∗ p ↦ blk o hp l) (becomeOpen os p f1 c1 f2 c2 f3 c3)
      (fun _ => Net (tr ++ evOpened f1 c1 true) ∗ p ↦ blk (opened o o.socket f2 c2 f3 c3) hp l) := by
  unfold becomeOpen blk
  stepd (store_spec (p := p) ?_)
  stepd (store_spec (p := p) ?_)
  stepd (store_spec (p := p) ?_)
  stepd (store_spec (p := p) ?_)
  stepd (store_spec (p := p) ?_)
  refine Triple.ite (fun h => ?_) (fun h => ?_)
  · last (H.on_io_open_complete f1 c1 true tr h)
    simp only [evOpened, if_neg h]
    exact entails_refl _
  · refine Triple.pure ?_
    rw [evOpened, if_pos (by omega), List.append_nil]
    sep_cancel

theorem dropSocket_spec (H : Honours rel os Net Fd Ai) {p hp l : Nat} {o : Obj} {fd : Int} {tr : List Ev} (hfd : i32 fd) (ho : o.socket = -1) :
    Triple rel (Net tr ∗ p ↦ blk { o with socket := fd } hp l ∗ Fd fd) (dropSocket os p)
      (fun _ => Net (tr ++ [.close fd]) ∗ p ↦ blk o hp l) := by
  unfold dropSocket
  stepd (loadI_spec (p := p) (off := fSocket) (z := fd) ?_ hfd)
  step (H.close fd tr) into r
  lastd (store_spec (p := p) (off := fSocket) (v := intV INVALID_SOCKET) ?_)
  have : List.set (blk { o with socket := fd } hp l) fSocket (intV INVALID_SOCKET) = blk o hp l := by
    simp [blk, ho, INVALID_SOCKET]
  rw [this]
  sep_cancel

/-- connecting, making the socket nonblocking, reporting -/
theorem connectPart_spec (H : Honours rel os Net Fd Ai) {p hp l : Nat} {o : Obj} {fd : Int} {ai : Nat} {tr : List Ev} {f1 c1 f2 c2 f3 c3 : Nat}
    (hfd : i32 fd) (ho : o.socket = -1) :
    Triple rel (Net tr ∗ p ↦ blk { o with socket := fd } hp l ∗ Fd fd ∗ Ai ai) (connectPart os p ai f1 c1 f2 c2 f3 c3)
      (fun r => ∃∃ o' evs, (
          (∃ err, err ≠ 0 ∧ r ≠ 0 ∧ o' = o ∧ evs = [.connect fd ai err, .close fd]) ∨
          (r ≠ 0 ∧ o' = o ∧ evs = [.connect fd ai 0, .getfl fd (-1), .close fd]) ∨
          (∃ fl, fl ≠ -1 ∧ r ≠ 0 ∧ o' = o ∧ evs = [.connect fd ai 0, .getfl fd fl, .setfl fd (orNonblock fl) (-1), .close fd]) ∨
          (∃ fl r2, fl ≠ -1 ∧ r2 ≠ -1 ∧ r = 0 ∧ o' = opened o fd f2 c2 f3 c3 ∧
            evs = [.connect fd ai 0, .getfl fd fl, .setfl fd (orNonblock fl) r2] ++ evOpened f1 c1 true)) ⋏
        Net (tr ++ evs) ∗ p ↦ blk o' hp l ∗ Ai ai ∗ (if r = 0 then Fd fd else emp)) := by
  unfold connectPart
  stepd (loadI_spec (p := p) (off := fSocket) (z := fd) ?_ hfd)
  step (H.connect fd ai tr) into err
  refine Triple.ite (fun h => ?_) (fun h => ?_)
  · step (dropSocket_spec H (p := p) (hp := hp) (l := l) (o := o) (fd := fd) (tr := tr ++ [.connect fd ai err]) hfd ho)
    refine Triple.pure (entails_ex_r o (entails_ex_r _ (entails_pand_r ?_ (Or.inl ⟨err, h, by decide, rfl, rfl⟩))))
    rw [if_neg (by decide), List.append_assoc, List.cons_append, List.nil_append]
    sep_cancel
  have h : err = 0 := Decidable.not_not.1 h
  subst h
  stepd (loadI_spec (p := p) (off := fSocket) (z := fd) ?_ hfd)
  step (H.getfl fd _) into fl
  refine Triple.ite (fun h => ?_) (fun hfl => ?_)
  · subst h
    step (dropSocket_spec H (p := p) (hp := hp) (l := l) (o := o) (fd := fd) (tr := tr ++ [.connect fd ai 0] ++ [.getfl fd (-1)]) hfd ho)
    refine Triple.pure (entails_ex_r o (entails_ex_r _ (entails_pand_r ?_ (Or.inr (Or.inl ⟨by decide, rfl, rfl⟩)))))
    rw [if_neg (by decide)]
    simp only [List.append_assoc, List.cons_append, List.nil_append]
    sep_cancel
  stepd (loadI_spec (p := p) (off := fSocket) (z := fd) ?_ hfd)
  step (H.setfl fd (orNonblock fl) _) into r2
  refine Triple.ite (fun h => ?_) (fun hr2 => ?_)
  · subst h
    step (dropSocket_spec H (p := p) (hp := hp) (l := l) (o := o) (fd := fd) (tr := tr ++ [.connect fd ai 0] ++ [.getfl fd fl] ++ [.setfl fd (orNonblock fl) (-1)]) hfd ho)
    refine Triple.pure (entails_ex_r o (entails_ex_r _ (entails_pand_r ?_ (Or.inr (Or.inr (Or.inl ⟨fl, hfl, by decide, rfl, rfl⟩))))))
    rw [if_neg (by decide)]
    simp only [List.append_assoc, List.cons_append, List.nil_append]
    sep_cancel
  · step (becomeOpen_spec H (p := p) (hp := hp) (l := l) (o := { o with socket := fd }) (tr := tr ++ [.connect fd ai 0] ++ [.getfl fd fl] ++ [.setfl fd (orNonblock fl) r2])
      (f1 := f1) (c1 := c1) (f2 := f2) (c2 := c2) (f3 := f3) (c3 := c3))
    refine Triple.pure (entails_ex_r (opened o fd f2 c2 f3 c3) (entails_ex_r _ (entails_pand_r ?_ (Or.inr (Or.inr (Or.inr ⟨fl, r2, hfl, hr2, rfl, rfl, rfl⟩))))))
    rw [if_pos rfl]
    simp only [List.append_assoc, List.cons_append, List.nil_append, opened]
    sep_cancel

/-- `socketio_open` -/
theorem socketio_open_spec (H : Honours rel os Net Fd Ai) (f1 c1 f2 c2 f3 c3 : Nat) (p : Ptr) (a : Option Obj) (tr : List Ev) :
    Triple rel (ORep (SockR Fd) p a ∗ Net tr) (socketio_open os p f1 c1 f2 c2 f3 c3)
      (fun r => ∃∃ a' evs, (OpenE f1 c1 f2 c2 f3 c3 a r a' evs) ⋏ ORep (SockR Fd) p a' ∗ Net (tr ++ evs)) := by
  unfold socketio_open
  cases a with
  | none =>
    rw [ORep_none]
    hoist
    rintro rfl
    rw [if_pos rfl]
    refine Triple.pure (entails_ex_r none (entails_ex_r [] (entails_pand_r ?_ ⟨by decide, rfl, rfl⟩)))
    rw [ORep_null, emp_sep, List.append_nil]; exact entails_refl _
  | some o =>
    rw [ORep_some, SockR_eq]
    hoist
    intro hp l h1 h2 h3
    refine Triple.know (know_pts (p := p) (φ := p ≠ 0) (by pick) fun h1 _ => h1) fun hp0 => ?_
    rw [if_neg hp0]
    stepd (loadInt_spec (p := p) (n := o.state.code) ?_)
    refine Triple.ite (fun h => ?_) (fun h => ?_)
    · refine Triple.pure (entails_ex_r (some o) (entails_ex_r [] (entails_pand_r ?_ ?_)))
      · rw [ORep_some, List.append_nil]
        refine entails_trans ?_ (sep_mono (SockR_intro (hp := hp) (l := l) h1 h2 h3) (entails_refl _))
        simp only [sep_assoc]
        sep_cancel
      · simp only [OpenE]
        rw [if_pos (fun h' => h (by rw [h']))]
        exact ⟨by decide, by trivial, by trivial⟩
    have hst : o.state = .closed := state_code.1 (Decidable.not_not.1 h)
    stepd (loadI_spec (p := p) (off := fSocket) (z := o.socket) ?_ h1)
    refine Triple.ite (fun h => ?_) (fun h => ?_)
    · have h : o.socket ≠ -1 := h
      step (becomeOpen_spec H (p := p) (hp := hp) (l := l) (o := o) (tr := tr) (f1 := f1) (c1 := c1) (f2 := f2) (c2 := c2) (f3 := f3) (c3 := c3))
      refine Triple.pure (entails_ex_r (some (opened o o.socket f2 c2 f3 c3)) (entails_ex_r (evOpened f1 c1 true) (entails_pand_r ?_ ?_)))
      · rw [ORep_some]
        refine entails_trans ?_ (sep_mono (SockR_intro (o := opened o o.socket f2 c2 f3 c3) (hp := hp) (l := l) h1 h2 (fun _ => h)) (entails_refl _))
        simp only [sep_assoc, opened]
        sep_cancel
      · simp only [OpenE]
        rw [if_neg (by simp [hst]), if_pos h]
        exact ⟨by trivial, by trivial, by trivial⟩
    have h : o.socket = -1 := Decidable.not_not.1 h
    have hemp : FdR Fd o.socket = emp := by unfold FdR; rw [if_pos h]
    rw [hemp, emp_sep]
    step (H.socket tr) into fd
    intro hf1 hf2
    have hfd : i32 fd := ⟨by omega, hf2⟩
    stepd (store_spec (p := p) ?_)
    stepd (loadI_spec (p := p) (off := fSocket) (z := fd) ?_ hfd)
    have finish : ∀ (r : Int) o' evs, (o' = o ∨ ∃ fd, 0 ≤ fd ∧ i32 fd ∧ o' = opened o fd f2 c2 f3 c3) → OpenE f1 c1 f2 c2 f3 c3 (some o) r (some o') evs →
        Net (tr ++ evs) ∗ p ↦ blk o' hp l ∗ HostR hp o.host ∗ Queue l o.pending ∗ FdR Fd o'.socket ⊢ₕ
        ∃∃ a' evs, (OpenE f1 c1 f2 c2 f3 c3 (some o) r a' evs) ⋏ ORep (SockR Fd) p a' ∗ Net (tr ++ evs) := by
      intro r o' evs ho hE
      refine entails_ex_r (some o') (entails_ex_r evs (entails_pand_r ?_ hE))
      rw [ORep_some]
      rcases ho with rfl | ⟨fd, hf0, hf, rfl⟩
      · refine entails_trans ?_ (sep_mono (SockR_intro (hp := hp) (l := l) h1 h2 h3) (entails_refl _))
        simp only [sep_assoc]
        sep_cancel
      · refine entails_trans ?_ (sep_mono (SockR_intro (o := opened o fd f2 c2 f3 c3) (hp := hp) (l := l) hf h2 (fun _ => by simp only [opened]; omega)) (entails_refl _))
        simp only [sep_assoc, opened]
        sep_cancel
    have hset : List.set (blk o hp l) fSocket (intV fd) = blk { o with socket := fd } hp l := by simp [blk]
    rw [hset]
    refine Triple.ite (fun hneg => ?_) (fun hpos => ?_)
    · have : fd = -1 := by omega
      subst this
      refine Triple.pure (entails_trans ?_ (finish 261 o [.socket (-1)] (Or.inl rfl) ?_))
      · rw [if_pos (by decide), hemp]
        have : ({ o with socket := -1 } : Obj) = o := by rw [← h]
        rw [this]
        sep_cancel
      · simp only [OpenE]
        rw [if_neg (by simp [hst]), if_neg (by simp [h])]
        exact Or.inl ⟨by decide, by trivial, by trivial⟩
    rw [if_neg hpos]
    obtain ⟨port, hport⟩ : ∃ port, port = (o.port % 2 ^ 32).toNat := ⟨_, rfl⟩
    step (loadInt_spec (p := p) (off := fPort) (b := blk { o with socket := fd } hp l) (n := port) (by rw [hport]; rfl))
    stepd (loadPtr_spec (p := p) (q := hp) ?_)
    unfold HostR at finish ⊢
    step (H.getaddrinfo (hostArg hp) o.host port (tr ++ [.socket fd])) into x
    refine Triple.ite (fun hx => ?_) (fun hx => ?_)
    · rw [if_neg hx]
      step (dropSocket_spec H (p := p) (hp := hp) (l := l) (o := o) (fd := fd) (tr := tr ++ [.socket fd] ++ [.getaddrinfo o.host port x.1 x.2]) hfd h)
      refine Triple.pure (entails_trans ?_ (finish 277 o [.socket fd, .getaddrinfo o.host port x.1 x.2, .close fd] (Or.inl rfl) ?_))
      · rw [hemp]
        simp only [List.append_assoc, List.cons_append, List.nil_append]
        sep_cancel
      · simp only [OpenE]
        rw [if_neg (by simp [hst]), if_neg (by simp [h]), ← hport]
        exact Or.inr ⟨fd, by omega, hf2, Or.inl ⟨x.1, x.2, hx, by decide, by trivial, by trivial⟩⟩
    have hx : x.1 = 0 := Decidable.not_not.1 hx
    rw [if_pos hx, hx]
    step (connectPart_spec H (p := p) (hp := hp) (l := l) (o := o) (fd := fd) (ai := x.2) (tr := tr ++ [.socket fd] ++ [.getaddrinfo o.host port 0 x.2])
      (f1 := f1) (c1 := c1) (f2 := f2) (c2 := c2) (f3 := f3) (c3 := c3) hfd h) into r
    intro o' evs hC
    step (H.freeaddrinfo x.2 _)
    refine Triple.pure (entails_trans ?_ (finish r o' ([.socket fd, .getaddrinfo o.host port 0 x.2] ++ evs ++ [.freeaddrinfo x.2]) ?_ ?_))
    · simp only [List.append_assoc, List.cons_append, List.nil_append]
      have : (if r = 0 then Fd fd else emp) = FdR Fd o'.socket := by
        rcases hC with ⟨e, _, hr, rfl, _⟩ | ⟨hr, rfl, _⟩ | ⟨fl, _, hr, rfl, _⟩ | ⟨fl, r2, _, _, hr, rfl, _⟩
        · rw [if_neg hr, hemp]
        · rw [if_neg hr, hemp]
        · rw [if_neg hr, hemp]
        · have : FdR Fd (opened o fd f2 c2 f3 c3).socket = Fd fd := by
            have : ¬ fd = -1 := by omega
            show FdR Fd fd = Fd fd
            unfold FdR; rw [if_neg this]
          rw [if_pos hr, this]
      rw [this]
      sep_cancel
    · rcases hC with ⟨e, _, hr, rfl, _⟩ | ⟨hr, rfl, _⟩ | ⟨fl, _, hr, rfl, _⟩ | ⟨fl, r2, _, _, hr, rfl, _⟩
      · exact Or.inl rfl
      · exact Or.inl rfl
      · exact Or.inl rfl
      · exact Or.inr ⟨fd, by omega, hfd, rfl⟩
    · simp only [OpenE]
      rw [if_neg (by simp [hst]), if_neg (by simp [h]), ← hport]
      refine Or.inr ⟨fd, by omega, hf2, Or.inr ⟨x.2, ?_⟩⟩
      rcases hC with ⟨e, he, hr, rfl, rfl⟩ | ⟨hr, rfl, rfl⟩ | ⟨fl, hfl, hr, rfl, rfl⟩ | ⟨fl, r2, hfl, hr2, hr, rfl, rfl⟩
      · exact Or.inl ⟨e, he, hr, rfl, rfl⟩
      · exact Or.inr (Or.inl ⟨hr, rfl, rfl⟩)
      · exact Or.inr (Or.inr (Or.inl ⟨fl, hfl, hr, rfl, rfl⟩))
      · exact Or.inr (Or.inr (Or.inr ⟨fl, r2, hfl, hr2, hr, rfl, by simp⟩))

/-- `socketio_close` -/
theorem socketio_close_spec (H : Honours rel os Net Fd Ai) (f1 c1 : Nat) (p : Ptr) (a : Option Obj) (tr : List Ev) :
    Triple rel (ORep (SockR Fd) p a ∗ Net tr) (socketio_close os p f1 c1)
      (fun r => ∃∃ a' evs, (CloseE f1 c1 a r a' evs) ⋏ ORep (SockR Fd) p a' ∗ Net (tr ++ evs)) := by
  unfold socketio_close
  cases a with
  | none =>
    rw [ORep_none]
    hoist
    rintro rfl
    rw [if_pos rfl]
    refine Triple.pure (entails_ex_r none (entails_ex_r [] (entails_pand_r ?_ ⟨by decide, rfl, rfl⟩)))
    rw [ORep_null, emp_sep, List.append_nil]; exact entails_refl _
  | some o =>
    rw [ORep_some, SockR_eq]
    hoist
    intro hp l h1 h2 h3
    refine Triple.know (know_pts (p := p) (φ := p ≠ 0) (by pick) fun h1 _ => h1) fun hp0 => ?_
    rw [if_neg hp0]
    stepd (loadInt_spec (p := p) (n := o.state.code) ?_)
    refine Triple.ite (fun h => ?_) (fun h => ?_)
    · refine Triple.pure (entails_ex_r (some o) (entails_ex_r [] (entails_pand_r ?_ ?_)))
      · rw [ORep_some, List.append_nil]
        refine entails_trans ?_ (sep_mono (SockR_intro (hp := hp) (l := l) h1 h2 h3) (entails_refl _))
        simp only [sep_assoc]
        sep_cancel
      · simp only [CloseE]
        rw [if_pos (by simpa only [state_code] using h)]
        exact ⟨by trivial, by trivial, by trivial⟩
    have hst : ¬ (o.state = .closed ∨ o.state = .closing) := by simpa only [state_code] using h
    have hso : o.socket ≠ -1 := h3 fun h' => hst (Or.inl h')
    have hfd : FdR Fd o.socket = Fd o.socket := by unfold FdR; rw [if_neg hso]
    rw [hfd]
    stepd (loadI_spec (p := p) (off := fSocket) (z := o.socket) ?_ h1)
    step (H.shutdown o.socket tr) into r
    step (H.close o.socket _) into r
    stepd (store_spec (p := p) ?_)
    stepd (store_spec (p := p) ?_)
    have hset : List.set (List.set (blk o hp l) fSocket (intV INVALID_SOCKET)) fState (stateV .closed) = blk { o with socket := -1, state := .closed } hp l := by
      simp [blk, INVALID_SOCKET]
    rw [hset]
    have finish : ∀ evs, evs = [.shutdown o.socket, .close o.socket] ++ evClosed f1 c1 → 
        Net (tr ++ evs) ∗ p ↦ blk { o with socket := -1, state := .closed } hp l ∗ HostR hp o.host ∗ Queue l o.pending ⊢ₕ
        ∃∃ a' evs, (CloseE f1 c1 (some o) 0 a' evs) ⋏ ORep (SockR Fd) p a' ∗ Net (tr ++ evs) := by
      rintro evs rfl
      refine entails_ex_r (some { o with socket := -1, state := .closed }) (entails_ex_r ([.shutdown o.socket, .close o.socket] ++ evClosed f1 c1) (entails_pand_r ?_ ?_))
      · rw [ORep_some]
        refine entails_trans ?_ (sep_mono (SockR_intro (o := { o with socket := -1, state := .closed }) (hp := hp) (l := l) (show i32 (-1) from ⟨by decide, by decide⟩) h2 (by simp)) (entails_refl _))
        simp only [sep_assoc, FdR, if_true]
        sep_cancel
      · simp only [CloseE]
        rw [if_neg hst]
        exact ⟨by trivial, by trivial, by trivial⟩
    refine Triple.ite (fun h => ?_) (fun h => ?_)
    · step (H.on_io_close_complete f1 c1 _ h)
      refine Triple.pure (entails_trans ?_ (finish [.shutdown o.socket, .close o.socket, .closed f1 c1] (by simp [evClosed, h])))
      simp only [List.append_assoc, List.cons_append, List.nil_append]
      sep_cancel
    · refine Triple.pure (entails_trans ?_ (finish [.shutdown o.socket, .close o.socket] (by simp [evClosed]; omega)))
      simp only [List.append_assoc, List.cons_append, List.nil_append]
      sep_cancel

/-! ## Sending -/

/-- the buffer argument of `socketio_send` -/
def BytesArg (s : CharPtr) (n : Nat) : Option (List UInt8) → HProp
  | none => (s = .null) ⋏ emp
  | some bs => (s ≠ .null ∧ n = bs.length) ⋏ Data s bs

theorem addPtr_zero {s : CharPtr} : addPtr s 0 = s := by
  cases s <;> simp [addPtr]

/-- sending from a buffer -/
theorem send_core (H : Honours rel os Net Fd Ai) {s : CharPtr} {bs : List UInt8} {D : HProp} (hD : Src rel s bs D) (hs : s ≠ .null)
    (hm : bs.length ≤ maxObj) (cb ctx : Nat) (p : Ptr) (o : Obj) (tr : List Ev) :
    Triple rel ((SockR Fd p o ∗ Net tr) ∗ D) (socketio_send os p s bs.length cb ctx)
      (fun r => (∃∃ a' evs, (SendE (¬ rel) (some bs) cb ctx (some o) r a' evs) ⋏ ORep (SockR Fd) p a' ∗ Net (tr ++ evs)) ∗ D) := by
  unfold socketio_send
  rw [SockR_eq]
  simp only [hex_sep, pand_sep, sep_assoc]
  hoist
  intro hp l h1 h2 h3
  refine Triple.know (know_pts (p := p) (φ := p ≠ 0) (by pick) fun h1 _ => h1) fun hp0 => ?_
  have finish : ∀ (r : Int) ps evs, SendE (¬ rel) (some bs) cb ctx (some o) r (some { o with pending := ps }) evs →
      p ↦ blk o hp l ∗ HostR hp o.host ∗ Queue l ps ∗ FdR Fd o.socket ∗ Net (tr ++ evs) ∗ D ⊢ₕ
      ∃∃ a' evs, (SendE (¬ rel) (some bs) cb ctx (some o) r a' evs) ⋏ ORep (SockR Fd) p a' ∗ Net (tr ++ evs) ∗ D := by
    intro r ps evs hE
    refine entails_ex_r (some { o with pending := ps }) (entails_ex_r evs (entails_pand_r ?_ hE))
    rw [ORep_some]
    refine entails_trans ?_ (sep_mono (SockR_intro (o := { o with pending := ps }) (hp := hp) (l := l) h1 h2 h3) (entails_refl _))
    simp only [sep_assoc]
    sep_cancel
  have same : ∀ (r : Int) evs, SendE (¬ rel) (some bs) cb ctx (some o) r (some o) evs →
      p ↦ blk o hp l ∗ HostR hp o.host ∗ Queue l o.pending ∗ FdR Fd o.socket ∗ Net (tr ++ evs) ∗ D ⊢ₕ
      ∃∃ a' evs, (SendE (¬ rel) (some bs) cb ctx (some o) r a' evs) ⋏ ORep (SockR Fd) p a' ∗ Net (tr ++ evs) ∗ D := by
    intro r evs hE
    exact finish r o.pending evs hE
  refine Triple.ite (fun h => ?_) (fun h => ?_)
  · have h0 : bs = [] := by
      rcases h with h | h | h
      · exact absurd h hp0
      · exact absurd h hs
      · exact List.length_eq_zero_iff.1 h
    refine Triple.pure (entails_trans ?_ (same 373 [] ?_))
    · rw [List.append_nil]; exact entails_refl _
    · simp only [SendE]
      rw [if_pos (Or.inl h0)]
      exact ⟨by decide, by trivial, by trivial⟩
  have hne : bs ≠ [] := by
    rintro rfl; exact h (Or.inr (Or.inr rfl))
  stepd (loadInt_spec (p := p) (n := o.state.code) ?_)
  refine Triple.ite (fun h => ?_) (fun h => ?_)
  · refine Triple.pure (entails_trans ?_ (same 381 [] ?_))
    · rw [List.append_nil]; sep_cancel
    · simp only [SendE]
      rw [if_pos (Or.inr fun h' => h (by rw [h']))]
      exact ⟨by decide, by trivial, by trivial⟩
  have hst : o.state = .opn := state_code.1 (Decidable.not_not.1 h)
  have hopen : ¬ (bs = [] ∨ o.state ≠ .opn) := by simp [hne, hst]
  have hso : o.socket ≠ -1 := h3 (by simp [hst])
  have hfd : FdR Fd o.socket = Fd o.socket := by unfold FdR; rw [if_neg hso]
  stepd (loadPtr_spec (p := p) (q := l) ?_)
  rw [Queue_eq]
  hoist
  intro ns
  try simp only [sep_assoc]
  refine Triple.know (φ := ns.length = o.pending.length) ?_ fun hl => ?_
  · intro hh hP
    have : Pick (p ↦ blk o hp l ∗ HostR hp o.host ∗ ListR l ns ∗ Own (PendR l) (List.map Prod.snd ns) o.pending ∗ FdR Fd o.socket ∗ Net tr ∗ D)
      (Own (PendR l) (List.map Prod.snd ns) o.pending) (p ↦ blk o hp l ∗ HostR hp o.host ∗ ListR l ns ∗ FdR Fd o.socket ∗ Net tr ∗ D) := by pick
    unfold Pick at this
    rw [this] at hP
    obtain ⟨_, _, _, _, hO, _⟩ := hP
    simpa using hO.1
  refine Triple.know (know_ListR (h := l) (ns := ns) (by pick)) fun hk => ?_
  step (list_get_head_item_spec (rel := rel) (h := l) (a := some ns))
  simp only [OList, ORep_some, Option.getD_some]
  have hzero : first ns 0 ≠ 0 ↔ o.pending ≠ [] := by
    cases ns with
    | nil =>
      have : o.pending = [] := List.length_eq_zero_iff.1 (by simpa using hl.symm)
      simp [first, this]
    | cons a ns =>
      have : o.pending ≠ [] := by intro h0; rw [h0] at hl; simp at hl
      have ha : a.1 ≠ 0 := fun h0 => hk.2.2 (by simp [h0])
      simp [first, this, ha]
  have toQ : ListR l ns ∗ Own (PendR l) (ns.map Prod.snd) o.pending ⊢ₕ Queue l o.pending := entails_ex_r ns (entails_refl _)
  have add := fun n => add_pending_io_spec (n := n) (rel := rel) (p := p) (hp := hp) (l := l) (o := o) (ps := o.pending) (s := s) (bs := bs) (D := D) (cb := cb) (ctx := ctx) hD hm
  refine Triple.ite (fun h => ?_) (fun h => ?_)
  · have hpd := hzero.1 h
    have hlen : 0 < bs.length := List.length_pos_iff.2 hne
    have := add 0 hlen
    rw [addPtr_zero, Nat.sub_zero, List.drop_zero] at this
    refine (fun h1 h2 => Triple.pre (P' := p ↦ blk o hp l ∗ HostR hp o.host ∗ Queue l o.pending ∗ FdR Fd o.socket ∗ Net tr ∗ D) h2 h1) ?_ ?_
    · refine entails_trans ?_ (sep_mono (entails_refl _) (sep_mono (entails_refl _) (sep_mono toQ (entails_refl _))))
      simp only [sep_assoc]; sep_cancel
    step this into r
    intro ps' hA
    rcases hA with ⟨rfl, rfl⟩ | ⟨hr, hrel, rfl⟩
    · rw [if_neg (by simp)]
      refine Triple.pure (entails_trans ?_ (finish 0 (o.pending ++ [⟨bs, cb, ctx⟩]) [] ?_))
      · rw [List.append_nil]; sep_cancel
      · simp only [SendE]
        rw [if_neg hopen, if_pos hpd]
        exact ⟨by trivial, Or.inl ⟨by trivial, by trivial⟩⟩
    · rw [if_pos hr]
      refine Triple.pure (entails_trans ?_ (same 391 [] ?_))
      · rw [List.append_nil]; sep_cancel
      · simp only [SendE]
        rw [if_neg hopen, if_pos hpd]
        exact ⟨by trivial, Or.inr ⟨by decide, hrel, by trivial⟩⟩
  have hpd : o.pending = [] := Decidable.not_not.1 fun h' => h (hzero.2 h')
  rw [hfd]
  stepd (loadI_spec (p := p) (off := fSocket) (z := o.socket) ?_ h1)
  step (sendTo_spec H hD (tr := tr) (fd := o.socket)) into r
  intro hr1 hr2 hr3
  have hsz : maxObj < szMod - 1 := by decide
  have hlen : 0 < bs.length := List.length_pos_iff.2 hne
  rw [hfd] at finish same
  refine (fun h1 h2 => Triple.pre (P' := p ↦ blk o hp l ∗ HostR hp o.host ∗ Queue l o.pending ∗ Fd o.socket ∗ Net (tr ++ [.send o.socket bs r]) ∗ D) h2 h1) ?_ ?_
  · refine entails_trans ?_ (sep_mono (entails_refl _) (sep_mono (entails_refl _) (sep_mono toQ (entails_refl _))))
    simp only [sep_assoc]; sep_cancel
  refine Triple.ite (fun hne' => ?_) (fun heq => ?_)
  · refine Triple.ite (fun h => ?_) (fun h => ?_)
    · subst h
      step (indicate_error_spec H (p := p) (hp := hp) (l := l) (o := o))
      refine Triple.pure (entails_trans ?_ (same 407 (.send o.socket bs (-1) :: evError o) ?_))
      · rw [List.append_assoc]; exact entails_trans (by sep_cancel) (entails_refl _)
      · simp only [SendE]
        rw [if_neg hopen, if_neg (by simp [hpd])]
        exact Or.inr (Or.inl ⟨by decide, by trivial, by trivial⟩)
    · have hr : 0 ≤ r := by unfold INVALID_SOCKET at h; omega
      have hn : r.toNat < bs.length := by
        have : (r % szMod).toNat = r.toNat := by
          rw [Int.emod_eq_of_lt hr (by omega)]
        omega
      have hev : [Ev.send o.socket bs r] = [Ev.send o.socket bs (r.toNat : Nat)] := by rw [Int.toNat_of_nonneg hr]
      rw [hev]
      step (add r.toNat hn) into r'
      intro ps' hA
      rcases hA with ⟨rfl, rfl⟩ | ⟨hr', hrel, rfl⟩
      · rw [if_neg (by simp)]
        refine Triple.pure (entails_trans ?_ (finish 0 (o.pending ++ [⟨bs.drop r.toNat, cb, ctx⟩]) [.send o.socket bs (r.toNat : Nat)] ?_))
        · sep_cancel
        · simp only [SendE]
          rw [if_neg hopen, if_neg (by simp [hpd])]
          exact Or.inr (Or.inr ⟨r.toNat, hn, rfl, Or.inl ⟨by trivial, by rw [hpd]; rfl⟩⟩)
      · rw [if_pos hr']
        refine Triple.pure (entails_trans ?_ (same 415 [.send o.socket bs (r.toNat : Nat)] ?_))
        · sep_cancel
        · simp only [SendE]
          rw [if_neg hopen, if_neg (by simp [hpd])]
          exact Or.inr (Or.inr ⟨r.toNat, hn, rfl, Or.inr ⟨by decide, hrel, by trivial⟩⟩)
  · have hr : r = bs.length := by
      by_cases h0 : r = -1
      · subst h0; exfalso; apply heq
        have : ((-1 : Int) % szMod).toNat = szMod - 1 := by decide
        omega
      · have : (r % szMod).toNat = r.toNat := by rw [Int.emod_eq_of_lt (a := r) (b := szMod) (by omega) (by omega)]
        omega
    subst hr
    refine Triple.ite (fun h => ?_) (fun h => ?_)
    · step (H.on_send_complete cb ctx true _ h)
      refine Triple.pure (entails_trans ?_ (same 0 [.send o.socket bs bs.length, .completed cb ctx true] ?_))
      · simp only [List.append_assoc, List.cons_append, List.nil_append]; sep_cancel
      · simp only [SendE]
        rw [if_neg hopen, if_neg (by simp [hpd])]
        exact Or.inl ⟨by trivial, by trivial, by simp [evCompleted, h]⟩
    · refine Triple.pure (entails_trans ?_ (same 0 [.send o.socket bs bs.length] ?_))
      · exact entails_refl _
      · simp only [SendE]
        rw [if_neg hopen, if_neg (by simp [hpd])]
        exact Or.inl ⟨by trivial, by trivial, by simp [evCompleted]; omega⟩

/-- `socketio_send` -/
theorem socketio_send_spec (H : Honours rel os Net Fd Ai) (s : CharPtr) (n : Nat) (bytes : Option (List UInt8)) (cb ctx : Nat) (p : Ptr) (a : Option Obj) (tr : List Ev) :
    Triple rel (ORep (SockR Fd) p a ∗ Net tr ∗ BytesArg s n bytes) (socketio_send os p s n cb ctx)
      (fun r => ∃∃ a' evs, (SendE (¬ rel) bytes cb ctx a r a' evs) ⋏ ORep (SockR Fd) p a' ∗ Net (tr ++ evs) ∗ BytesArg s n bytes) := by
  cases a with
  | none =>
    unfold socketio_send
    rw [ORep_none]
    hoist
    rintro rfl
    rw [if_pos (Or.inl rfl)]
    refine Triple.pure (entails_ex_r none (entails_ex_r [] (entails_pand_r ?_ ⟨by decide, rfl, rfl⟩)))
    rw [ORep_null, emp_sep, List.append_nil]; exact entails_refl _
  | some o =>
    cases bytes with
    | none =>
      unfold socketio_send
      simp only [BytesArg]
      hoist
      intro hs
      rw [if_pos (Or.inr (Or.inl hs))]
      refine Triple.pure (entails_ex_r (some o) (entails_ex_r [] (entails_pand_r ?_ ⟨by decide, rfl, rfl⟩)))
      rw [List.append_nil]
      rw [sep_pand, sep_pand, sep_emp]
      exact entails_pand_r (entails_refl _) hs
    | some bs =>
      simp only [BytesArg]
      hoist
      rintro hs rfl
      refine Triple.know (know_Data (s := s) (bs := bs) (by pick)) fun hm => ?_
      refine (Src_data (rel := rel) (s := s) (bs := bs) hs fun D hD => send_core H hD hs hm cb ctx p o tr).conseq ?_ fun r => ?_
      · rw [sep_assoc]; exact entails_refl _
      · simp only [hex_sep, pand_sep]
        refine entails_ex_l fun a' => entails_ex_l fun evs => entails_pand_l fun hE => entails_ex_r a' (entails_ex_r evs (entails_pand_r ?_ hE))
        rw [sep_pand, sep_pand, sep_assoc]
        exact entails_pand_r (entails_refl _) ⟨hs, by trivial⟩

end Verif.Sock
