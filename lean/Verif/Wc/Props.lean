import Verif.Wc.Spec
import Verif.Mb.Read
import Verif.Sock.Props
/-! # The calls of `WolfSSLConnection` do what `Wc.Spec` says -/
set_option linter.unusedSimpArgs false
set_option linter.unusedVariables false
namespace Verif.Wc
open Verif.Mb (Wire Put Received Bytes Text)
open Verif.Sock (intV loadI loadI_spec i32)

variable {rel : Prop} {t : Tls} {R : Reps} {Peer : Text → Wire → Prop} {W : Prop}

def fdZ : Option Nat → Int
  | none => -1
  | some n => n
/-- the slots of an object -/
def blk (x : Nat) (s : Val) (conn : Nat) (fd : Option Nat) (tl : List Val) : Block := .ptr x :: s :: .int conn :: intV (fdZ fd) :: tl

def Sess (R : Reps) : List Nat → HProp
  | [] => emp
  | s :: ss => (∃∃ f : Option Nat, R.Ses s f) ∗ Sess R ss
def OSk (R : Reps) : Option Nat → HProp
  | none => emp
  | some fd => ∃∃ u : Option Text, R.Sk fd u

/-- an object that is not connected -/
def IdleR (R : Reps) (c : Nat) (o : Ob) : HProp := ∃∃ (s : Val) (tl : List Val), (o.Ok ∧ tl.length = 4) ⋏
  c ↦ blk o.ctx s 0 o.fd tl ∗ R.CtxN o.ctx o.refs ∗ Sess R o.sessions ∗ OSk R o.fd
/-- an object that is connected -/
def LiveR (R : Reps) (c : Nat) (o : Ob) (w : Wire) : HProp := ∃∃ (s fd : Nat) (ss : List Nat) (tl : List Val), (o.Ok ∧ tl.length = 4 ∧ o.sessions = s :: ss ∧ o.fd = some fd) ⋏
  c ↦ blk o.ctx (.ptr s) 1 o.fd tl ∗ R.CtxN o.ctx o.refs ∗ Sess R ss ∗ R.Live s fd w
def ObR (R : Reps) (c : Nat) (o : Ob) : HProp := match o.live with
  | none => IdleR R c o
  | some w => LiveR R c o w

theorem IdleR_eq {c : Nat} {o : Ob} : IdleR R c o = ∃∃ (s : Val) (tl : List Val), (o.Ok ∧ tl.length = 4) ⋏
  c ↦ blk o.ctx s 0 o.fd tl ∗ R.CtxN o.ctx o.refs ∗ Sess R o.sessions ∗ OSk R o.fd := rfl
theorem LiveR_eq {c : Nat} {o : Ob} {w : Wire} : LiveR R c o w = ∃∃ (s fd : Nat) (ss : List Nat) (tl : List Val), (o.Ok ∧ tl.length = 4 ∧ o.sessions = s :: ss ∧ o.fd = some fd) ⋏
  c ↦ blk o.ctx (.ptr s) 1 o.fd tl ∗ R.CtxN o.ctx o.refs ∗ Sess R ss ∗ R.Live s fd w := rfl
theorem ObR_idle {c : Nat} {o : Ob} (h : o.live = none) : ObR R c o = IdleR R c o := by unfold ObR; rw [h]
theorem ObR_live {c : Nat} {o : Ob} {w : Wire} (h : o.live = some w) : ObR R c o = LiveR R c o w := by unfold ObR; rw [h]

theorem IdleR_intro {c : Nat} {o : Ob} {s : Val} {tl : List Val} (h : o.Ok) (hl : o.live = none) (ht : tl.length = 4) :
    c ↦ blk o.ctx s 0 o.fd tl ∗ R.CtxN o.ctx o.refs ∗ Sess R o.sessions ∗ OSk R o.fd ⊢ₕ ObR R c o := by
  rw [ObR_idle hl]; exact entails_ex_r s (entails_ex_r tl (entails_pand_r (entails_refl _) ⟨h, ht⟩))
theorem LiveR_intro {c : Nat} {o : Ob} {w : Wire} {s fd : Nat} {ss : List Nat} {tl : List Val} (h : o.Ok) (hl : o.live = some w) (ht : tl.length = 4)
    (hs : o.sessions = s :: ss) (hf : o.fd = some fd) :
    c ↦ blk o.ctx (.ptr s) 1 o.fd tl ∗ R.CtxN o.ctx o.refs ∗ Sess R ss ∗ R.Live s fd w ⊢ₕ ObR R c o := by
  rw [ObR_live hl]; exact entails_ex_r s (entails_ex_r fd (entails_ex_r ss (entails_ex_r tl (entails_pand_r (entails_refl _) ⟨h, ht, hs, hf⟩))))

theorem CtxN_succ {x k : Nat} : R.CtxN x (k + 1) = R.Ctx x (k + 1) := rfl

theorem fdZ_i32 {fd : Option Nat} (h : ∀ n, fd = some n → n < 2 ^ 31) : i32 (fdZ fd) := by
  unfold i32 fdZ
  cases fd with
  | none => simp
  | some n => have := h n rfl; simp; omega

/-- `Socket::close` -/
theorem sockClose_spec (H : Honours rel t R Peer W) {c x conn : Nat} {s : Val} {fd : Option Nat} {tl : List Val} {tr : List TEv} (hf : ∀ n, fd = some n → n < 2 ^ 31) :
    Triple rel (c ↦ blk x s conn fd tl ∗ R.Net tr ∗ OSk R fd) (sockClose t c)
      (fun r => (r = if fd = none then -1 else 0) ⋏ c ↦ blk x s conn none tl ∗ R.Net (tr ++ closing fd)) := by
  unfold sockClose
  step (loadI_spec (p := c) (b := blk x s conn fd tl) (off := fFd) (z := fdZ fd) rfl (fdZ_i32 hf))
  cases fd with
  | none =>
    rw [if_pos (by simp [fdZ])]
    refine Triple.pure (entails_pand_r ?_ (by simp))
    rw [closing, List.append_nil, OSk, sep_emp]; exact entails_refl _
  | some n =>
    rw [if_neg (by simp [fdZ]), OSk]
    hoist; intro u
    step (H.close n u tr)
    step (store_spec (p := c) (off := fFd) (b := blk x s conn (some n) tl) (v := intV (-1)) (by simp [blk, fFd]))
    refine Triple.pure (entails_pand_r ?_ (by simp))
    show _ ⊢ₕ c ↦ blk x s conn none tl ∗ _
    rw [closing]
    sep_cancel

theorem construct_spec (H : Honours rel t R Peer W) {c : Nat} {b : Block} {tr : List TEv} (hb : b.length = 8) :
    Triple rel (R.Net tr ∗ c ↦ b) (construct t c) (fun _ => ∃∃ (o : Ob) (evs : List TEv), (Constructed o evs) ⋏ R.Net (tr ++ evs) ∗ ObR R c o) := by
  unfold construct
  obtain ⟨b0, b1, b2, b3, b4, b5, b6, b7, rfl⟩ : ∃ b0 b1 b2 b3 b4 b5 b6 b7, b = [b0, b1, b2, b3, b4, b5, b6, b7] := by
    match b, hb with
    | [b0, b1, b2, b3, b4, b5, b6, b7], _ => exact ⟨_, _, _, _, _, _, _, _, rfl⟩
  step (store_spec (p := c) (off := fFd) (b := [b0, b1, b2, b3, b4, b5, b6, b7]) (v := intV (-1)) (by simp [fFd]))
  step (H.init tr)
  step H.method into m
  have none_case : ∀ k : Nat, k = 0 → c ↦ blk 0 b1 0 none [b4, b5, b6, b7] ∗ R.Net (tr ++ [.init]) ⊢ₕ
      ∃∃ (o : Ob) (evs : List TEv), (Constructed o evs) ⋏ R.Net (tr ++ evs) ∗ ObR R c o := fun _ _ => by
    refine entails_ex_r ⟨0, 0, [], none, none⟩ (entails_ex_r [.init] (entails_pand_r ?_ (.inl ⟨rfl, rfl⟩)))
    refine entails_trans ?_ (sep_mono (entails_refl _) (IdleR_intro (s := b1) (tl := [b4, b5, b6, b7]) ⟨by simp, by simp, by simp, by simp⟩ rfl rfl))
    show _ ⊢ₕ _ ∗ c ↦ blk 0 b1 0 none [b4, b5, b6, b7] ∗ emp ∗ emp ∗ emp
    rw [sep_emp, sep_emp, sep_emp]; sep_cancel
  refine Triple.ite (fun hm => ?_) fun hm => ?_
  · step (H.ctxNew m (tr ++ [.init]) hm) into x
    cases x with
    | zero =>
      dsimp only
      step (store_spec (p := c) (off := fCtx) (b := [b0, b1, b2, intV (-1), b4, b5, b6, b7]) (v := .ptr 0) (by simp))
      last (store_spec (p := c) (off := fConn) (b := [.ptr 0, b1, b2, intV (-1), b4, b5, b6, b7]) (v := .int 0) (by simp [fConn]))
      exact none_case 0 rfl
    | succ x =>
      dsimp only
      step (store_spec (p := c) (off := fCtx) (b := [b0, b1, b2, intV (-1), b4, b5, b6, b7]) (v := .ptr (x + 1)) (by simp))
      last (store_spec (p := c) (off := fConn) (b := [.ptr (x + 1), b1, b2, intV (-1), b4, b5, b6, b7]) (v := .int 0) (by simp [fConn]))
      refine entails_ex_r ⟨x + 1, 1, [], none, none⟩ (entails_ex_r [.init, .ctx (x + 1)] (entails_pand_r ?_ (.inr ⟨x + 1, by omega, rfl, rfl⟩)))
      refine entails_trans ?_ (sep_mono (entails_refl _) (IdleR_intro (s := b1) (tl := [b4, b5, b6, b7]) ⟨by simp, by simp, by simp, by simp⟩ rfl rfl))
      show _ ⊢ₕ _ ∗ c ↦ blk (x + 1) b1 0 none [b4, b5, b6, b7] ∗ R.Ctx (x + 1) 1 ∗ emp ∗ emp
      rw [sep_emp, sep_emp]
      simp only [List.append_assoc, List.cons_append, List.nil_append, emp_sep, sep_emp, sep_assoc]
      show (c ↦ blk (x + 1) b1 0 none [b4, b5, b6, b7] ∗ _) ⊢ₕ _
      sep_cancel
  · step (store_spec (p := c) (off := fCtx) (b := [b0, b1, b2, intV (-1), b4, b5, b6, b7]) (v := .ptr 0) (by simp))
    last (store_spec (p := c) (off := fConn) (b := [.ptr 0, b1, b2, intV (-1), b4, b5, b6, b7]) (v := .int 0) (by simp [fConn]))
    exact none_case 0 rfl

/-- what an object leaves behind: references on its context, and its sessions -/
def LeftR (R : Reps) (o : Ob) : HProp := R.CtxN o.ctx (o.refs - 1) ∗ Sess R o.sessions

/-- an object is a socket, if it has one, and the rest -/
theorem ObR_parts (H : Honours rel t R Peer W) {c : Nat} {o : Ob} : ObR R c o ⊢ₕ
    ∃∃ (s : Val) (conn : Nat) (tl : List Val), (o.Ok ∧ tl.length = 4) ⋏ c ↦ blk o.ctx s conn o.fd tl ∗ R.CtxN o.ctx o.refs ∗ Sess R o.sessions ∗ OSk R o.fd := by
  cases hl : o.live with
  | none =>
    rw [ObR_idle hl, IdleR_eq]
    exact entails_ex_l fun s => entails_ex_l fun tl => entails_ex_r s (entails_ex_r 0 (entails_ex_r tl (entails_refl _)))
  | some w =>
    rw [ObR_live hl, LiveR_eq]
    refine entails_ex_l fun s => entails_ex_l fun fd => entails_ex_l fun ss => entails_ex_l fun tl => entails_pand_l fun ⟨h1, h2, h3, h4⟩ => ?_
    refine entails_ex_r (.ptr s) (entails_ex_r 1 (entails_ex_r tl (entails_pand_r ?_ ⟨h1, h2⟩)))
    rw [h3, h4]
    refine entails_trans (sep_mono (entails_refl _) (sep_mono (entails_refl _) (sep_mono (entails_refl _) (H.apart s fd w)))) ?_
    rw [Sess, OSk]
    simp only [hex_sep, sep_hex]
    refine entails_ex_l fun u => entails_ex_r u (entails_ex_r (some fd) ?_)
    sep_cancel

theorem destruct_spec (H : Honours rel t R Peer W) {c : Nat} {o : Ob} {tr : List TEv} :
    Triple rel (R.Net tr ∗ ObR R c o) (destruct t c) (fun _ => R.Net (tr ++ destroying o) ∗ (∃∃ b : Block, c ↦ b) ∗ LeftR R o) := by
  refine Triple.pre (?_ : Triple rel (R.Net tr ∗ _) _ _) (sep_mono (entails_refl _) (ObR_parts H))
  hoist; intro s conn tl ho htl
  unfold destruct
  step (loadPtr_spec (p := c) (b := blk o.ctx s conn o.fd tl) (off := fCtx) (q := o.ctx) rfl)
  refine Triple.ite (fun hx => ?_) fun hx => ?_
  · obtain ⟨k, hk⟩ : ∃ k, o.refs = k + 1 := ⟨o.refs - 1, by have := ho.some hx; omega⟩
    rw [hk, CtxN_succ]
    step (H.ctxFree o.ctx k tr)
    step (store_spec (p := c) (off := fCtx) (b := blk o.ctx s conn o.fd tl) (v := .ptr 0) (by simp [blk, fCtx]))
    step (H.cleanup (tr ++ [.ctxFree o.ctx]))
    step (sockClose_spec H (c := c) (x := 0) (s := s) (conn := conn) (fd := o.fd) (tl := tl) (tr := tr ++ [.ctxFree o.ctx] ++ [.cleanup]) ho.small) into r
    intro _
    refine Triple.pure ?_
    simp only [LeftR, hk, Nat.add_sub_cancel, hex_sep, sep_hex]
    refine entails_ex_r (blk 0 s conn none tl) ?_
    simp only [destroying, if_neg hx, List.append_assoc]
    sep_cancel
  · have hx : o.ctx = 0 := by omega
    obtain ⟨h1, h2, h3⟩ := ho.none hx
    step (H.cleanup tr)
    step (sockClose_spec H (c := c) (x := o.ctx) (s := s) (conn := conn) (fd := o.fd) (tl := tl) (tr := tr ++ [.cleanup]) ho.small) into r
    intro _
    refine Triple.pure ?_
    simp only [LeftR, h1, Nat.zero_sub, hex_sep, sep_hex]
    refine entails_ex_r (blk o.ctx s conn none tl) ?_
    simp only [destroying, if_pos hx, List.append_assoc, List.nil_append]
    sep_cancel

theorem isConnected_spec {c : Nat} {o : Ob} : Triple rel (ObR R c o) (isConnected c) (fun b => (b = o.live.isSome) ⋏ ObR R c o) := by
  unfold isConnected
  cases hl : o.live with
  | none =>
    rw [ObR_idle hl]
    conv => arg 2; rw [IdleR_eq]
    hoist; intro s tl ho htl
    step (loadInt_spec (p := c) (b := blk o.ctx s 0 o.fd tl) (off := fConn) (n := 0) rfl)
    exact Triple.pure (entails_pand_r (entails_ex_r s (entails_ex_r tl (entails_pand_r (entails_refl _) ⟨ho, htl⟩))) rfl)
  | some w =>
    rw [ObR_live hl]
    conv => arg 2; rw [LiveR_eq]
    hoist; intro s fd ss tl ho htl hs hf
    step (loadInt_spec (p := c) (b := blk o.ctx (.ptr s) 1 o.fd tl) (off := fConn) (n := 1) rfl)
    exact Triple.pure (entails_pand_r (entails_ex_r s (entails_ex_r fd (entails_ex_r ss (entails_ex_r tl (entails_pand_r (entails_refl _) ⟨ho, htl, hs, hf⟩))))) rfl)

theorem close_spec (H : Honours rel t R Peer W) {c : Nat} {o : Ob} {tr : List TEv} :
    Triple rel (R.Net tr ∗ ObR R c o) (close t c) (fun r => ∃∃ (o' : Ob) (evs : List TEv), (Closed o r o' evs) ⋏ R.Net (tr ++ evs) ∗ ObR R c o') := by
  unfold close
  cases hl : o.live with
  | none =>
    conv => arg 2; rw [ObR_idle hl, IdleR_eq]
    hoist; intro s tl ho htl
    step (loadInt_spec (p := c) (b := blk o.ctx s 0 o.fd tl) (off := fConn) (n := 0) rfl)
    rw [if_pos rfl]
    refine Triple.pure (entails_ex_r o (entails_ex_r [] (entails_pand_r ?_ ⟨rfl, by rw [hl]; exact ⟨rfl, rfl⟩⟩)))
    refine entails_trans ?_ (sep_mono (entails_refl _) (IdleR_intro (s := s) (tl := tl) ho hl htl))
    rw [List.append_nil]
    sep_cancel
  | some w =>
    conv => arg 2; rw [ObR_live hl, LiveR_eq]
    hoist; intro s fd ss tl ho htl hs hf
    have hlv := ho.live (by rw [hl]; simp)
    obtain ⟨k, hk⟩ : ∃ k, o.refs = k + 2 := ⟨o.refs - 2, by omega⟩
    rw [hk, CtxN_succ, hf]
    step (loadInt_spec (p := c) (b := blk o.ctx (.ptr s) 1 (some fd) tl) (off := fConn) (n := 1) rfl)
    rw [if_neg (by simp)]
    step (store_spec (p := c) (off := fConn) (b := blk o.ctx (.ptr s) 1 (some fd) tl) (v := .int 0) (by simp [blk, fConn]))
    step (loadPtr_spec (p := c) (b := blk o.ctx (.ptr s) 0 (some fd) tl) (off := fCtx) (q := o.ctx) rfl)
    step (H.ctxFree o.ctx (k + 1) tr)
    refine Triple.pre (?_ : Triple rel (c ↦ blk o.ctx (.ptr s) 0 (some fd) tl ∗ R.Net (tr ++ [.ctxFree o.ctx]) ∗ R.CtxN o.ctx (k + 1) ∗ Sess R (s :: ss) ∗ OSk R (some fd)) _ _) ?_
    rotate_left
    · refine entails_trans (Q := c ↦ blk o.ctx (.ptr s) 0 (some fd) tl ∗ R.Net (tr ++ [.ctxFree o.ctx]) ∗ R.CtxN o.ctx (k + 1) ∗ Sess R ss ∗ R.Live s fd w) (by sep_cancel) ?_
      refine entails_trans (sep_mono (entails_refl _) (sep_mono (entails_refl _) (sep_mono (entails_refl _) (sep_mono (entails_refl _) (H.apart s fd w))))) ?_
      rw [Sess, OSk]
      simp only [hex_sep, sep_hex]
      refine entails_ex_l fun u => entails_ex_r u (entails_ex_r (some fd) ?_)
      sep_cancel
    step (sockClose_spec H (c := c) (x := o.ctx) (s := .ptr s) (conn := 0) (fd := some fd) (tl := tl) (tr := tr ++ [.ctxFree o.ctx]) (fun n e => ho.small n (by rw [hf, e]))) into r
    intro hr
    refine Triple.pure (entails_ex_r { o with refs := o.refs - 1, fd := none, live := none } (entails_ex_r (.ctxFree o.ctx :: closing o.fd) (entails_pand_r ?_
      ⟨by rw [hr]; rfl, by rw [hl]; exact ⟨rfl, rfl⟩⟩)))
    refine entails_trans ?_ (sep_mono (entails_refl _) (IdleR_intro (s := .ptr s) (tl := tl)
      ⟨fun h => absurd (ho.none h).2.2 (by rw [hl]; simp), fun _ => by simp [hk], fun h => absurd rfl h, fun n e => by cases e⟩ rfl htl))
    simp only [hk, hs, hf, OSk, sep_emp, List.append_assoc, List.cons_append, List.nil_append]
    show _ ⊢ₕ _ ∗ c ↦ blk o.ctx (.ptr s) 0 none tl ∗ R.CtxN o.ctx (k + 1) ∗ Sess R (s :: ss)
    sep_cancel

theorem initSocket_spec (H : Honours rel t R Peer W) {c x conn : Nat} {s : Val} {fd : Option Nat} {tl : List Val} {tr : List TEv} (hf : ∀ n, fd = some n → n < 2 ^ 31) :
    Triple rel (c ↦ blk x s conn fd tl ∗ R.Net tr) (initSocket t c)
      (fun r => ∃∃ (g : Option Nat), ((r < 0 ∧ g = none) ∨ (0 ≤ r ∧ fd = none ∧ ∃ n, g = some n ∧ n < 2 ^ 31)) ⋏ match g with
        | none => c ↦ blk x s conn fd tl ∗ R.Net tr
        | some n => c ↦ blk x s conn (some n) tl ∗ R.Net (tr ++ [.socket n]) ∗ R.Sk n none) := by
  unfold initSocket
  step (loadI_spec (p := c) (b := blk x s conn fd tl) (off := fFd) (z := fdZ fd) rfl (fdZ_i32 hf))
  cases fd with
  | some n =>
    rw [if_pos (by simp [fdZ])]
    exact Triple.pure (entails_ex_r none (entails_pand_r (entails_refl _) (.inl ⟨by decide, rfl⟩)))
  | none =>
    rw [if_neg (by simp [fdZ])]
    step (H.socket tr) into r
    intro hr
    cases r with
    | negSucc m =>
      rw [if_pos (by omega)]
      exact Triple.pure (entails_ex_r none (entails_pand_r (by dsimp only; sep_cancel) (.inl ⟨by decide, rfl⟩)))
    | ofNat n =>
      rw [if_neg (by simp)]
      dsimp only
      step (store_spec (p := c) (off := fFd) (b := blk x s conn none tl) (v := intV n) (by simp [blk, fFd]))
      refine Triple.pure (entails_ex_r (some n) (entails_pand_r ?_ (.inr ⟨by decide, rfl, n, rfl, by simp at hr; omega⟩)))
      show (c ↦ blk x s conn (some n) tl ∗ _) ⊢ₕ _
      dsimp only
      sep_cancel

theorem connect_spec (H : Honours rel t R Peer W) {c : Nat} {o : Ob} {V : HProp} {p : CharPtr} {host : Text} {port : Nat} {tr : List TEv} (hp : Reads V p host) :
    Triple rel (R.Net tr ∗ ObR R c o ∗ V) (connect t c p port) (fun r => ∃∃ (o' : Ob) (evs : List TEv), (Connected Peer o host r o' evs) ⋏ R.Net (tr ++ evs) ∗ ObR R c o' ∗ V) := by
  unfold connect
  cases hl : o.live with
  | some w =>
    conv => arg 2; rw [ObR_live hl, LiveR_eq]
    hoist; intro s fd ss tl ho htl hs hf
    have back : R.Net tr ∗ c ↦ blk o.ctx (.ptr s) 1 o.fd tl ∗ R.CtxN o.ctx o.refs ∗ Sess R ss ∗ R.Live s fd w ∗ V ⊢ₕ R.Net (tr ++ []) ∗ ObR R c o ∗ V := by
      rw [List.append_nil]
      refine entails_trans (Q := R.Net tr ∗ (c ↦ blk o.ctx (.ptr s) 1 o.fd tl ∗ R.CtxN o.ctx o.refs ∗ Sess R ss ∗ R.Live s fd w) ∗ V) (by sep_cancel) ?_
      exact sep_mono (entails_refl _) (sep_mono (LiveR_intro ho hl htl hs hf) (entails_refl _))
    step (loadPtr_spec (p := c) (b := blk o.ctx (.ptr s) 1 o.fd tl) (off := fCtx) (q := o.ctx) rfl)
    refine Triple.ite (fun hx => ?_) fun hx => ?_
    · exact Triple.pure (entails_ex_r o (entails_ex_r [] (entails_pand_r (entails_trans (by (try simp only [sep_assoc]); sep_cancel) back) (.noCtx hx (by decide)))))
    step (initSocket_spec H (c := c) (x := o.ctx) (s := .ptr s) (conn := 1) (fd := o.fd) (tl := tl) (tr := tr) ho.small) into r
    rintro g (⟨h1, rfl⟩ | ⟨_, h2, _⟩)
    · rw [if_pos h1]
      dsimp only
      exact Triple.pure (entails_ex_r o (entails_ex_r [] (entails_pand_r (entails_trans (by (try simp only [sep_assoc]); sep_cancel) back) (.again hx (by rw [hf]; simp) (by decide)))))
    · rw [hf] at h2; cases h2
  | none =>
  conv => arg 2; rw [ObR_idle hl, IdleR_eq]
  hoist; intro s tl ho htl
  obtain ⟨a0, a1, a2, a3, rfl⟩ : ∃ a0 a1 a2 a3, tl = [a0, a1, a2, a3] := by
    match tl, htl with
    | [a0, a1, a2, a3], _ => exact ⟨_, _, _, _, rfl⟩
  step (loadPtr_spec (p := c) (b := blk o.ctx s 0 o.fd [a0, a1, a2, a3]) (off := fCtx) (q := o.ctx) rfl)
  have back : c ↦ blk o.ctx s 0 o.fd [a0, a1, a2, a3] ∗ R.Net tr ∗ R.CtxN o.ctx o.refs ∗ Sess R o.sessions ∗ OSk R o.fd ∗ V ⊢ₕ R.Net (tr ++ []) ∗ ObR R c o ∗ V := by
    rw [List.append_nil]
    refine entails_trans (Q := R.Net tr ∗ (c ↦ blk o.ctx s 0 o.fd [a0, a1, a2, a3] ∗ R.CtxN o.ctx o.refs ∗ Sess R o.sessions ∗ OSk R o.fd) ∗ V) (by sep_cancel) ?_
    exact sep_mono (entails_refl _) (sep_mono (IdleR_intro ho hl rfl) (entails_refl _))
  refine Triple.ite (fun hx => ?_) fun hx => ?_
  · exact Triple.pure (entails_ex_r o (entails_ex_r [] (entails_pand_r (entails_trans (by (try simp only [sep_assoc]); sep_cancel) back) (.noCtx hx (by decide)))))
  step (initSocket_spec H (c := c) (x := o.ctx) (s := s) (conn := 0) (fd := o.fd) (tl := [a0, a1, a2, a3]) (tr := tr) ho.small) into r
  rintro g (⟨h1, rfl⟩ | ⟨h1, hfd, n, rfl, hn⟩)
  · rw [if_pos h1]
    dsimp only
    refine Triple.pure (entails_ex_r o (entails_ex_r [] (entails_pand_r (entails_trans (by (try simp only [sep_assoc]); sep_cancel) back) ?_)))
    by_cases hf : o.fd = none
    · exact .noSocket hx hf (by decide)
    · exact .again hx hf (by decide)
  rw [if_neg (by omega)]
  dsimp only
  rw [hfd, OSk, emp_sep]
  obtain ⟨k, hk⟩ : ∃ k, o.refs = k + 1 := ⟨o.refs - 1, by have := ho.some hx; omega⟩
  have ok1 : ({ o with fd := some n } : Ob).Ok := ⟨ho.none, ho.some, fun h => absurd hl h, fun m e => by cases e; exact hn⟩
  have fail : ∀ (u : Option Text) (s : Val) (b : Val) (r : Int), r ≠ 0 → c ↦ blk o.ctx s 0 (some n) [b, a1, a2, a3] ∗ R.Net (tr ++ [.socket n]) ∗ R.Sk n u ∗ R.CtxN o.ctx o.refs ∗ Sess R o.sessions ∗ V ⊢ₕ
      ∃∃ (o' : Ob) (evs : List TEv), (Connected Peer o host r o' evs) ⋏ R.Net (tr ++ evs) ∗ ObR R c o' ∗ V := fun u s b r hr => by
    refine entails_ex_r { o with fd := some n } (entails_ex_r [.socket n] (entails_pand_r ?_ (.unreached hx hfd hr)))
    refine entails_trans ?_ (sep_mono (entails_refl _) (sep_mono (IdleR_intro (s := s) (tl := [b, a1, a2, a3]) ok1 hl rfl) (entails_refl _)))
    simp only [OSk, hex_sep, sep_hex, sep_assoc]
    refine entails_ex_r u ?_
    sep_cancel
  step (H.address V p host port hp) into a
  intro ha
  cases a with
  | none => exact Triple.pure (entails_trans (by sep_cancel) (fail none s a0 109 (by decide)))
  | some a =>
    have ha := ha a rfl
    dsimp only
    step (store_spec (p := c) (off := fAddr) (b := blk o.ctx s 0 (some n) [a0, a1, a2, a3]) (v := .int a) (by simp [blk, fAddr]))
    show Triple rel (c ↦ blk o.ctx s 0 (some n) [.int a, a1, a2, a3] ∗ _) _ _
    step (loadI_spec (p := c) (b := blk o.ctx s 0 (some n) [.int a, a1, a2, a3]) (off := fFd) (z := n) rfl (fdZ_i32 (fd := some n) (fun m e => by cases e; exact hn)))
    step (H.connect n a host port ha) into r
    refine Triple.ite (fun hr => ?_) fun hr => ?_
    · rw [if_pos hr]
      refine Triple.pre (?_ : Triple rel ((R.Net (tr ++ [.socket n]) ∗ ObR R c { o with fd := some n }) ∗ V) _ _) ?_
      rotate_left
      · refine entails_trans (Q := (R.Net (tr ++ [.socket n]) ∗ (c ↦ blk o.ctx s 0 (some n) [.int a, a1, a2, a3] ∗ R.CtxN o.ctx o.refs ∗ Sess R o.sessions ∗ R.Sk n none)) ∗ V) (by sep_cancel) ?_
        refine sep_mono (sep_mono (entails_refl _) ?_) (entails_refl _)
        refine entails_trans (sep_mono (entails_refl _) (sep_mono (entails_refl _) (sep_mono (entails_refl _) (?_ : R.Sk n none ⊢ₕ OSk R (some n))))) (IdleR_intro (s := s) (tl := [.int a, a1, a2, a3]) ok1 hl rfl)
        exact entails_ex_r none (entails_refl _)
      step (close_spec H (c := c) (o := { o with fd := some n }) (tr := tr ++ [.socket n])) into r
      intro o' evs hc
      unfold Closed at hc
      simp only [hl] at hc
      obtain ⟨_, rfl, rfl⟩ := hc
      refine Triple.pure (entails_ex_r { o with fd := some n } (entails_ex_r [.socket n] (entails_pand_r ?_ (.unreached hx hfd (by decide)))))
      rw [List.append_nil]
      rw [hl]
      sep_cancel
    · rw [if_neg hr, hk, CtxN_succ]
      step (H.setIO o.ctx k)
      step (H.sslNew o.ctx k (tr ++ [.socket n])) into q
      step (store_spec (p := c) (off := fSsl) (b := blk o.ctx s 0 (some n) [.int a, a1, a2, a3]) (v := .ptr q) (by simp [blk, fSsl]))
      cases q with
      | zero =>
        rw [if_pos rfl]
        dsimp only
        refine Triple.pure (entails_trans ?_ (fail (some host) (.ptr 0) (.int a) 126 (by decide)))
        rw [hk, CtxN_succ]
        show (c ↦ blk o.ctx (.ptr 0) 0 (some n) [.int a, a1, a2, a3] ∗ _) ⊢ₕ _
        simp only [sep_assoc]
        sep_cancel
      | succ q =>
        rw [if_neg (by omega)]
        dsimp only
        show Triple rel (c ↦ blk o.ctx (.ptr (q + 1)) 0 (some n) [.int a, a1, a2, a3] ∗ _) _ _
        simp only [sep_assoc]
        step (H.setFd (q + 1) n)
        step (H.handshake (q + 1) n host) into r
        rintro w (⟨hr1, rfl⟩ | ⟨rfl, w, rfl, hw, hw1, hw2⟩)
        · rw [if_pos hr1]
          dsimp only
          refine Triple.pure (entails_ex_r { o with fd := some n, refs := o.refs + 1, sessions := (q + 1) :: o.sessions } (entails_ex_r [.socket n, .session o.ctx (q + 1)]
            (entails_pand_r ?_ (.refused hx hfd (by decide) (by omega)))))
          refine entails_trans ?_ (sep_mono (entails_refl _) (sep_mono (IdleR_intro (s := .ptr (q + 1)) (tl := [.int a, a1, a2, a3])
            ⟨fun h => absurd h hx, fun _ => by simp, fun h => absurd hl h, fun m e => by cases e; exact hn⟩ hl rfl) (entails_refl _)))
          simp only [OSk, Sess, hex_sep, sep_hex, sep_assoc, hk, CtxN_succ, List.append_assoc, List.cons_append, List.nil_append]
          refine entails_ex_r (some host) (entails_ex_r (some n) ?_)
          sep_cancel
        · rw [if_neg (by simp)]
          dsimp only
          step (store_spec (p := c) (off := fConn) (b := blk o.ctx (.ptr (q + 1)) 0 (some n) [.int a, a1, a2, a3]) (v := .int 1) (by simp [blk, fConn]))
          refine Triple.pure (entails_ex_r { o with fd := some n, refs := o.refs + 1, sessions := (q + 1) :: o.sessions, live := some w } (entails_ex_r [.socket n, .session o.ctx (q + 1)]
            (entails_pand_r ?_ (.done hx hfd (by omega) hw hw1 hw2))))
          refine entails_trans ?_ (sep_mono (entails_refl _) (sep_mono (LiveR_intro (s := q + 1) (fd := n) (ss := o.sessions) (w := w) (tl := [.int a, a1, a2, a3])
            ⟨fun h => absurd h hx, fun _ => by simp, fun _ => ⟨by simp [hk], by simp, by simp⟩, fun m e => by cases e; exact hn⟩ rfl rfl rfl rfl) (entails_refl _)))
          simp only [sep_assoc, hk, CtxN_succ, List.append_assoc, List.cons_append, List.nil_append]
          show (c ↦ blk o.ctx (.ptr (q + 1)) 1 (some n) [.int a, a1, a2, a3] ∗ _) ⊢ₕ _
          sep_cancel

theorem send_spec (H : Honours rel t R Peer W) {c : Nat} {o : Ob} {V : HProp} {p : CharPtr} {bs : Text} (hb : bs.length < 2 ^ 31) (hp : Bytes V p bs) :
    Triple rel (ObR R c o ∗ V) (send t c p bs.length) (fun r => ∃∃ o' : Ob, (Sent W o bs r o') ⋏ ObR R c o' ∗ V) := by
  unfold send
  cases hl : o.live with
  | none =>
    conv => arg 2; rw [ObR_idle hl, IdleR_eq]
    hoist; intro s tl ho htl
    step (loadInt_spec (p := c) (b := blk o.ctx s 0 o.fd tl) (off := fConn) (n := 0) rfl)
    rw [if_pos rfl]
    refine Triple.pure (entails_ex_r o (entails_pand_r ?_ (by unfold Sent; rw [hl]; exact ⟨rfl, rfl⟩)))
    exact entails_trans (by sep_cancel) (sep_mono (IdleR_intro (s := s) (tl := tl) ho hl htl) (entails_refl V))
  | some w =>
    conv => arg 2; rw [ObR_live hl, LiveR_eq]
    hoist; intro s fd ss tl ho htl hs hf
    step (loadInt_spec (p := c) (b := blk o.ctx (.ptr s) 1 o.fd tl) (off := fConn) (n := 1) rfl)
    rw [if_neg (by simp)]
    step (loadPtr_spec (p := c) (b := blk o.ctx (.ptr s) 1 o.fd tl) (off := fSsl) (q := s) rfl)
    refine Triple.last (H.write s fd w V p bs hb hp) (by pick) fun r => ?_
    simp only [hex_sep, pand_sep]
    refine entails_ex_l fun w' => entails_pand_l fun h => ?_
    refine entails_ex_r { o with live := some w' } (entails_pand_r ?_ (by unfold Sent; rw [hl]; exact ⟨w', rfl, h⟩))
    refine entails_trans ?_ (sep_mono (LiveR_intro (s := s) (fd := fd) (ss := ss) (w := w') (tl := tl) ⟨fun h => absurd (ho.none h).2.2 (by rw [hl]; simp), ho.some, fun _ => ho.live (by rw [hl]; simp), ho.small⟩ rfl htl hs hf) (entails_refl V))
    simp only [sep_assoc]
    sep_cancel

theorem receive_spec (H : Honours rel t R Peer W) {c : Nat} {o : Ob} {w : Wire} {p : Ptr} {b : Block} {off n : Nat} (hl : o.live = some w) (h0 : 0 < n) (hn : n < 2 ^ 31) (hb : off + n ≤ b.length) :
    Triple rel (ObR R c o ∗ p ↦ b) (receive t c p off n) (Received (fun c w => ObR R c { o with live := w }) c w p b off n) := by
  unfold receive
  conv => arg 2; rw [ObR_live hl, LiveR_eq]
  hoist; intro s fd ss tl ho htl hs hf
  step (loadInt_spec (p := c) (b := blk o.ctx (.ptr s) 1 o.fd tl) (off := fConn) (n := 1) rfl)
  rw [if_neg (by simp)]
  step (loadPtr_spec (p := c) (b := blk o.ctx (.ptr s) 1 o.fd tl) (off := fSsl) (q := s) rfl)
  refine Triple.last (H.read s fd w p b off n h0 hn hb) (by pick) fun r => ?_
  have back : ∀ w' : Wire, c ↦ blk o.ctx (.ptr s) 1 o.fd tl ∗ R.CtxN o.ctx o.refs ∗ Sess R ss ∗ R.Live s fd w' ⊢ₕ ObR R c { o with live := some w' } := fun w' =>
    LiveR_intro (o := { o with live := some w' }) ⟨fun h => absurd (ho.none h).2.2 (by rw [hl]; simp), ho.some, fun _ => ho.live (by rw [hl]; simp), ho.small⟩ rfl htl hs hf
  unfold Received
  split
  · split
    · rw [pand_sep]
      refine entails_pand_l fun h => entails_pand_r ?_ h
      refine entails_trans ?_ (sep_mono (back w) (entails_refl _))
      simp only [Reps.On, sep_assoc]
      sep_cancel
    · simp only [hex_sep, pand_sep]
      refine entails_ex_l fun vs => entails_pand_l fun h => entails_ex_r vs (entails_pand_r ?_ h)
      refine entails_trans ?_ (sep_mono (back w) (entails_refl _))
      simp only [Reps.On, sep_assoc]
      sep_cancel
  · simp only [hex_sep, pand_sep]
    refine entails_ex_l fun k => entails_pand_l fun h => entails_ex_r k (entails_pand_r ?_ h)
    refine entails_trans ?_ (sep_mono (back (w.got k)) (entails_refl _))
    simp only [Reps.On, sep_assoc]
    sep_cancel

/-- without a connection nothing is received, and 0 is returned -/
theorem receive_idle {c : Nat} {o : Ob} {p : Ptr} {off : Nat} {n : Int} (hl : o.live = none) :
    Triple rel (ObR R c o) (receive t c p off n) (fun r => (r = 0) ⋏ ObR R c o) := by
  unfold receive
  rw [ObR_idle hl]
  conv => arg 2; rw [IdleR_eq]
  hoist; intro s tl ho htl
  step (loadInt_spec (p := c) (b := blk o.ctx s 0 o.fd tl) (off := fConn) (n := 0) rfl)
  rw [if_pos rfl]
  exact Triple.pure (entails_pand_r (entails_ex_r s (entails_ex_r tl (entails_pand_r (entails_refl _) ⟨ho, htl⟩))) rfl)

theorem loadCertificate_spec (H : Honours rel t R Peer W) {c : Nat} {o : Ob} {V : HProp} {p : CharPtr} {u : Text} {tr : List TEv} (hp : Reads V p u) :
    Triple rel (R.Net tr ∗ ObR R c o ∗ V) (loadCertificate t c p (u.length + 1)) (fun r => ∃∃ evs : List TEv, (Loaded o u r evs) ⋏ R.Net (tr ++ evs) ∗ ObR R c o ∗ V) := by
  unfold loadCertificate
  have key : ∀ (A : HProp) (B : HProp) (s : Val) (conn : Nat) (tl : List Val), o.Ok → (c ↦ blk o.ctx s conn o.fd tl ∗ R.CtxN o.ctx o.refs ∗ A ⊢ₕ B) →
      Triple rel (R.Net tr ∗ c ↦ blk o.ctx s conn o.fd tl ∗ R.CtxN o.ctx o.refs ∗ A ∗ V) (do
        let x ← loadPtr c fCtx
        if x = 0 then pure false else do
        let r ← t.loadVerify x p (u.length + 1)
        pure (r == 1)) (fun r => ∃∃ evs : List TEv, (Loaded o u r evs) ⋏ R.Net (tr ++ evs) ∗ B ∗ V) := by
    intro A B s conn tl ho hB
    step (loadPtr_spec (p := c) (b := blk o.ctx s conn o.fd tl) (off := fCtx) (q := o.ctx) rfl)
    refine Triple.ite (fun hx => ?_) fun hx => ?_
    · refine Triple.pure (entails_ex_r [] (entails_pand_r ?_ (by unfold Loaded; rw [if_pos hx]; exact ⟨rfl, rfl⟩)))
      refine entails_trans ?_ (sep_mono (entails_refl _) (sep_mono hB (entails_refl _)))
      rw [List.append_nil]
      simp only [sep_assoc]
      sep_cancel
    · obtain ⟨k, hk⟩ : ∃ k, o.refs = k + 1 := ⟨o.refs - 1, by have := ho.some hx; omega⟩
      rw [hk, CtxN_succ] at hB ⊢
      step (H.loadVerify o.ctx k V p u tr hp) into r
      refine Triple.pure (entails_ex_r [.trust o.ctx u r] (entails_pand_r ?_ (by unfold Loaded; rw [if_neg hx]; exact ⟨r, rfl, rfl⟩)))
      refine entails_trans ?_ (sep_mono (entails_refl _) (sep_mono hB (entails_refl _)))
      simp only [sep_assoc]
      sep_cancel
  cases hl : o.live with
  | none =>
    rw [ObR_idle hl]
    conv => arg 2; rw [IdleR_eq]
    hoist; intro s tl ho htl
    refine Triple.pre (key (Sess R o.sessions ∗ OSk R o.fd) (IdleR R c o) s 0 tl ho ?_) (by (try simp only [sep_assoc]); sep_cancel)
    rw [← ObR_idle hl]; exact IdleR_intro ho hl htl
  | some w =>
    rw [ObR_live hl]
    conv => arg 2; rw [LiveR_eq]
    hoist; intro s fd ss tl ho htl hs hf
    refine Triple.pre (key (Sess R ss ∗ R.Live s fd w) (LiveR R c o w) (.ptr s) 1 tl ho ?_) (by (try simp only [sep_assoc]); sep_cancel)
    rw [← ObR_live hl]; exact LiveR_intro ho hl htl hs hf

/-! ## The callbacks for wolfSSL -/

/-- what wolfSSL calls to receive waits for the socket that was set with `wolfSSL_set_fd` and then receives from it -/
theorem receiveCallback_spec {select : Int → M Int} {recv : Int → Ptr → Nat → Int → M Int} {ctx buf off : Nat} {sz fd : Int} {b : Block} {P : HProp} {S : Int → HProp} {Q : Int → Int → HProp}
    (hb : b[0]? = some (intV fd)) (hz : i32 fd) (hs : Triple rel P (select fd) S) (hr : ∀ w, 0 ≤ w → Triple rel (S w) (recv fd buf off sz) (Q w)) :
    Triple rel (ctx ↦ b ∗ P) (receiveCallback select recv ctx buf off sz) (fun r => ∃∃ w : Int, (w < 0 → r = -1) ⋏ ctx ↦ b ∗ (if w < 0 then S w else Q w r)) := by
  unfold receiveCallback
  step (loadI_spec (p := ctx) (b := b) (off := 0) (z := fd) hb hz)
  step hs into w
  refine Triple.ite (fun h => ?_) fun h => ?_
  · exact Triple.pure (entails_ex_r w (entails_pand_r (by rw [if_pos h]; sep_cancel) (fun _ => rfl)))
  · refine Triple.last (hr w (by omega)) (by pick) fun r => ?_
    exact entails_ex_r w (entails_pand_r (by rw [if_neg h]; sep_cancel) (fun hw => absurd hw h))

/-- the same for sending -/
theorem sendCallback_spec {select : Int → M Int} {send : Int → CharPtr → Int → M Int} {ctx : Nat} {buf : CharPtr} {sz fd : Int} {b : Block} {P : HProp} {S : Int → HProp} {Q : Int → Int → HProp}
    (hb : b[0]? = some (intV fd)) (hz : i32 fd) (hs : Triple rel P (select fd) S) (hr : ∀ w, 0 ≤ w → Triple rel (S w) (send fd buf sz) (Q w)) :
    Triple rel (ctx ↦ b ∗ P) (sendCallback select send ctx buf sz) (fun r => ∃∃ w : Int, (w < 0 → r = -1) ⋏ ctx ↦ b ∗ (if w < 0 then S w else Q w r)) := by
  unfold sendCallback
  step (loadI_spec (p := ctx) (b := b) (off := 0) (z := fd) hb hz)
  step hs into w
  refine Triple.ite (fun h => ?_) fun h => ?_
  · exact Triple.pure (entails_ex_r w (entails_pand_r (by rw [if_pos h]; sep_cancel) (fun _ => rfl)))
  · refine Triple.last (hr w (by omega)) (by pick) fun r => ?_
    exact entails_ex_r w (entails_pand_r (by rw [if_neg h]; sep_cancel) (fun hw => absurd hw h))

end Verif.Wc
