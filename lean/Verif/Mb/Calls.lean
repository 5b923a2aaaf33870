import Verif.Mb.Exec
import Verif.Ti.Receive
/-! # Handles and options of `httpapi_mbed.cpp` -/
set_option linter.unusedSimpArgs false
set_option linter.unusedVariables false
namespace Verif.Mb
open Verif.Map (know_Arg)
open Verif.Sas (text)
open Verif.Curl (CStr_lit StatR)
open Verif.Ti (know_Stat)
open Verif.Crt (strcpy_s_spec_partial Within)
variable {rel : Prop} {lib : Lib} {Net : List Ev → HProp} {Con : Nat → Option Wire → HProp} {Peer : Text → Wire → Prop} {W : Prop}

theorem cstrV_set {b : Block} {t : Text} {i : Nat} {v : Val} (h : cstrV b = some t) (hi : t.length < i) : cstrV (b.set i v) = some t := by
  obtain ⟨⟨tail, e⟩, hn⟩ := cstrV_prefix h
  subst e
  rw [List.set_append_right _ _ (by simp [bytesV]; omega)]
  rw [show bytesV (t ++ [0]) = bytesV t ++ [.byte 0] by simp [bytesV], List.append_assoc]
  exact cstrV_bytes hn _

theorem new_step {β : Type} (hr : rel) {bytes slots : Nat} (hs : slots ≤ bytes) (hm : bytes ≤ maxObj) {P : HProp} {k : Nat → M β} {Q : β → HProp}
    (h1 : ∀ r, r ≠ 0 → Triple rel (r ↦ List.replicate slots .undef ∗ P) (k r) Q) : Triple rel P (new bytes slots >>= k) Q := by
  unfold new
  rw [bind_assoc]
  refine Triple.mallocW hs (fun h => ?_) fun r h0 _ => ?_
  · rcases h with h | h
    · exact absurd hr h
    · omega
  · rw [if_neg h0]
    exact Triple.bind_pure (h1 r h0)

section
variable (H : Honours rel lib Net Con Peer W)
include H

/-- C92: `HTTPAPI_CreateConnection` -/
theorem HTTPAPI_CreateConnection_spec (hr : rel) {s : CharPtr} {host : Option Text} {tr : List Ev} :
    Triple rel (Net tr ∗ Arg s host) (HTTPAPI_CreateConnection lib s)
      (fun p => ∃∃ (a : Option Obj) (evs : List Ev), (CreateE (conOf a) host a evs) ⋏ OHandle Con p a ∗ Net (tr ++ evs) ∗ Arg s host) := by
  unfold HTTPAPI_CreateConnection
  refine Triple.know (know_Arg (s := s) (o := host) (by pick)) fun k => ?_
  cases host with
  | none =>
    rw [if_neg (by simp [k])]
    refine Triple.pure (entails_ex_r none (entails_ex_r [] (entails_pand_r ?_ ⟨rfl, rfl⟩)))
    rw [OHandle, ORep_null, emp_sep, List.append_nil]; exact entails_refl _
  | some t =>
    rw [if_pos (by simp [k])]
    refine new_step hr (by decide) (by decide) fun p hp => ?_
    refine new_step hr (by decide) (by decide) fun c hc0 => ?_
    step (storeN_spec' (p := p) (b := List.replicate 66 .undef) (off := 0) (vs := List.replicate 64 (Val.byte 0) ++ [Val.ptr 0, Val.ptr c]) (by simp))
    rw [show patch (List.replicate 66 Val.undef) 0 (List.replicate 64 (.byte 0) ++ [.ptr 0, .ptr c]) = List.replicate 64 (.byte 0) ++ [.ptr 0, .ptr c] from patch_full (by simp)]
    step (H.construct c (List.replicate conSlots .undef) tr (by simp))
    have hs := strcpy_s_spec_partial (rel := rel) (dst := p) (size := MAX_HOSTNAME) (src := s) (b := List.replicate 64 (.byte 0) ++ [.ptr 0, .ptr c]) (o := some t) (by decide) (by simp [MAX_HOSTNAME])
    have h64 : MAX_HOSTNAME = 64 := rfl
    have hfc : fCert = 64 := rfl
    step hs into r
    intro b' hw hc
    have hl : b'.length = 66 := by rw [hw.1]; simp
    have hcon : b'[65]? = some (.ptr c) := by
      have := congrArg (fun l => l[1]?) hw.2
      simpa using this
    rcases hc with ⟨h, _⟩ | ⟨t', h, hlen, rfl, _⟩ | ⟨t', h, hlen, rfl, hc⟩
    · cases h
    · cases h
      rw [if_pos (by decide)]
      step (H.destruct c none _)
      rw [Raw]; hoist; intro b1
      step (free_spec (p := c))
      step (free_spec (p := p))
      refine Triple.pure (entails_ex_r none (entails_ex_r [.construct c, .destruct c] (entails_pand_r ?_ ?_)))
      · rw [OHandle, ORep_null, emp_sep, List.append_assoc, List.cons_append, List.nil_append]; sep_cancel
      · unfold CreateE; dsimp only; rw [if_neg (by omega)]; exact ⟨rfl, c, rfl⟩
    · cases h
      rw [if_neg (by simp)]
      step (store_spec (p := p) (b := b') (off := fCert) (v := .ptr 0) (by rw [hl]; decide))
      refine Triple.pure (entails_ex_r (some ⟨c, t, none, none⟩) (entails_ex_r [.construct c] (entails_pand_r ?_ ?_)))
      · rw [OHandle, ORep_some, HandleR_eq]
        simp only [hex_sep, pand_sep]
        refine entails_ex_r (b'.set fCert (.ptr 0)) (entails_ex_r 0 (entails_pand_r ?_ ⟨by simp [hl], cstrV_set hc (by omega), by omega, by simp [hl], by rw [List.getElem?_set_ne (by decide)]; exact hcon⟩))
        rw [show CertR 0 none = ((0 = 0) ⋏ emp) from rfl]
        simp only [eq_self, true_pand, emp_sep, sep_assoc]
        sep_cancel
      · unfold CreateE; dsimp only; rw [if_pos (by omega)]; exact ⟨rfl, rfl⟩

/-- C92: `HTTPAPI_CloseConnection` -/
theorem HTTPAPI_CloseConnection_spec {h : Ptr} {a : Option Obj} {tr : List Ev} :
    Triple rel (OHandle Con h a ∗ Net tr) (HTTPAPI_CloseConnection lib h) (fun _ => ∃∃ evs : List Ev, (CloseE (conOf a) a evs) ⋏ Net (tr ++ evs)) := by
  unfold HTTPAPI_CloseConnection
  refine Triple.know (know_OHandle (Con := Con) (p := h) (a := a) (by pick)) fun k => ?_
  cases a with
  | none =>
    rw [if_neg (by simp [k]), OHandle, ORep_none]; hoist; intro
    exact Triple.pure (entails_ex_r [] (entails_pand_r (by rw [List.append_nil]; exact entails_refl _) rfl))
  | some o =>
    rw [if_pos (by simp [k]), OHandle, ORep_some]
    step (con_spec (Con := Con) (h := h) (o := o))
    rw [HandleR_rest]
    simp only [sep_assoc]
    step (H.isConnected o.con o.wire) into b
    intro hb
    have fin : ∀ {w : Option Wire} {tr' : List Ev}, Triple rel (Rest h o ∗ Con o.con w ∗ Net tr')
        (do
          let c ← loadPtr h fCert
          if c ≠ 0 then free c else pure ()
          lib.destruct o.con
          free o.con
          free h) (fun _ => Net (tr' ++ [.destruct o.con])) := by
      intro w tr'
      rw [Rest_eq]; hoist; intro blk q hl hc hlen hq hcon
      step (loadPtr_spec (p := h) hq)
      cases hct : o.cert with
      | none =>
        rw [show CertR q none = ((q = 0) ⋏ emp) from rfl]
        hoist; rintro rfl
        rw [if_neg (by simp)]
        dsimp only
        step (H.destruct o.con w _)
        rw [Raw]; hoist; intro b1
        step (free_spec (p := o.con))
        last (free_spec (p := h))
        rw [emp_sep]; exact entails_refl _
      | some t =>
        rw [show CertR q (some t) = ((q ≠ 0 ∧ NoNul t) ⋏ q ↦ bytesV (t ++ [0])) from rfl]
        hoist; intro hq0 hn
        rw [if_pos hq0]
        step (free_spec (p := q))
        step (H.destruct o.con w _)
        rw [Raw]; hoist; intro b1
        step (free_spec (p := o.con))
        last (free_spec (p := h))
        rw [emp_sep]; exact entails_refl _
    unfold CloseE
    cases hw : o.wire with
    | none =>
      rw [hw] at hb
      rw [if_neg (by simp [hb])]
      refine Triple.bind_pure (fin.conseq (by sep_cancel) fun _ => ?_)
      exact entails_ex_r _ (entails_pand_r (entails_refl _) (by simp [hw, conOf]))
    | some w =>
      rw [hw] at hb
      rw [if_pos (by simpa using hb)]
      step (H.close o.con (some w) tr)
      refine fin.conseq (by sep_cancel) fun _ => ?_
      refine entails_ex_r _ (entails_pand_r ?_ (by simp [hw, conOf]; rfl))
      rw [List.append_assoc]; exact entails_refl _
end

/-! ## Options -/

theorem cmp_trusted {s : CharPtr} {t : Text} :
    Triple rel (CStr s t) (strcmp (.str (text "TrustedCerts")) s) (fun r => (r = 0 ↔ t = text "TrustedCerts") ⋏ CStr s t) := by
  have h := strcmp_spec (rel := rel) (a := .str (text "TrustedCerts")) (b := s) (x := text "TrustedCerts") (y := t)
  simp only [CStr_lit (show NoNul (text "TrustedCerts") by decide) (by decide), emp_sep] at h
  refine h.conseq (entails_refl _) fun r => entails_pand_l fun hr => entails_pand_r (entails_refl _) ?_
  rw [hr, strcmpL_eq_zero]; exact eq_comm

/-- C92: `HTTPAPI_SetOption` -/
theorem HTTPAPI_SetOption_spec (hr : rel) {h : Ptr} {a : Option Obj} {sn sv : CharPtr} {name value : Option Text} (hv : ∀ v, value = some v → v.length < 2 ^ 31 - 1) :
    Triple rel (OHandle Con h a ∗ Arg sn name ∗ Arg sv value) (HTTPAPI_SetOption h sn sv)
      (fun r => ∃∃ a' : Option Obj, (SetE a name value r a') ⋏ OHandle Con h a' ∗ Arg sn name ∗ Arg sv value) := by
  unfold HTTPAPI_SetOption
  refine Triple.know (know_OHandle (Con := Con) (p := h) (a := a) (by pick)) fun k1 => ?_
  refine Triple.know (know_Arg (s := sn) (o := name) (by pick)) fun k2 => ?_
  refine Triple.know (know_Arg (s := sv) (o := value) (by pick)) fun k3 => ?_
  refine Triple.ite (fun hb => ?_) fun hb => ?_
  · rw [k1, k2, k3] at hb
    refine Triple.pure (entails_ex_r a (entails_pand_r (entails_refl _) ?_))
    unfold SetE
    split
    · simp at hb
    · exact ⟨rfl, rfl⟩
  rw [k1, k2, k3] at hb
  simp only [not_or] at hb
  obtain ⟨o, rfl⟩ := Option.ne_none_iff_exists'.1 hb.1
  obtain ⟨n, rfl⟩ := Option.ne_none_iff_exists'.1 hb.2.1
  obtain ⟨v, rfl⟩ := Option.ne_none_iff_exists'.1 hb.2.2
  simp only [Arg_some, OHandle, ORep_some]
  step (cmp_trusted (s := sn) (t := n)) into r
  intro hc
  unfold SetE
  dsimp only
  by_cases hn : n = text "TrustedCerts"
  · rw [if_pos (hc.2 hn)]
    simp only [if_pos hn]
    rw [HandleR_rest, Rest_eq]
    hoist; intro blk q hl hcs hlen hq hcon
    have hfc : fCert = 64 := rfl
    step (loadPtr_spec (p := h) hq)
    refine Triple.pre (?_ : Triple rel (CertR q o.cert ∗ h ↦ blk ∗ Con o.con o.wire ∗ CStr sn n ∗ CStr sv v) _ _) (by sep_cancel)
    have rest : Triple rel (h ↦ blk ∗ Con o.con o.wire ∗ CStr sn n ∗ CStr sv v)
        (do
          let len ← strlen sv
          if len ≥ 2 ^ 31 - 1 then ub "length not representable" else do
          let c ← new (len + 1) (len + 1)
          store h fCert (.ptr c)
          strcpy c 0 sv
          pure Curl.Res.ok)
        (fun r => ∃∃ a' : Option Obj, (r = .ok ∧ a' = some { o with cert := some v }) ⋏ ORep (HandleR Con) h a' ∗ CStr sn n ∗ CStr sv v) := by
      step (strlen_spec (s := sv) (t := v))
      have hv := hv v rfl
      rw [if_neg (by omega)]
      refine Triple.know (know_CStr (s := sv) (t := v) (by pick)) fun hnv => ?_
      refine new_step hr (Nat.le_refl _) (by have : 2 ^ 31 ≤ maxObj := by decide
                                             omega) fun p hp => ?_
      step (store_spec (p := h) (b := blk) (off := fCert) (v := .ptr p) (by rw [hl]; decide))
      step (strcpy_spec (dst := p) (off := 0) (src := sv) (b := List.replicate (v.length + 1) .undef) (t := v) (by simp))
      rw [show patch (List.replicate (v.length + 1) Val.undef) 0 (bytesV (v ++ [0])) = bytesV (v ++ [0]) from patch_full (by simp [bytesV])]
      refine Triple.pure (entails_ex_r (some { o with cert := some v }) (entails_pand_r ?_ ⟨rfl, rfl⟩))
      rw [ORep_some, HandleR_eq]
      simp only [hex_sep, pand_sep]
      refine entails_ex_r (blk.set fCert (.ptr p)) (entails_ex_r p (entails_pand_r ?_ ⟨by simp [hl], cstrV_set hcs (by omega), hlen, by simp [hl], by rw [List.getElem?_set_ne (by decide)]; exact hcon⟩))
      rw [show CertR p (some v) = ((p ≠ 0 ∧ NoNul v) ⋏ p ↦ bytesV (v ++ [0])) from rfl]
      simp only [pand_sep, sep_pand, sep_assoc]
      exact entails_pand_r (by sep_cancel) ⟨hp, hnv.2.1⟩
    cases o.cert with
    | none =>
      rw [show CertR q none = ((q = 0) ⋏ emp) from rfl]
      hoist; rintro rfl
      rw [if_neg (by simp)]; exact rest
    | some t =>
      rw [show CertR q (some t) = ((q ≠ 0 ∧ NoNul t) ⋏ q ↦ bytesV (t ++ [0])) from rfl]
      hoist; intro hq0 _
      rw [if_pos hq0]
      step (free_spec (p := q))
      exact rest
  · rw [if_neg (fun h => hn (hc.1 h))]
    simp only [if_neg hn]
    refine Triple.pure (entails_ex_r (some o) (entails_pand_r ?_ ⟨rfl, rfl⟩))
    rw [ORep_some]; sep_cancel

/-- `HTTPAPI_CloneOption`: a copy of the certificate, that is the caller's; nothing else changes -/
def CloneE (rel : Prop) (name value : Option Text) (cell : Option Val) (r : Res) (cell' : Option Val) (copy : Option (Nat × Text)) : Prop :=
  match name, value, cell with
  | some n, some v, some _ =>
    (n = text "TrustedCerts" ∧ ∃ q, q ≠ 0 ∧ r = .ok ∧ cell' = some (.ptr q) ∧ copy = some (q, v)) ∨
    (n = text "TrustedCerts" ∧ (¬ rel ∨ maxObj < v.length + 1) ∧ r = .invalidArg ∧ cell' = cell ∧ copy = none) ∨
    (n ≠ text "TrustedCerts" ∧ r = .invalidArg ∧ cell' = cell ∧ copy = none)
  | _, _, _ => r = .invalidArg ∧ cell' = cell ∧ copy = none

/-- the copy -/
def CopyR : Option (Nat × Text) → HProp
  | none => emp
  | some (q, v) => q ↦ bytesV (v ++ [0])

/-- C92: `HTTPAPI_CloneOption` -/
theorem HTTPAPI_CloneOption_spec {sn sv : CharPtr} {p : Ptr} {name value : Option Text} {cell : Option Val} :
    Triple rel (StatR p cell ∗ Arg sn name ∗ Arg sv value) (HTTPAPI_CloneOption sn sv p)
      (fun r => ∃∃ (cell' : Option Val) (copy : Option (Nat × Text)), (CloneE rel name value cell r cell' copy) ⋏ StatR p cell' ∗ CopyR copy ∗ Arg sn name ∗ Arg sv value) := by
  unfold HTTPAPI_CloneOption
  refine Triple.know (know_Arg (s := sn) (o := name) (by pick)) fun k1 => ?_
  refine Triple.know (know_Arg (s := sv) (o := value) (by pick)) fun k2 => ?_
  refine Triple.know (know_Stat (p := p) (v := cell) (by pick)) fun k3 => ?_
  refine Triple.ite (fun hb => ?_) fun hb => ?_
  · rw [k1, k2, k3] at hb
    refine Triple.pure (entails_ex_r cell (entails_ex_r none (entails_pand_r (by rw [CopyR, emp_sep]; exact entails_refl _) ?_)))
    unfold CloneE
    split
    · simp at hb
    · exact ⟨rfl, rfl, rfl⟩
  rw [k1, k2, k3] at hb
  simp only [not_or] at hb
  obtain ⟨n, rfl⟩ := Option.ne_none_iff_exists'.1 hb.1
  obtain ⟨v, rfl⟩ := Option.ne_none_iff_exists'.1 hb.2.1
  obtain ⟨u, rfl⟩ := Option.ne_none_iff_exists'.1 hb.2.2
  simp only [Arg_some]
  step (cmp_trusted (s := sn) (t := n)) into r
  intro hc
  unfold CloneE
  dsimp only
  by_cases hn : n = text "TrustedCerts"
  · rw [if_pos (hc.2 hn)]
    refine Triple.know (know_CStr (s := sv) (t := v) (by pick)) fun hnv => ?_
    step (strlen_spec (s := sv) (t := v))
    refine Triple.malloc (fun hr => ?_) fun q hq hm => ?_
    · rw [if_pos rfl]
      refine Triple.pure (entails_ex_r (some u) (entails_ex_r none (entails_pand_r (by rw [CopyR, emp_sep]; sep_cancel) (.inr (.inl ⟨hn, hr, rfl, rfl, rfl⟩)))))
    · rw [if_neg hq]
      step (strcpy_spec (dst := q) (off := 0) (src := sv) (b := List.replicate (v.length + 1) .undef) (t := v) (by simp))
      rw [show patch (List.replicate (v.length + 1) Val.undef) 0 (bytesV (v ++ [0])) = bytesV (v ++ [0]) from patch_full (by simp [bytesV]),
        show StatR p (some u) = (p ↦ [u]) from rfl]
      step (store_spec (p := p) (b := [u]) (off := 0) (v := .ptr q) (by simp))
      refine Triple.pure (entails_ex_r (some (.ptr q)) (entails_ex_r (some (q, v)) (entails_pand_r ?_ (.inl ⟨hn, q, hq, rfl, rfl, rfl⟩))))
      rw [CopyR, show StatR p (some (Val.ptr q)) = (p ↦ [Val.ptr q]) from rfl]; sep_cancel
  · rw [if_neg (fun h => hn (hc.1 h))]
    refine Triple.pure (entails_ex_r (some u) (entails_ex_r none (entails_pand_r (by rw [CopyR, emp_sep]; sep_cancel) (.inr (.inr ⟨hn, rfl, rfl, rfl⟩)))))
end Verif.Mb
