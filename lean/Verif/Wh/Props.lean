import Verif.Wh.Spec
import Verif.Curl.Request
/-! # Initialisation, connections, options and the header text of `httpapi_winhttp.c` -/
set_option linter.unusedSimpArgs false
set_option linter.unusedVariables false
namespace Verif.Wh
open Verif.Headers (Hdrs HdrR OHdr HTTPHeaders_GetHeader_spec HTTPHeaders_GetHeaderCount_spec GotHeader line strcat_spec)
open Verif.Curl (WordR know_WordR OutR CStr_lit)
open Verif.Map (CS free_CS know_Arg)
open Verif.Sas (text)
variable {rel : Prop} {lib : Lib} {W : Codec} {Net : List Ev → HProp} {Sess Con : Nat → HProp} {Req : Nat → Nat → HProp}

/-! ## Representation -/

/-- the static variables -/
def Glob (Sess : Nat → HProp) (g : Ptr) (n s : Nat) : HProp :=
  if n = 0 then ((s = 0) ⋏ g ↦ [.int 0, .ptr 0, .int 0]) else ((s ≠ 0) ⋏ g ↦ [.int 1, .ptr s, .int n] ∗ Sess s)
theorem Glob_zero {g s : Nat} : Glob Sess g 0 s = ((s = 0) ⋏ g ↦ [.int 0, .ptr 0, .int 0]) := rfl
theorem Glob_pos {g n s : Nat} (h : n ≠ 0) : Glob Sess g n s = ((s ≠ 0) ⋏ g ↦ [.int 1, .ptr s, .int n] ∗ Sess s) := if_neg h

/-- a connection -/
def ConnR (Con : Nat → HProp) (p : Ptr) (o : Obj) : HProp := (o.con ≠ 0) ⋏ p ↦ [.ptr o.con, .int o.timeout] ∗ Con o.con
theorem ConnR_eq {p : Ptr} {o : Obj} : ConnR Con p o = ((o.con ≠ 0) ⋏ p ↦ [.ptr o.con, .int o.timeout] ∗ Con o.con) := rfl
abbrev OConn (Con : Nat → HProp) (h : Ptr) (a : Option Obj) : HProp := ORep (ConnR Con) h a

/-- a handle that is no connection: nothing was stored -/
def Broken (p : Ptr) : HProp := p ↦ [.undef, .undef]

/-- what `HTTPAPI_CreateConnection` gives -/
def Given1 (Con : Nat → HProp) (p : Ptr) : Conn → HProp
  | .none => (p = 0) ⋏ emp
  | .good o => ConnR Con p o
  | .broken => Broken p

theorem know_OConn {p : Ptr} {a : Option Obj} {P F : HProp} (pk : Pick P (OConn Con p a) F) : ∀ h, P h → (p = 0 ↔ a = none) := by
  intro h hp
  unfold Pick at pk; rw [pk] at hp
  cases a with
  | none =>
    rw [OConn, ORep_none, pand_sep] at hp
    simp [hp.1]
  | some o =>
    rw [OConn, ORep_some, ConnR_eq, pand_sep, sep_assoc] at hp
    have := know_pts (p := p) (b := [.ptr o.con, .int o.timeout]) (φ := p ≠ 0) (P := p ↦ [.ptr o.con, .int o.timeout] ∗ Con o.con ∗ F) (by pick) (fun h1 _ => h1) h hp.2
    simp [this]

theorem WStr_eq {p : Ptr} {w : Wide} : WStr p w = ∃∃ rest : List Val, (0 ∉ w) ⋏ p ↦ (wideV w ++ .int 0 :: rest) := rfl
theorem WStr_intro {p : Ptr} {w : Wide} {rest : List Val} (h : 0 ∉ w) : p ↦ (wideV w ++ .int 0 :: rest) ⊢ₕ WStr p w :=
  entails_ex_r rest (entails_pand_r (entails_refl _) h)
theorem free_WStr {p : Ptr} {w : Wide} : Triple rel (WStr p w) (free p) (fun _ => emp) := by
  rw [WStr_eq]; hoist; intro rest _
  exact free_spec

/-! ## Init and Deinit -/

theorem HTTPAPI_Init_spec (H : Honours rel lib W Net Sess Con Req) {g n s : Nat} {tr : List Ev} (hn : n + 1 < szMod) :
    Triple rel (Net tr ∗ Glob Sess g n s) (HTTPAPI_Init lib g)
      (fun r => ∃∃ (n' s' : Nat) (evs : List Ev), (InitE n s r n' s' evs) ⋏ Net (tr ++ evs) ∗ Glob Sess g n' s') := by
  unfold HTTPAPI_Init
  by_cases h0 : n = 0
  · subst h0
    rw [Glob_zero]; hoist; rintro rfl
    stepd (loadInt_spec (p := g) (n := 0) ?_)
    rw [if_pos rfl]
    step (H.openSession tr) into s
    step (store_spec (p := g) ?_)
    by_cases hs : s = 0
    · subst hs
      rw [if_pos rfl, if_pos rfl]
      refine Triple.pure (entails_ex_r 0 (entails_ex_r 0 (entails_ex_r _ (entails_pand_r ?_ (.inl ⟨rfl, rfl, rfl, rfl⟩)))))
      rw [Glob_zero, eq_self, true_pand]
      try dsimp only [List.set]
      sep_cancel
    · rw [if_neg hs, if_neg hs]
      step (store_spec (p := g) ?_)
      step (store_spec (p := g) ?_)
      refine Triple.pure (entails_ex_r 1 (entails_ex_r s (entails_ex_r _ (entails_pand_r ?_ (.inr ⟨hs, rfl, rfl, rfl⟩)))))
      rw [Glob_pos (by simp)]
      refine entails_trans (Q := g ↦ [.int 1, .ptr s, .int 1] ∗ Sess s ∗ Net (tr ++ [.session s])) ?_ ?_
      · (try dsimp only [List.set]); rw [Nat.mod_eq_of_lt hn]; sep_cancel
      · simp only [sep_pand]
        exact entails_pand_r (by sep_cancel) hs
  · rw [Glob_pos h0]; hoist; intro hs
    stepd (loadInt_spec (p := g) (n := n) ?_)
    rw [if_neg h0]
    step (store_spec (p := g) ?_)
    refine Triple.pure (entails_ex_r (n + 1) (entails_ex_r s (entails_ex_r [] (entails_pand_r ?_ (by unfold InitE; rw [if_neg h0]; exact ⟨rfl, rfl, rfl, rfl⟩)))))
    rw [Glob_pos (by simp), List.append_nil]
    simp only [sep_pand]
    refine entails_pand_r ?_ hs
    (try dsimp only [List.set]); rw [Nat.mod_eq_of_lt hn]; sep_cancel

theorem HTTPAPI_Deinit_spec (H : Honours rel lib W Net Sess Con Req) {g n s : Nat} {tr : List Ev} :
    Triple rel (Net tr ∗ Glob Sess g n s) (HTTPAPI_Deinit lib g)
      (fun _ => ∃∃ (n' s' : Nat) (evs : List Ev), (DeinitE n s n' s' evs) ⋏ Net (tr ++ evs) ∗ Glob Sess g n' s') := by
  unfold HTTPAPI_Deinit
  by_cases h0 : n = 0
  · subst h0
    rw [Glob_zero]; hoist; rintro rfl
    stepd (loadInt_spec (p := g) (n := 0) ?_)
    rw [if_neg (by simp)]
    refine Triple.pure (entails_ex_r 0 (entails_ex_r 0 (entails_ex_r [] (entails_pand_r ?_ ⟨rfl, by simp⟩))))
    rw [Glob_zero, eq_self, true_pand, List.append_nil]
    sep_cancel
  · rw [Glob_pos h0]; hoist; intro hs
    stepd (loadInt_spec (p := g) (n := n) ?_)
    rw [if_pos (by omega)]
    step (store_spec (p := g) ?_)
    by_cases h1 : n = 1
    · subst h1
      rw [if_pos rfl]
      stepd (loadPtr_spec (p := g) (q := s) ?_)
      rw [if_pos hs]
      step (H.closeSession s tr)
      step (store_spec (p := g) ?_)
      last (store_spec (p := g) ?_)
      refine entails_ex_r 0 (entails_ex_r 0 (entails_ex_r [.close s] (entails_pand_r ?_ ⟨rfl, by simp⟩)))
      rw [Glob_zero, eq_self, true_pand]
      try dsimp only [List.set]
      sep_cancel
    · rw [if_neg (by omega)]
      refine Triple.pure (entails_ex_r (n - 1) (entails_ex_r s (entails_ex_r [] (entails_pand_r ?_ ⟨rfl, by rw [if_neg h1]; exact ⟨rfl, rfl⟩⟩))))
      rw [Glob_pos (by omega), List.append_nil]
      simp only [sep_pand]
      refine entails_pand_r ?_ hs
      (try dsimp only [List.set]); sep_cancel

/-- the state is read -/
theorem state_spec {g n s : Nat} : Triple rel (Glob Sess g n s) (loadInt g gState) (fun r => (r = if n = 0 then 0 else 1) ⋏ Glob Sess g n s) := by
  by_cases h0 : n = 0
  · subst h0
    rw [Glob_zero]; hoist; rintro rfl
    refine (loadInt_spec (p := g) (b := [.int 0, .ptr 0, .int 0]) (n := 0) rfl).conseq (entails_refl _) fun r => entails_pand_l fun hr => ?_
    exact entails_pand_r (entails_pand_r (entails_refl _) rfl) (by simp [hr])
  · rw [Glob_pos h0]; hoist; intro hs
    refine ((loadInt_spec (p := g) (b := [.int 1, .ptr s, .int n]) (n := 1) rfl).frame (Sess s)).conseq (entails_refl _) fun r => ?_
    rw [pand_sep]
    exact entails_pand_l fun hr => entails_pand_r (entails_pand_r (entails_refl _) hs) (by simp [hr, h0])

theorem session_spec {g n s : Nat} (h : n ≠ 0) : Triple rel (Glob Sess g n s) (loadPtr g gSession) (fun r => (r = s) ⋏ Glob Sess g n s) := by
  rw [Glob_pos h]; hoist; intro hs
  refine ((loadPtr_spec (p := g) (b := [.int 1, .ptr s, .int n]) (q := s) rfl).frame (Sess s)).conseq (entails_refl _) fun r => ?_
  rw [pand_sep]
  exact entails_pand_l fun hr => entails_pand_r (entails_pand_r (entails_refl _) hs) hr

/-! ## Connections -/

theorem connectTo_spec (H : Honours rel lib W Net Sess Con Req) {g n s d p size : Nat} {hn : CharPtr} {t : Text} {w : Wide} {b : Block} {tr : List Ev}
    (hw : W.widen t = some w) (h0 : n ≠ 0) (hs : size = w.length + 1) (hb : b.length = size) :
    Triple rel (Net tr ∗ Glob Sess g n s ∗ d ↦ [.undef, .undef] ∗ p ↦ b ∗ CStr hn t) (connectTo lib g d p size hn)
      (fun r => ∃∃ c : Nat, Net (tr ++ [.connect s w 443 c]) ∗ Glob Sess g n s ∗ Given1 Con r (if c = 0 then .none else .good ⟨c, 30000⟩) ∗ WStr p w ∗ CStr hn t) := by
  unfold connectTo
  have hz := (H.wide_ok t w hw).1
  step (H.widen hn t w p size b hw (by omega) (by omega)) into k
  intro hk
  rw [if_neg (by omega)]
  step (session_spec (g := g) (n := n) (s := s) h0)
  rw [Glob_pos h0]; hoist; intro hs0
  refine Triple.pre (?_ : Triple rel (WStr p w ∗ CStr hn t ∗ Net tr ∗ g ↦ [.int 1, .ptr s, .int n] ∗ Sess s ∗ d ↦ [.undef, .undef]) _ _)
    (by
      refine entails_trans (Q := p ↦ (wideV w ++ .int 0 :: b.drop (w.length + 1)) ∗ (CStr hn t ∗ Net tr ∗ g ↦ [.int 1, .ptr s, .int n] ∗ Sess s ∗ d ↦ [.undef, .undef])) (by sep_cancel)
        (sep_mono (WStr_intro hz) (entails_refl _)))
  step (H.connect s p w HTTPS_PORT tr) into c
  step (store_spec (p := d) ?_)
  stepd (loadPtr_spec (p := d) (q := c) ?_)
  by_cases hc : c = 0
  · subst hc
    rw [if_pos rfl, if_pos rfl]
    step (free_spec (p := d))
    refine Triple.pure (entails_ex_r 0 ?_)
    rw [if_pos rfl]
    unfold Given1
    rw [eq_self, true_pand]
    simp only [pand_sep, sep_pand]
    exact entails_pand_r (by sep_cancel) hs0
  · rw [if_neg hc, if_neg hc]
    step (store_spec (p := d) ?_)
    refine Triple.pure (entails_ex_r c ?_)
    rw [if_neg hc]
    unfold Given1 ConnR
    simp only [pand_sep, sep_pand]
    refine entails_pand_r (entails_pand_r ?_ ?_) ?_
    · (try dsimp only [List.set]); sep_cancel
    · first | exact hc | exact hs0
    · first | exact hs0 | exact hc

theorem HTTPAPI_CreateConnection_spec (H : Honours rel lib W Net Sess Con Req) {g n s : Nat} {hn : CharPtr} {o : Option Text} {tr : List Ev} :
    Triple rel (Net tr ∗ Glob Sess g n s ∗ Arg hn o) (HTTPAPI_CreateConnection lib g hn)
      (fun r => ∃∃ (a : Conn) (evs : List Ev), (CreateE rel W n s o a evs) ⋏ Given1 Con r a ∗ Net (tr ++ evs) ∗ Glob Sess g n s ∗ Arg hn o) := by
  unfold HTTPAPI_CreateConnection
  have quiet : ∀ {a : Conn} {r : Ptr}, CreateE rel W n s o a [] → Given1 Con r a ∗ Net tr ∗ Glob Sess g n s ∗ Arg hn o ⊢ₕ
      ∃∃ (a : Conn) (evs : List Ev), (CreateE rel W n s o a evs) ⋏ Given1 Con r a ∗ Net (tr ++ evs) ∗ Glob Sess g n s ∗ Arg hn o := by
    intro a r hE
    exact entails_ex_r a (entails_ex_r [] (entails_pand_r (by rw [List.append_nil]; exact entails_refl _) hE))
  have nul : Given1 Con 0 .none = emp := by unfold Given1; rw [eq_self, true_pand]
  step (state_spec (g := g) (n := n) (s := s)) into st
  intro hst; subst hst
  by_cases h0 : n = 0
  · rw [if_pos h0, if_pos (by simp)]
    refine Triple.pure (entails_trans ?_ (quiet (a := .none) (by unfold CreateE; rw [if_pos h0]; exact ⟨rfl, rfl⟩)))
    rw [nul]; sep_cancel
  rw [if_neg h0, if_neg (by simp)]
  refine Triple.mallocS (by decide) (fun hr => ?_) fun d hd => ?_
  · rw [if_pos rfl]
    refine Triple.pure (entails_trans ?_ (quiet (a := .none) (by unfold CreateE; rw [if_neg h0]; exact .inl ⟨rfl, hr, rfl⟩)))
    rw [nul]; sep_cancel
  rw [if_neg hd]
  step (H.widenSize hn o) into size
  intro hsz
  cases hw : o.bind W.widen with
  | none =>
    rw [hw] at hsz; dsimp only at hsz; subst hsz
    rw [if_pos rfl]
    refine Triple.pure (entails_trans ?_ (quiet (a := .broken) (by unfold CreateE; rw [if_neg h0]; exact .inr (.inl ⟨rfl, .inr hw, rfl⟩))))
    unfold Given1 Broken
    dsimp only [List.replicate]
    sep_cancel
  | some w =>
    rw [hw] at hsz
    replace hsz : size = w.length + 1 := hsz
    obtain ⟨t, rfl, ht⟩ := Option.bind_eq_some_iff.1 hw
    rw [if_neg (show ¬ size = 0 by omega)]
    have hwl := (H.wide_ok t w ht).2
    refine Triple.mallocW (by omega) (fun hrr => ?_) fun q hq hm => ?_
    · rw [if_pos rfl]
      refine Triple.pure (entails_trans ?_ (quiet (a := .broken) (by
        unfold CreateE; rw [if_neg h0]; exact .inr (.inl ⟨rfl, .inl (hrr.resolve_right (by simp only [maxObj]; omega)), rfl⟩))))
      unfold Given1 Broken
      dsimp only [List.replicate]
      sep_cancel
    · rw [if_neg hq, Arg_some]
      step (connectTo_spec H (g := g) (n := n) (s := s) (d := d) (p := q) (size := size) (hn := hn) (b := List.replicate size .undef) (tr := tr) ht h0 hsz (by simp)) into r
      intro c
      step (free_WStr (p := q) (w := w))
      refine Triple.pure (entails_ex_r _ (entails_ex_r [.connect s w 443 c] (entails_pand_r ?_ (by
        unfold CreateE; rw [if_neg h0]; exact .inr (.inr ⟨w, c, hw, rfl, rfl⟩)))))
      sep_cancel

theorem HTTPAPI_CloseConnection_spec (H : Honours rel lib W Net Sess Con Req) {g n s : Nat} {h : Ptr} {a : Option Obj} {tr : List Ev} :
    Triple rel (Net tr ∗ Glob Sess g n s ∗ OConn Con h a) (HTTPAPI_CloseConnection lib g h)
      (fun _ => ∃∃ evs : List Ev, (CloseE n a evs) ⋏ Net (tr ++ evs) ∗ Glob Sess g n s ∗ (if n = 0 then OConn Con h a else emp)) := by
  unfold HTTPAPI_CloseConnection
  step (state_spec (g := g) (n := n) (s := s)) into st
  intro hst; subst hst
  by_cases h0 : n = 0
  · rw [if_pos h0, if_pos (by simp)]
    refine Triple.pure (entails_ex_r [] (entails_pand_r ?_ (by unfold CloseE; rw [if_pos h0])))
    rw [if_pos h0, List.append_nil]; sep_cancel
  rw [if_neg h0, if_neg (by simp)]
  cases a with
  | none =>
    rw [OConn, ORep_none]; hoist; rintro rfl
    rw [if_neg (by simp)]
    refine Triple.pure (entails_ex_r [] (entails_pand_r ?_ (by unfold CloseE; rw [if_neg h0])))
    rw [if_neg h0, List.append_nil]; sep_cancel
  | some o =>
    rw [OConn, ORep_some, ConnR_eq]; hoist; intro hc
    refine Triple.know (know_pts (p := h) (φ := h ≠ 0) (by pick) fun h1 _ => h1) fun hh => ?_
    rw [if_pos hh]
    stepd (loadPtr_spec (p := h) (q := o.con) ?_)
    rw [if_pos hc]
    step (H.closeConnection o.con tr)
    step (store_spec (p := h) ?_)
    last (free_spec (p := h))
    refine entails_ex_r [.close o.con] (entails_pand_r ?_ (by unfold CloseE; rw [if_neg h0]))
    rw [if_neg h0]
    sep_cancel

/-! ## Options -/

theorem cmp_timeout {s : CharPtr} {t : Text} :
    Triple rel (CStr s t) (strcmp (.str (text "timeout")) s) (fun r => (r = 0 ↔ text "timeout" = t) ⋏ CStr s t) := Curl.cmp_name .timeout

theorem HTTPAPI_SetOption_spec {h value : Ptr} {a : Option Obj} {s : CharPtr} {name : Option Text} {v : Option Nat} :
    Triple rel (OConn Con h a ∗ Arg s name ∗ WordR value v) (HTTPAPI_SetOption h s value)
      (fun r => ∃∃ a' : Option Obj, (SetE name v a r a') ⋏ OConn Con h a' ∗ Arg s name ∗ WordR value v) := by
  unfold HTTPAPI_SetOption
  refine Triple.know (know_OConn (p := h) (a := a) (by pick)) fun k1 => ?_
  refine Triple.know (know_Arg (s := s) (o := name) (by pick)) fun k2 => ?_
  refine Triple.know (know_WordR (p := value) (v := v) (by pick)) fun k3 => ?_
  by_cases hb : h = 0 ∨ s = .null ∨ value = 0
  · rw [if_pos hb]
    refine Triple.pure (entails_ex_r a (entails_pand_r (entails_refl _) ?_))
    rw [k1, k2, k3] at hb
    cases a <;> cases name <;> cases v <;> simp_all [SetE]
  · rw [if_neg hb]
    rw [k1, k2, k3] at hb
    cases a with
    | none => simp at hb
    | some o =>
    cases name with
    | none => simp at hb
    | some t =>
    cases v with
    | none => simp at hb
    | some v =>
    rw [OConn, ORep_some, ConnR_eq, Arg_some, show WordR value (some v) = (value ↦ [.int v]) from rfl]; hoist; intro hc
    step (cmp_timeout (s := s) (t := t)) into r1; intro h1
    refine Triple.ite (fun hr => ?_) (fun hr => ?_)
    · stepd (loadInt_spec (p := value) (n := v) ?_)
      step (store_spec (p := h) ?_)
      refine Triple.pure (entails_ex_r (some { o with timeout := v % 2 ^ 32 }) (entails_pand_r ?_ (by
        unfold SetE; dsimp only; rw [if_pos (h1.1 hr).symm]; exact ⟨rfl, rfl⟩)))
      rw [OConn, ORep_some, ConnR_eq]
      simp only [pand_sep]
      refine entails_pand_r ?_ hc
      (try dsimp only [List.set]); sep_cancel
    · refine Triple.pure (entails_ex_r (some o) (entails_pand_r ?_ ?_))
      · rw [OConn, ORep_some, ConnR_eq]
        simp only [pand_sep]
        exact entails_pand_r (by sep_cancel) hc
      · unfold SetE
        dsimp only
        rw [if_neg (fun e => hr (h1.2 e.symm))]
        exact ⟨rfl, rfl⟩

theorem HTTPAPI_CloneOption_spec {value out : Ptr} {s : CharPtr} {name : Option Text} {v : Option Nat} {b : Bool} :
    Triple rel (Arg s name ∗ WordR value v ∗ OutR out b none) (HTTPAPI_CloneOption s value out)
      (fun r => ∃∃ copy : Option Nat, (CloneE (¬ rel) name v b r copy) ⋏ Arg s name ∗ WordR value v ∗ OutR out b copy) := by
  unfold HTTPAPI_CloneOption
  refine Triple.know (know_Arg (s := s) (o := name) (by pick)) fun k2 => ?_
  refine Triple.know (know_WordR (p := value) (v := v) (by pick)) fun k3 => ?_
  refine Triple.know (φ := out = 0 ↔ b = false) (fun h hp => by
    obtain ⟨_, _, _, _, _, _, _, _, _, _, ho⟩ := hp
    unfold OutR at ho
    cases b with
    | false => simp at ho; simp [ho.1]
    | true =>
      simp only [if_true] at ho
      obtain ⟨w, ho⟩ := ho
      simp [ho.1]) fun k4 => ?_
  by_cases hb : s = .null ∨ value = 0 ∨ out = 0
  · rw [if_pos hb]
    refine Triple.pure (entails_ex_r none (entails_pand_r (entails_refl _) ?_))
    rw [k2, k3, k4] at hb
    cases b <;> cases name <;> cases v <;> simp_all [CloneE]
  · rw [if_neg hb]
    rw [k2, k3, k4] at hb
    cases name with
    | none => simp at hb
    | some t =>
    cases v with
    | none => simp at hb
    | some v =>
    cases b with
    | false => simp at hb
    | true =>
    rw [Arg_some, show WordR value (some v) = (value ↦ [.int v]) from rfl,
      show OutR out true none = ∃∃ v : Val, out ↦ [v] from rfl]; hoist; intro w
    have bad : ∀ {r : Res}, CloneE (¬ rel) (some t) (some v) true r none →
        CStr s t ∗ value ↦ [.int v] ∗ out ↦ [w] ⊢ₕ ∃∃ copy : Option Nat, (CloneE (¬ rel) (some t) (some v) true r copy) ⋏ CStr s t ∗ value ↦ [.int v] ∗ OutR out true copy :=
      fun he => entails_ex_r none (entails_pand_r (sep_mono (entails_refl _) (sep_mono (entails_refl _) (entails_ex_r w (entails_refl _)))) he)
    step (cmp_timeout (s := s) (t := t)) into r1; intro h1
    refine Triple.ite (fun hr => ?_) (fun hr => ?_)
    · have ht := (h1.1 hr).symm
      refine Triple.mallocW (by decide) (fun hrr => ?_) fun q hq _ => ?_
      · rw [if_pos rfl]
        refine Triple.pure (entails_trans (by sep_cancel) (bad ?_))
        have : ¬ rel := hrr.resolve_right (by decide)
        unfold CloneE; dsimp only; rw [if_pos ht]; exact .inr ⟨rfl, rfl, this⟩
      · rw [if_neg hq]
        stepd (loadInt_spec (p := value) (n := v) ?_)
        step (store_spec (p := q) ?_)
        step (store_spec (p := out) ?_)
        refine Triple.pure (entails_ex_r (some (v % 2 ^ 32)) (entails_pand_r ?_ (by
          unfold CloneE; dsimp only; rw [if_pos ht]; exact .inl ⟨rfl, rfl⟩)))
        refine entails_trans (Q := CStr s t ∗ value ↦ [.int v] ∗ (out ↦ [.ptr q] ∗ q ↦ [.int (v % 2 ^ 32)])) (by (try dsimp only [List.set, List.replicate]); sep_cancel)
          (sep_mono (entails_refl _) (sep_mono (entails_refl _) (entails_ex_r q (entails_refl _))))
    · refine Triple.pure (entails_trans (by sep_cancel) (bad ?_))
      unfold CloneE; dsimp only; rw [if_neg (fun e => hr (h1.2 e.symm))]; exact ⟨rfl, rfl⟩

/-! ## The header text -/

/-- the text of a header line that is sent -/
def lineT (p : Text × Text) : Text := p.1 ++ [58, 32] ++ p.2 ++ [13, 10]
theorem reqText_eq {hs : Hdrs} : reqText hs = hs.flatMap lineT := rfl
theorem reqText_take {hs : Hdrs} {i : Nat} {p : Text × Text} (h : hs[i]? = some p) : reqText (hs.take (i + 1)) = reqText (hs.take i) ++ lineT p := by
  obtain ⟨h1, h2⟩ := List.getElem?_eq_some_iff.1 h
  rw [reqText_eq, reqText_eq, List.take_add_one, h]
  simp
theorem reqText_take_le {hs : Hdrs} {i : Nat} : (reqText (hs.take i)).length ≤ (reqText hs).length := by
  rw [reqText_eq, reqText_eq]
  conv => rhs; rw [← List.take_append_drop i hs]
  rw [List.flatMap_append, List.length_append]
  omega

/-- a header is obtained -/
theorem get_line {hd : Ptr} {hs : Hdrs} {i : Nat} {p : Text × Text} (h : hs[i]? = some p) :
    Triple rel (HdrR hd hs) (Headers.HTTPHeaders_GetHeader hd i true)
      (fun x => HdrR hd hs ∗ if x = (.error, some 0) then ((¬ rel ∨ maxObj < (p.1 ++ [58, 32] ++ p.2).length + 1) ⋏ emp)
        else ∃∃ q : Nat, (q ≠ 0 ∧ x = (.ok, some q) ∧ NoNul (p.1 ++ [58, 32] ++ p.2)) ⋏ q ↦ bytesV ((p.1 ++ [58, 32] ++ p.2) ++ [0])) := by
  have ht : line hs i = some (p.1 ++ [58, 32] ++ p.2) := by unfold line; rw [h]; rfl
  have hg := HTTPHeaders_GetHeader_spec (rel := rel) (h := hd) (a := some hs) (i := i) (out := true)
  simp only [OHdr, ORep_some] at hg
  refine hg.conseq (entails_refl _) fun x => ?_
  rw [sep_comm]
  unfold GotHeader; dsimp only; rw [ht]
  exact entails_refl _

theorem CS_line {q : Ptr} {t : Text} (h : NoNul t) : q ↦ bytesV (t ++ [0]) ⊢ₕ CS q t :=
  Curl.CS_of (by simpa [bytesV] using cstrV_bytes h [])

theorem sizeLoop_spec {hd : Ptr} {hs : Hdrs} : ∀ (n i k : Nat), i + n = hs.length → k = (reqText (hs.take i)).length →
    Triple rel (HdrR hd hs) (sizeLoop hd n i k)
      (fun r => (match r with
        | some m => m = (reqText hs).length
        | none => ¬ rel ∨ maxObj < (reqText hs).length + 1) ⋏ HdrR hd hs) := by
  intro n
  induction n with
  | zero =>
    intro i k hi hk
    unfold sizeLoop
    refine Triple.pure (entails_pand_r (entails_refl _) ?_)
    dsimp only
    rw [hk, List.take_of_length_le (by omega)]
  | succ n ih =>
    intro i k hi hk
    unfold sizeLoop
    obtain ⟨p, hp⟩ := Map.get_of_lt (l := hs) (i := i) (by omega)
    have e := reqText_take hp
    have hle : (reqText (hs.take (i + 1))).length ≤ _ := reqText_take_le
    have hel : (lineT p).length = (p.1 ++ [58, 32] ++ p.2).length + 2 := by simp [lineT]; omega
    rw [e, List.length_append] at hle
    step (get_line (rel := rel) (hd := hd) hp) into x
    by_cases hx : x = (.error, some 0)
    · rw [if_pos hx]; hoist; intro hr
      subst hx
      refine Triple.pure (entails_pand_r (by sep_cancel) ?_)
      dsimp only
      exact hr.imp id fun h => by omega
    · rw [if_neg hx]; hoist; intro q hq hx2 hn
      subst hx2
      dsimp only
      rw [show CharPtr.ofPtr q = .heap q 0 from if_neg hq]
      refine Triple.pre (?_ : Triple rel (CS q (p.1 ++ [58, 32] ++ p.2) ∗ HdrR hd hs) _ _) (by
        refine entails_trans (Q := q ↦ bytesV ((p.1 ++ [58, 32] ++ p.2) ++ [0]) ∗ HdrR hd hs) (by sep_cancel) (sep_mono (CS_line hn) (entails_refl _)))
      obtain ⟨t, ht⟩ : ∃ t, t = p.1 ++ [58, 32] ++ p.2 := ⟨_, rfl⟩
      rw [← ht] at hn hel ⊢
      step (strlen_spec (s := .heap q 0) (t := t))
      step (free_CS (p := q))
      refine (ih (i + 1) _ (by omega) ?_).conseq (by sep_cancel) fun r => entails_refl _
      rw [e, hk, List.length_append]; omega

theorem joinLoop_spec {hd u : Ptr} {hs : Hdrs} : ∀ (n i : Nat) (rest : List Val), i + n = hs.length → NoNul (reqText (hs.take i)) →
    (reqText (hs.take i)).length + rest.length = (reqText hs).length →
    Triple rel (HdrR hd hs ∗ u ↦ (bytesV (reqText (hs.take i)) ++ .byte 0 :: rest)) (joinLoop hd u n i)
      (fun r => ∃∃ b : Block, (if r then NoNul (reqText hs) ∧ b = bytesV (reqText hs) ++ [.byte 0] else ¬ rel ∨ maxObj < (reqText hs).length + 1) ⋏ HdrR hd hs ∗ u ↦ b) := by
  intro n
  induction n with
  | zero =>
    intro i rest hi hn hl
    unfold joinLoop
    rw [List.take_of_length_le (by omega)] at *
    have hz : rest = [] := List.eq_nil_of_length_eq_zero (by omega)
    subst hz
    exact Triple.pure (entails_ex_r _ (entails_pand_r (entails_refl _) (by rw [if_pos rfl]; exact ⟨hn, rfl⟩)))
  | succ n ih =>
    intro i rest hi hn0 hl
    unfold joinLoop
    obtain ⟨p, hp⟩ := Map.get_of_lt (l := hs) (i := i) (by omega)
    have e := reqText_take hp
    have hle : (reqText (hs.take (i + 1))).length ≤ _ := reqText_take_le
    have hel : (lineT p).length = (p.1 ++ [58, 32] ++ p.2).length + 2 := by simp [lineT]; omega
    rw [e, List.length_append] at hle
    step (get_line (rel := rel) (hd := hd) hp) into x
    by_cases hx : x = (.error, some 0)
    · rw [if_pos hx]; hoist; intro hr
      subst hx
      refine Triple.pure (entails_ex_r _ (entails_pand_r (by sep_cancel) ?_))
      rw [if_neg (by simp)]
      exact hr.imp id fun h => by omega
    · rw [if_neg hx]; hoist; intro q hq hx2 hn
      subst hx2
      dsimp only
      rw [show CharPtr.ofPtr q = .heap q 0 from if_neg hq]
      refine Triple.pre (?_ : Triple rel (CS q (p.1 ++ [58, 32] ++ p.2) ∗ HdrR hd hs ∗ u ↦ (bytesV (reqText (hs.take i)) ++ .byte 0 :: rest)) _ _) (by
        refine entails_trans (Q := q ↦ bytesV ((p.1 ++ [58, 32] ++ p.2) ++ [0]) ∗ (HdrR hd hs ∗ u ↦ (bytesV (reqText (hs.take i)) ++ .byte 0 :: rest))) (by sep_cancel)
          (sep_mono (CS_line hn) (entails_refl _)))
      obtain ⟨t, ht⟩ : ∃ t, t = p.1 ++ [58, 32] ++ p.2 := ⟨_, rfl⟩
      rw [← ht] at hn hel ⊢
      step (strcat_spec (rel := rel) (dst := u) (rest := rest) (CStr_reads (s := .heap q 0) (t := t)) hn0 (by omega))
      have hn1 : NoNul (reqText (hs.take i) ++ t) := by simp only [NoNul, List.mem_append, not_or]; exact ⟨hn0, hn⟩
      have hcr : Reads emp (.str [13, 10]) [13, 10] := lit_reads (by decide) (by decide)
      have hsc := strcat_spec (rel := rel) (dst := u) (rest := rest.drop t.length) hcr hn1 (by simp only [List.length_drop, List.length_cons, List.length_nil]; omega)
      rw [sep_emp] at hsc
      simp only [sep_emp] at hsc
      step hsc
      step (free_CS (p := q))
      have e3 : reqText (hs.take i) ++ t ++ [13, 10] = reqText (hs.take (i + 1)) := by rw [e, ht]; simp [lineT]
      rw [e3]
      refine (ih (i + 1) _ (by omega) ?_ ?_).conseq (by sep_cancel) fun r => entails_refl _
      · rw [← e3]; simp only [NoNul, List.mem_append, not_or]; exact ⟨⟨hn0, hn⟩, by decide⟩
      · rw [e, List.length_append]; simp only [List.length_drop, List.length_cons, List.length_nil]; omega

theorem ConstructHeadersString_spec {hd : Ptr} {hs : Hdrs} :
    Triple rel (HdrR hd hs) (ConstructHeadersString hd)
      (fun r => HdrR hd hs ∗ if r = 0 then ((¬ rel ∨ maxObj < (reqText hs).length + 1) ⋏ emp) else CS r (reqText hs)) := by
  unfold ConstructHeadersString
  have hg := HTTPHeaders_GetHeaderCount_spec (rel := rel) (h := hd) (a := some hs) (out := true)
  simp only [OHdr, ORep_some] at hg
  have failed : (¬ rel ∨ maxObj < (reqText hs).length + 1) → HdrR hd hs ⊢ₕ HdrR hd hs ∗ if (0 : Ptr) = 0 then ((¬ rel ∨ maxObj < (reqText hs).length + 1) ⋏ emp) else CS 0 (reqText hs) := by
    intro h
    rw [if_pos rfl]
    simp only [sep_pand, sep_emp]
    exact entails_pand_r (entails_refl _) h
  step hg into x
  rintro rfl
  dsimp only
  step (sizeLoop_spec (rel := rel) (hd := hd) (hs := hs) hs.length 0 0 (by omega) rfl) into s
  intro hs1
  cases s with
  | none => exact Triple.pure (failed hs1)
  | some m =>
    dsimp only at hs1 ⊢
    refine Triple.malloc (fun hr => ?_) fun u hu hm => ?_
    · rw [if_pos rfl]
      exact Triple.pure (failed (by rw [← hs1]; exact hr))
    · rw [if_neg hu]
      step (store_spec (p := u) ?_)
      have e : (List.replicate (m + 1) Val.undef).set 0 (.byte 0) = bytesV (reqText (hs.take 0)) ++ .byte 0 :: List.replicate m .undef := rfl
      rw [e]
      step (joinLoop_spec (rel := rel) (hd := hd) (u := u) (hs := hs) hs.length 0 (List.replicate m .undef) (by omega) (by simp [reqText, NoNul])
        (by simp [reqText] at hs1 ⊢; omega)) into r
      intro b hb
      cases r with
      | true =>
        rw [if_pos rfl] at hb ⊢
        refine Triple.pure ?_
        rw [if_neg hu]
        refine sep_mono (entails_refl _) (Curl.CS_of ?_)
        rw [hb.2]; exact cstrV_bytes hb.1 []
      | false =>
        rw [if_neg (by simp)] at hb ⊢
        step (free_spec (p := u))
        exact Triple.pure (failed hb)

end Verif.Wh
