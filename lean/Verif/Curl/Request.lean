import Verif.Curl.Exec
/-! # `HTTPAPI_ExecuteRequest` -/
set_option linter.unusedSimpArgs false
set_option linter.unusedVariables false
namespace Verif.Curl
open Verif.Headers Verif.Buffer Verif.Crt
open Verif.Sas (text)
open Verif.Sock (intV)
open Verif.Map (CS free_CS know_Arg)
variable {rel : Prop} {lib : Lib} {Net : List Ev → HProp} {Global : HProp} {Easy : Nat → HProp} {Slist : Nat → List Text → HProp}
  {Busy : Nat → Transfer → Nat → HProp}

/-! ## the header lines -/

theorem allLines_get {hs : Hdrs} {i : Nat} {t : Text} (h : line hs i = some t) : (allLines hs)[i]? = some t := by
  unfold allLines; rw [List.getElem?_map]; exact h

theorem headerLoop_spec (H : Honours rel lib Net Global Easy Slist Busy) {hd : Ptr} {hs : Hdrs} : ∀ (n i l : Nat), n + i = hs.length →
    Triple rel (HdrR hd hs ∗ Lines Slist l ((allLines hs).take i)) (headerLoop lib hd n i l)
      (fun x => ∃∃ ls : List Text, ((x.1 = .ok ∧ ls = allLines hs) ∨ (x.1 = .httpHeadersFailed ∧ ∃ l ∈ allLines hs, ¬ rel ∨ maxObj < l.length + 1) ∨
        (x.1 = .allocFailed ∧ hs ≠ [])) ⋏ HdrR hd hs ∗ Lines Slist x.2 ls) := by
  intro n
  induction n with
  | zero =>
    intro i l hi
    unfold headerLoop
    refine Triple.pure (entails_ex_r _ (entails_pand_r (entails_refl _) (Or.inl ⟨rfl, List.take_of_length_le (by simp [allLines]; omega)⟩)))
  | succ n ih =>
    intro i l hi
    unfold headerLoop
    have hlt : i < hs.length := by omega
    obtain ⟨t, ht⟩ : ∃ t, line hs i = some t := by
      unfold line; rw [List.getElem?_eq_getElem hlt]; exact ⟨_, rfl⟩
    have hm := allLines_get ht
    have hg := HTTPHeaders_GetHeader_spec (rel := rel) (h := hd) (a := some hs) (i := i) (out := true)
    simp only [OHdr, ORep_some] at hg
    step hg into x
    have eg : GotHeader rel (some hs) i true x = if x = (.error, some 0) then ((¬ rel ∨ maxObj < t.length + 1) ⋏ emp)
      else ∃∃ p : Nat, (p ≠ 0 ∧ x = (.ok, some p) ∧ NoNul t) ⋏ p ↦ bytesV (t ++ [0]) := by
      unfold GotHeader; dsimp only; rw [ht]
    rw [eg]
    by_cases hx : x = (.error, some 0)
    · rw [if_pos hx]; hoist; intro hr
      subst hx
      exact Triple.pure (entails_ex_r _ (entails_pand_r (by sep_cancel) (Or.inr (Or.inl ⟨rfl, t, List.mem_of_getElem? hm, hr⟩))))
    · rw [if_neg hx]; hoist; intro p hp hx2 hn
      subst hx2
      dsimp only
      have hcs : p ↦ bytesV (t ++ [0]) ⊢ₕ CStr (.heap p 0) t := CS_of (cstrV_bytes' hn)
      refine Triple.pre (?_ : Triple rel (CStr (.heap p 0) t ∗ Lines Slist l ((allLines hs).take i) ∗ HdrR hd hs) _ _)
        (entails_trans (by sep_cancel) (sep_mono hcs (entails_refl (HdrR hd hs ∗ Lines Slist l ((allLines hs).take i)))) |> fun h => entails_trans h (by sep_cancel))
      step (H.slistAppend l ((allLines hs).take i) (.heap p 0) t) into l'
      by_cases hl : l' = 0
      · rw [if_pos hl, if_pos hl]
        step (free_CS (p := p))
        refine Triple.pure (entails_ex_r _ (entails_pand_r (by sep_cancel) (Or.inr (Or.inr ⟨rfl, ?_⟩))))
        intro he; rw [he] at hlt; simp at hlt
      · rw [if_neg hl, if_neg hl]
        step (free_CS (p := p))
        have e : (allLines hs).take i ++ [t] = (allLines hs).take (i + 1) := by
          rw [List.take_add_one, hm]; rfl
        refine (ih (i + 1) l' (by omega)).pre ?_
        unfold Lines
        rw [if_neg hl, ← e]
        sep_cancel

/-! ## the options of the easy handle -/

theorem cfg_append {c : Nat} {tr : List Ev} {plan : List Setting} : cfg c (tr ++ accepted c plan) = plan.foldl Cfg.set (cfg c tr) := by
  unfold cfg accepted
  rw [List.foldl_append]
  generalize List.foldl (cfgStep c) {} tr = k
  induction plan generalizing k with
  | nil => rfl
  | cons s plan ih =>
    simp only [List.map_cons, List.foldl_cons]
    rw [show cfgStep c k (.set c s 0) = k.set s by simp [cfgStep]]
    exact ih _

/-- the handle is ready to perform the request `q` -/
structure Ready (k : Cfg) (q : Request) (url : Text) (ls : List Text) (body : Text) (l : Nat) (rh : Ptr) (p : CharPtr) : Prop where
  eUrl : k.url = some url
  eWrite : k.writeFn = .content
  eLines : k.headers = l
  eRh : k.writeHeader = rh
  eFn : rh = 0 → k.headerFn = .null
  eReq : k.request url ls body = q
  eBody : k.method = .get ∧ body = [] ∨ k.method = .post ∧ k.size = body.length ∧ (body ≠ [] → k.fields = p) ∧ (body = [] → k.fields = .null)

/-- after all the options of a request are set, whatever was set before, the handle performs exactly the wanted request -/
theorem ready {k : Cfg} {o : Obj} {path : Text} {hs : Hdrs} {x : Args} {p : CharPtr} {rh rcb : Ptr} {l : Nat} (ht : x.type < 5) :
    Ready ((optionPlan o path ++ methodPlan x.type ++ restPlan x.type p x.body rh rcb l).foldl Cfg.set k)
      (wanted o path hs x) (text "https://" ++ o.host ++ path) (allLines hs) x.body l rh p ∧
    ((optionPlan o path ++ methodPlan x.type ++ restPlan x.type p x.body rh rcb l).foldl Cfg.set k).writeData = rcb := by
  have hx : x.type = 0 ∨ x.type = 1 ∨ x.type = 2 ∨ x.type = 3 ∨ x.type = 4 := by omega
  rcases hx with hx | hx | hx | hx | hx <;> rw [hx] <;> by_cases hb : x.body = [] <;> by_cases hr : rh = 0 <;>
    refine ⟨⟨?_, ?_, ?_, ?_, ?_, ?_, ?_⟩, ?_⟩ <;>
    simp [optionPlan, methodPlan, restPlan, contentPlan, callbackPlan, Cfg.set, hb, hr, wanted, Cfg.request, verbOf, hx]

/-! ## sending -/

/-- the content of a request -/
def ContentR (p : CharPtr) : Option Text → HProp
  | none => (p = .null) ⋏ emp
  | some bs => (p ≠ .null) ⋏ Data p bs

/-- the objects that receive the answer -/
def OutX (st rh rc : Ptr) (x : Args) : HProp := StatR st x.status ∗ OHdr rh x.rhdrs ∗ OBuf rc x.rcontent
theorem OutX_eq {st rh rc : Ptr} {x : Args} : OutX st rh rc x = (StatR st x.status ∗ OHdr rh x.rhdrs ∗ OBuf rc x.rcontent) := rfl

theorem know_Content {p : CharPtr} {c : Option Text} {P F : HProp} (pk : Pick P (ContentR p c) F) : ∀ h, P h → (p = .null ↔ c = none) ∧ (c.getD []).length ≤ maxObj := by
  intro h hp
  unfold Pick at pk; rw [pk] at hp
  cases c with
  | none =>
    unfold ContentR at hp; rw [pand_sep] at hp
    simp [hp.1]
  | some bs =>
    unfold ContentR at hp; rw [pand_sep] at hp
    have := know_Data (s := p) (bs := bs) (P := Data p bs ∗ F) (by pick) h hp.2
    simp [hp.1]
    exact this

theorem body_mem {k : Cfg} {q : Request} {url : Text} {ls : List Text} {c : Option Text} {l : Nat} {rh : Ptr} {p : CharPtr}
    (R : Ready k q url ls (c.getD []) l rh p) (hp : p = .null ↔ c = none) : ∃ F, ContentR p c = (BodyR k (c.getD []) ∗ F) := by
  by_cases hb : c.getD [] = []
  · refine ⟨ContentR p c, ?_⟩
    rw [hb] at R ⊢
    have : BodyR k [] = emp := by
      unfold BodyR
      rcases R.eBody with ⟨h, _⟩ | ⟨h, h2, _, h4⟩
      · rw [h]; dsimp only; rw [eq_self, true_pand]
      · rw [h, h4 rfl]; dsimp only; rw [eq_true h2, true_pand]
        show ((_ : Prop) ⋏ emp) = emp
        rw [eq_self, true_pand]
    rw [this, emp_sep]
  · cases c with
    | none => simp at hb
    | some bs =>
      refine ⟨emp, ?_⟩
      rw [sep_emp]
      have hp' : p ≠ .null := by simp [hp]
      rw [show ContentR p (some bs) = ((p ≠ .null) ⋏ Data p bs) from rfl, eq_true hp', true_pand]
      unfold BodyR
      rcases R.eBody with ⟨_, h⟩ | ⟨h, h2, h3, _⟩
      · exact absurd h hb
      · rw [h, h3 hb]; dsimp only; rw [eq_true h2, true_pand]; rfl

section
variable (H : Honours rel lib Net Global Easy Slist Busy) {h : Ptr} {ob : Obj} {u : Nat}
include H

theorem execute_spec {rcb st rh rc : Ptr} {tr : List Ev} {q : Request} {url : Text} {ls : List Text} {l : Nat} {p : CharPtr} {x : Args}
    (R : Ready (cfg ob.curl tr) q url ls x.body l rh p) (hw : (cfg ob.curl tr).writeData = rcb) :
    Triple rel (Net tr ∗ h ↦ fields ob u ∗ Easy ob.curl ∗ Lines Slist l ls ∗ ContentR p x.content ∗ CollR rel rcb [] false ∗ OutX st rh rc x)
      (execute lib h rcb st rc)
      (fun r => ∃∃ (x' : Args) (evs : List Ev), (Sent rel ob.curl q x r x' evs) ⋏ Net (tr ++ evs) ∗ h ↦ fields ob u ∗ Easy ob.curl ∗ Lines Slist l ls ∗
        ContentR p x.content ∗ Spent rcb ∗ OutX st rh rc x') := by
  unfold execute
  refine Triple.know (know_Content (p := p) (c := x.content) (by pick)) fun hp => ?_
  rw [OutX_eq]
  refine Triple.know (know_OHdr (h := rh) (a := x.rhdrs) (by pick)) fun hrh => ?_
  obtain ⟨F, hF⟩ := body_mem R hp.1
  have hF' : ContentR p x.content = (BodyR (cfg ob.curl tr) x.body ∗ F) := hF
  rw [hF']
  stepd (loadPtr_spec (p := h) (q := ob.curl) ?_)
  have hl := R.eLines
  have hperf := perform_spec H (c := ob.curl) (rh := rh) (rcb := rcb) (tr := tr) (k := cfg ob.curl tr) (url := url) (ls := ls) (bs := x.body) (a := x.rhdrs)
    rfl R.eUrl R.eWrite R.eRh hw (fun ha => R.eFn (hrh.2 ha))
  rw [hl, R.eReq] at hperf
  simp only [sep_assoc]
  step hperf into e
  intro ps a' er hd
  -- the end of every path
  have fin : ∀ {r : Res} {s' : Option Val} {b' : Option Content} {tail : List Ev}, Answered rel ob.curl ps e x.status x.rcontent r s' b' tail →
      Net (tr ++ ([.perform ob.curl q] ++ ps.map (Piece.ev ob.curl) ++ [.done ob.curl e] ++ tail)) ∗ h ↦ fields ob u ∗ Easy ob.curl ∗ Lines Slist l ls ∗
        (BodyR (cfg ob.curl tr) x.body ∗ F) ∗ Spent rcb ∗ StatR st s' ∗ OHdr rh a' ∗ OBuf rc b' ⊢ₕ
      ∃∃ (x' : Args) (evs : List Ev), (Sent rel ob.curl q x r x' evs) ⋏ Net (tr ++ evs) ∗ h ↦ fields ob u ∗ Easy ob.curl ∗ Lines Slist l ls ∗
        (BodyR (cfg ob.curl tr) x.body ∗ F) ∗ Spent rcb ∗ OutX st rh rc x' := by
    intro r s' b' tail hA
    exact entails_ex_r { x with rhdrs := a', status := s', rcontent := b' } (entails_ex_r _ (entails_pand_r (entails_refl _)
      ⟨ps, e, tail, a', s', b', rfl, hd, hA, rfl⟩))
  simp only [sep_assoc] at fin
  by_cases he : e = 0
  · subst he
    rw [if_neg (by simp)]
    stepd (loadPtr_spec (p := h) (q := ob.curl) ?_)
    step (H.responseCode ob.curl (tr ++ ([.perform ob.curl q] ++ ps.map (Piece.ev ob.curl) ++ [.done ob.curl 0]))) into y
    obtain ⟨e2, v⟩ := y
    dsimp only
    have hassoc : ∀ t : List Ev, tr ++ ([.perform ob.curl q] ++ ps.map (Piece.ev ob.curl) ++ [.done ob.curl 0]) ++ t =
        tr ++ ([.perform ob.curl q] ++ ps.map (Piece.ev ob.curl) ++ [.done ob.curl 0] ++ t) := by intro t; simp
    rw [hassoc]
    by_cases he2 : e2 = 0
    · subst he2
      rw [if_neg (by simp)]
      cases er with
      | true =>
        rw [CollR_true]; hoist; intro hne hrel
        stepd (loadInt_spec (p := rcb) (n := 1) ?_)
        rw [if_pos (by simp)]
        refine Triple.pure (entails_trans ?_ (fin (tail := [.code ob.curl 0 v]) (s' := x.status) (b' := x.rcontent) ?_))
        · have : rcb ↦ [.ptr 0, .int 0, .int 1] ⊢ₕ Spent rcb := by
            refine entails_ex_r 0 (entails_ex_r 0 (entails_ex_r 1 ?_))
            rw [if_pos rfl, sep_emp]; exact entails_refl _
          refine entails_trans (entails_trans (by sep_cancel) (sep_mono this (entails_refl (Net (tr ++ ([.perform ob.curl q] ++ ps.map (Piece.ev ob.curl) ++ [.done ob.curl 0] ++ [.code ob.curl 0 v])) ∗
            h ↦ fields ob u ∗ Easy ob.curl ∗ Lines Slist l ls ∗ BodyR (cfg ob.curl tr) x.body ∗ F ∗ StatR st x.status ∗ OHdr rh a' ∗ OBuf rc x.rcontent)))) (by sep_cancel)
        · unfold Answered
          rw [if_neg (by simp)]
          refine ⟨0, v, rfl, ?_⟩
          rw [if_neg (by simp)]
          exact Or.inl ⟨rfl, rfl, rfl, hne, hrel⟩
      | false =>
        have hld : Triple rel (CollR rel rcb (bodyOf ps) false) (loadInt rcb gError) (fun r => (r = 0) ⋏ CollR rel rcb (bodyOf ps) false) := by
          rw [CollR_false]; hoist; intro b
          have := (loadInt_spec (rel := rel) (p := rcb) (b := [.ptr b, .int (bodyOf ps).length, .int 0]) (off := gError) (n := 0) rfl).frame
            (if bodyOf ps = [] then ((b = 0) ⋏ emp) else b ↦ bytesV (bodyOf ps))
          refine this.conseq (entails_refl _) fun r => ?_
          rw [pand_sep]
          exact entails_pand_l fun hr => entails_pand_r (entails_ex_r b (entails_refl _)) hr
        step hld
        rw [if_neg (by simp)]
        step (fillStatus_spec (p := st) (s := x.status) (v := v))
        step (fillContent_spec (rel := rel) (rcb := rcb) (rc := rc) (a := x.rcontent) (got := bodyOf ps)) into r2
        intro b' hb'
        have hA : Answered rel ob.curl ps 0 x.status x.rcontent (if v ≥ 300 then r2 else .ok) (x.status.map fun _ => intV v) b' [.code ob.curl 0 v] := by
          unfold Answered
          rw [if_neg (by simp)]
          refine ⟨0, v, rfl, ?_⟩
          rw [if_neg (by simp)]
          refine Or.inr ⟨rfl, ?_⟩
          rcases hb' with ⟨h1, h2⟩ | ⟨h1, h2, h3, h4, h5⟩
          · refine Or.inl ⟨?_, h2⟩
            rw [h1]; split <;> rfl
          · exact Or.inr ⟨h1, h2, h3, h4, by rw [h5]⟩
        refine Triple.ite (fun hv => ?_) (fun hv => ?_)
        · rw [if_pos hv] at hA
          exact Triple.pure (entails_trans (by sep_cancel) (fin hA))
        · rw [if_neg hv] at hA
          exact Triple.pure (entails_trans (by sep_cancel) (fin hA))
    · rw [if_pos he2]
      refine Triple.pure (entails_trans ?_ (fin (tail := [.code ob.curl e2 v]) (s' := x.status) (b' := x.rcontent) ?_))
      · refine entails_trans (entails_trans (by sep_cancel) (sep_mono (Spent_of (rel := rel) (rcb := rcb) (got := bodyOf ps) (e := er)) (entails_refl (Net (tr ++ ([.perform ob.curl q] ++ ps.map (Piece.ev ob.curl) ++ [.done ob.curl 0] ++ [.code ob.curl e2 v])) ∗
            h ↦ fields ob u ∗ Easy ob.curl ∗ Lines Slist l ls ∗ BodyR (cfg ob.curl tr) x.body ∗ F ∗ StatR st x.status ∗ OHdr rh a' ∗ OBuf rc x.rcontent)))) (by sep_cancel)
      · unfold Answered
        rw [if_neg (by simp)]
        refine ⟨e2, v, rfl, ?_⟩
        rw [if_pos he2]
        exact ⟨rfl, rfl, rfl⟩
  · rw [if_pos he]
    rw [show tr ++ ([Ev.perform ob.curl q] ++ ps.map (Piece.ev ob.curl) ++ [.done ob.curl e]) = tr ++ ([.perform ob.curl q] ++ ps.map (Piece.ev ob.curl) ++ [.done ob.curl e] ++ []) by simp]
    refine Triple.pure (entails_trans ?_ (fin (tail := []) (s' := x.status) (b' := x.rcontent) ?_))
    · refine entails_trans (entails_trans (by sep_cancel) (sep_mono (Spent_of (rel := rel) (rcb := rcb) (got := bodyOf ps) (e := er)) (entails_refl (Net (tr ++ ([.perform ob.curl q] ++ ps.map (Piece.ev ob.curl) ++ [.done ob.curl e] ++ [])) ∗
            h ↦ fields ob u ∗ Easy ob.curl ∗ Lines Slist l ls ∗ BodyR (cfg ob.curl tr) x.body ∗ F ∗ StatR st x.status ∗ OHdr rh a' ∗ OBuf rc x.rcontent)))) (by sep_cancel)
    · unfold Answered
      rw [if_pos he]
      exact ⟨rfl, rfl, rfl, rfl⟩

/-- the block of the automatic `responseContentBuffer` -/
def Cell3 (rcb : Ptr) : HProp := ∃∃ a b c : Val, rcb ↦ [a, b, c]

theorem receive_spec {rcb st rh rc : Ptr} {tr : List Ev} {q : Request} {url : Text} {ls : List Text} {l : Nat} {p : CharPtr} {x : Args}
    (R : Ready ((cfg ob.curl tr).set (.writeData rcb)) q url ls x.body l rh p) :
    Triple rel (Net tr ∗ h ↦ fields ob u ∗ Easy ob.curl ∗ Lines Slist l ls ∗ ContentR p x.content ∗ Cell3 rcb ∗ OutX st rh rc x)
      (receive lib h rcb st rc)
      (fun r => ∃∃ (x' : Args) (evs : List Ev), ((r = .setOptionFailed ∧ x' = x ∧ Refused ob.curl [.writeData rcb] evs) ∨
          (∃ evs', evs = accepted ob.curl [.writeData rcb] ++ evs' ∧ Sent rel ob.curl q x r x' evs')) ⋏
        Net (tr ++ evs) ∗ h ↦ fields ob u ∗ Easy ob.curl ∗ Lines Slist l ls ∗ ContentR p x.content ∗ Cell3 rcb ∗ OutX st rh rc x') := by
  unfold receive
  rw [show Cell3 rcb = ∃∃ a b c : Val, rcb ↦ [a, b, c] from rfl]; hoist; intro a b c
  step (store_spec (p := rcb) ?_)
  step (store_spec (p := rcb) ?_)
  step (store_spec (p := rcb) ?_)
  have hs := setO_frame H (h := h) (ob := ob) (u := u) (o := .writeData rcb) (s := .writeData rcb) (tr := tr) (F := emp) (triv_arg rfl)
  simp only [sep_emp] at hs
  step hs into r
  dsimp only
  -- release what was collected
  have rel1 : ∀ {r : Res} {P : HProp} {Q : Res → HProp}, (Cell3 rcb ∗ P ⊢ₕ Q r) → Triple rel (Spent rcb ∗ P) (do
      let b ← loadPtr rcb gBuffer
      if b ≠ 0 then do
        free b
        pure r
      else pure r) Q := by
    intro r P Q hQ
    rw [show Spent rcb = ∃∃ (b n e : Nat), rcb ↦ [.ptr b, .int n, .int e] ∗ (if b = 0 then emp else ∃∃ vs : Block, b ↦ vs) from rfl]
    hoist; intro b n e
    stepd (loadPtr_spec (p := rcb) (q := b) ?_)
    have hc : rcb ↦ [.ptr b, .int n, .int e] ⊢ₕ Cell3 rcb := entails_ex_r _ (entails_ex_r _ (entails_ex_r _ (entails_refl _)))
    by_cases hb : b = 0
    · subst hb
      rw [if_pos rfl, if_neg (by simp)]
      exact Triple.pure (entails_trans (entails_trans (by sep_cancel) (sep_mono hc (entails_refl _))) hQ)
    · rw [if_neg hb, if_pos hb]; hoist; intro vs
      step (free_spec (p := b))
      exact Triple.pure (entails_trans (entails_trans (by sep_cancel) (sep_mono hc (entails_refl _))) hQ)
  by_cases hr : r = 0
  · subst hr
    rw [if_neg (by simp)]
    have hcfg : cfg ob.curl (tr ++ [.set ob.curl (.writeData rcb) 0]) = (cfg ob.curl tr).set (.writeData rcb) := by
      have := cfg_append (c := ob.curl) (tr := tr) (plan := [.writeData rcb])
      simpa [accepted] using this
    have hcoll : rcb ↦ [.ptr 0, .int 0, .int 0] ⊢ₕ CollR rel rcb [] false := by
      rw [CollR_false]
      refine entails_ex_r 0 ?_
      rw [if_pos rfl, eq_self, true_pand, sep_emp]; exact entails_refl _
    have hex := execute_spec H (h := h) (ob := ob) (u := u) (rcb := rcb) (st := st) (rh := rh) (rc := rc) (tr := tr ++ [.set ob.curl (.writeData rcb) 0]) (q := q)
      (url := url) (ls := ls) (l := l) (p := p) (x := x) (by rw [hcfg]; exact R) (by rw [hcfg]; rfl)
    refine Triple.pre (?_ : Triple rel (Net (tr ++ [.set ob.curl (.writeData rcb) 0]) ∗ h ↦ fields ob u ∗ Easy ob.curl ∗ Lines Slist l ls ∗ ContentR p x.content ∗
      CollR rel rcb [] false ∗ OutX st rh rc x) _ _) (entails_trans (entails_trans (by sep_cancel) (sep_mono hcoll
        (entails_refl (Net (tr ++ [.set ob.curl (.writeData rcb) 0]) ∗ h ↦ fields ob u ∗ Easy ob.curl ∗ Lines Slist l ls ∗ ContentR p x.content ∗ OutX st rh rc x)))) (by sep_cancel))
    step hex into r2
    intro x' evs hS
    refine Triple.pre (rel1 (P := Net (tr ++ [.set ob.curl (.writeData rcb) 0] ++ evs) ∗ h ↦ fields ob u ∗ Easy ob.curl ∗ Lines Slist l ls ∗ ContentR p x.content ∗ OutX st rh rc x') ?_) (by sep_cancel)
    refine entails_ex_r x' (entails_ex_r ([.set ob.curl (.writeData rcb) 0] ++ evs) (entails_pand_r ?_ (Or.inr ⟨evs, rfl, hS⟩)))
    rw [List.append_assoc]
    sep_cancel
  · rw [if_pos hr]
    simp only [pure_bind]
    have hsp : rcb ↦ [.ptr 0, .int 0, .int 0] ⊢ₕ Spent rcb := by
      refine entails_ex_r 0 (entails_ex_r 0 (entails_ex_r 0 ?_))
      rw [if_pos rfl, sep_emp]; exact entails_refl _
    refine Triple.pre (rel1 (P := Net (tr ++ [.set ob.curl (.writeData rcb) r]) ∗ h ↦ fields ob u ∗ Easy ob.curl ∗ Lines Slist l ls ∗ ContentR p x.content ∗ OutX st rh rc x) ?_)
      (entails_trans (by sep_cancel) (sep_mono hsp (entails_refl _)))
    refine entails_ex_r x (entails_ex_r [.set ob.curl (.writeData rcb) r] (entails_pand_r ?_ (Or.inl ⟨rfl, rfl, [], _, [], r, rfl, hr, rfl⟩)))
    sep_cancel

/-- the plan was tried, and if all was accepted the request was sent -/
def TriedSent (rel : Prop) (c : Nat) (plan : List Setting) (q : Request) (x : Args) (r : Res) (x' : Args) (evs : List Ev) : Prop :=
  (r = .setOptionFailed ∧ x' = x ∧ Refused c plan evs) ∨ (∃ evs', evs = accepted c plan ++ evs' ∧ Sent rel c q x r x' evs')

omit H in
theorem TriedSent.append {c : Nat} {p1 p2 : List Setting} {q : Request} {x x' : Args} {r : Res} {evs : List Ev} (h : TriedSent rel c p2 q x r x' evs) :
    TriedSent rel c (p1 ++ p2) q x r x' (accepted c p1 ++ evs) := by
  rcases h with ⟨h1, h2, h3⟩ | ⟨evs', h1, h2⟩
  · exact Or.inl ⟨h1, h2, h3.right⟩
  · exact Or.inr ⟨evs', by rw [h1, accepted_append, List.append_assoc], h2⟩

/-- one stage after the other -/
theorem tried_then {c : Nat} {p1 p2 : List Setting} {q : Request} {x : Args} {P : HProp} {Q : Args → HProp} {act k : M Res} {tr : List Ev}
    (hact : Triple rel (Net tr ∗ P) act (fun r => ∃∃ evs : List Ev, (Tried c p1 r evs) ⋏ Net (tr ++ evs) ∗ P))
    (hPQ : P ⊢ₕ Q x)
    (hk : Triple rel (Net (tr ++ accepted c p1) ∗ P) k (fun r => ∃∃ (x' : Args) (evs : List Ev), (TriedSent rel c p2 q x r x' evs) ⋏
      Net (tr ++ accepted c p1 ++ evs) ∗ Q x')) :
    Triple rel (Net tr ∗ P) (do let r ← act; if r ≠ .ok then pure r else k)
      (fun r => ∃∃ (x' : Args) (evs : List Ev), (TriedSent rel c (p1 ++ p2) q x r x' evs) ⋏ Net (tr ++ evs) ∗ Q x') := by
  refine Triple.bind' hact fun r => ?_
  hoist; intro evs hT
  rcases hT with ⟨rfl, rfl⟩ | ⟨rfl, hR⟩
  · rw [if_neg (by simp)]
    refine hk.conseq (entails_refl _) fun r => entails_ex_l fun x' => entails_ex_l fun evs => entails_pand_l fun h => ?_
    refine entails_ex_r x' (entails_ex_r (accepted c p1 ++ evs) (entails_pand_r ?_ h.append))
    rw [List.append_assoc]; exact entails_refl _
  · rw [if_pos (by simp)]
    exact Triple.pure (entails_ex_r x (entails_ex_r evs (entails_pand_r (sep_mono (entails_refl _) hPQ) (Or.inl ⟨rfl, rfl, hR.left⟩))))

theorem withHeaders_spec {rcb st rh rc : Ptr} {tr : List Ev} {q : Request} {url : Text} {ls : List Text} {l len : Nat} {p : CharPtr} {x : Args}
    (hlen : p ≠ .null → len = x.body.length)
    (R : Ready ((restPlan x.type p x.body rh rcb l).foldl Cfg.set (cfg ob.curl tr)) q url ls x.body l rh p) :
    Triple rel (Net tr ∗ h ↦ fields ob u ∗ Easy ob.curl ∗ Lines Slist l ls ∗ ContentR p x.content ∗ Cell3 rcb ∗ OutX st rh rc x)
      (withHeaders lib h rcb x.type l p len st rh rc)
      (fun r => ∃∃ (x' : Args) (evs : List Ev), (TriedSent rel ob.curl (restPlan x.type p x.body rh rcb l) q x r x' evs) ⋏
        Net (tr ++ evs) ∗ h ↦ fields ob u ∗ Easy ob.curl ∗ Lines Slist l ls ∗ ContentR p x.content ∗ Cell3 rcb ∗ OutX st rh rc x') := by
  unfold withHeaders
  refine Triple.know (know_Content (p := p) (c := x.content) (by pick)) fun hp => ?_
  have hb0 : x.body ≠ [] → p ≠ .null := fun hb hn => hb (by unfold Args.body; rw [hp.1.1 hn]; rfl)
  have hm : x.body.length ≤ maxObj := hp.2
  refine Triple.bind' (setO_frame H (o := .httpHeader l) (s := .httpHeader l) (triv_arg rfl)) fun r => ?_
  refine Triple.ite (fun hr => ?_) (fun hr => ?_)
  · exact Triple.pure (entails_ex_r x (entails_ex_r [.set ob.curl (.httpHeader l) r] (entails_pand_r (entails_refl _)
      (Or.inl ⟨rfl, rfl, [], _, _, r, rfl, hr, rfl⟩))))
  · have : r = 0 := by simpa using hr
    subst this
    have : ∀ {Q1 Q2 : Res → HProp} {P : HProp} {m : M Res}, Triple rel P m Q1 → (∀ r, Q1 r ⊢ₕ Q2 r) → Triple rel P m Q2 := fun h h2 => h.conseq (entails_refl _) h2
    refine this (Q1 := fun r => ∃∃ (x' : Args) (evs : List Ev), (TriedSent rel ob.curl (contentPlan x.type p x.body ++ (callbackPlan rh ++ [.writeData rcb])) q x r x' evs) ⋏
      Net ((tr ++ [.set ob.curl (.httpHeader l) 0]) ++ evs) ∗ h ↦ fields ob u ∗ Easy ob.curl ∗ Lines Slist l ls ∗ ContentR p x.content ∗ Cell3 rcb ∗ OutX st rh rc x') ?_ ?_
    · refine tried_then H (Q := fun x' => h ↦ fields ob u ∗ Easy ob.curl ∗ Lines Slist l ls ∗ ContentR p x.content ∗ Cell3 rcb ∗ OutX st rh rc x')
        (applyContent_spec H hb0 hlen hm) (entails_refl _) ?_
      refine tried_then H (Q := fun x' => h ↦ fields ob u ∗ Easy ob.curl ∗ Lines Slist l ls ∗ ContentR p x.content ∗ Cell3 rcb ∗ OutX st rh rc x')
        (applyCallbacks_spec H) (entails_refl _) ?_
      refine receive_spec H (url := url) ?_
      have e : (cfg ob.curl (tr ++ [.set ob.curl (.httpHeader l) 0] ++ accepted ob.curl (contentPlan x.type p x.body) ++ accepted ob.curl (callbackPlan rh))).set (.writeData rcb) =
          (restPlan x.type p x.body rh rcb l).foldl Cfg.set (cfg ob.curl tr) := by
        rw [cfg_append, cfg_append, show [Ev.set ob.curl (.httpHeader l) 0] = accepted ob.curl [.httpHeader l] from rfl, cfg_append]
        unfold restPlan
        simp only [List.foldl_cons, List.foldl_nil, List.foldl_append]
      rw [e]; exact R
    · intro r
      refine entails_ex_l fun x' => entails_ex_l fun evs => entails_pand_l fun hT => entails_ex_r x' (entails_ex_r ([.set ob.curl (.httpHeader l) 0] ++ evs) (entails_pand_r ?_ ?_))
      · rw [List.append_assoc]; exact entails_refl _
      · exact hT.append (p1 := [.httpHeader l])

theorem withURL_spec {rcb st rh rc tmp hd : Ptr} {tr : List Ev} {path : Text} {rp : CharPtr} {hs : Hdrs} {len size : Nat} {p : CharPtr} {x : Args} {b : Block}
    (hpath : x.path = some path) (hhd : x.hdrs = some hs) (hbad : ¬ (x.content = none ∧ x.len > 0))
    (hlen : p ≠ .null → len = x.body.length) (hb : b.length = size) (hsz : size = (text "https://" ++ ob.host).length + path.length + 1) :
    Triple rel (Net tr ∗ h ↦ fields ob u ∗ Easy ob.curl ∗ CS u (text "https://" ++ ob.host) ∗ CStr rp path ∗ tmp ↦ b ∗ HdrR hd hs ∗
        ContentR p x.content ∗ Cell3 rcb ∗ OutX st rh rc x)
      (withURL lib h rcb tmp size x.type rp hd hs.length p len st rh rc)
      (fun r => ∃∃ (x' : Args) (evs : List Ev), (ExecE rel p rh rcb (some ob) x r x' evs) ⋏
        Net (tr ++ evs) ∗ h ↦ fields ob u ∗ Easy ob.curl ∗ CS u (text "https://" ++ ob.host) ∗ CStr rp path ∗ (∃∃ b : Block, tmp ↦ b) ∗ HdrR hd hs ∗
        ContentR p x.content ∗ Cell3 rcb ∗ OutX st rh rc x') := by
  have hE : ∀ {r : Res} {x' : Args} {evs : List Ev},
      ((∃ l, r = .setOptionFailed ∧ x' = x ∧
        Refused ob.curl (optionPlan ob path ++ if x.type < 5 then methodPlan x.type ++ restPlan x.type p x.body rh rcb l else []) evs) ∨
      (5 ≤ x.type ∧ r = .invalidArg ∧ x' = x ∧ evs = accepted ob.curl (optionPlan ob path)) ∨
      (x.type < 5 ∧ x' = x ∧ evs = accepted ob.curl (optionPlan ob path ++ methodPlan x.type) ∧
        ((r = .httpHeadersFailed ∧ ∃ l ∈ allLines hs, ¬ rel ∨ maxObj < l.length + 1) ∨ (r = .allocFailed ∧ hs ≠ []))) ∨
      (x.type < 5 ∧ ∃ l evs', evs = accepted ob.curl (optionPlan ob path ++ methodPlan x.type ++ restPlan x.type p x.body rh rcb l) ++ evs' ∧
        Sent rel ob.curl (wanted ob path hs x) x r x' evs')) → ExecE rel p rh rcb (some ob) x r x' evs := by
    intro r x' evs h
    unfold ExecE
    rw [hpath, hhd]
    dsimp only
    rw [if_neg hbad]
    exact Or.inr h
  unfold withURL
  step (applyOptions_spec H (h := h) (ob := ob) (u := u) (tmp := tmp) (size := size) (rp := rp) (path := path) (b := b) (tr := tr) hb hsz) into r
  intro evs1 hT b1
  rcases hT with ⟨rfl, rfl⟩ | ⟨rfl, hR⟩
  · rw [if_neg (by simp)]
    step (applyMethod_spec H (h := h) (ob := ob) (u := u) (type := x.type) (tr := tr ++ accepted ob.curl (optionPlan ob path)) (F := emp)) into r
    intro evs2 hT
    rcases hT with ⟨ht, ⟨rfl, rfl⟩ | ⟨rfl, hR⟩⟩ | ⟨ht, rfl, rfl⟩
    · rw [if_neg (by simp)]
      have hl0 : emp ⊢ₕ Lines Slist 0 ((allLines hs).take 0) := by
        unfold Lines; rw [if_pos rfl]; exact entails_pand_r (entails_refl _) rfl
      have hloop : Triple rel (HdrR hd hs) (headerLoop lib hd hs.length 0 0) _ :=
        (headerLoop_spec H (hd := hd) (hs := hs) hs.length 0 0 (by omega)).pre (by
          conv => lhs; rw [← sep_emp (HdrR hd hs)]
          exact sep_mono (entails_refl _) hl0)
      step hloop into y
      intro ls hls
      obtain ⟨r3, l⟩ := y
      dsimp only at hls ⊢
      rcases hls with ⟨rfl, rfl⟩ | hls
      · rw [if_pos rfl]
        have hrd := ready (k := cfg ob.curl tr) (o := ob) (path := path) (hs := hs) (x := x) (p := p) (rh := rh) (rcb := rcb) (l := l) ht
        have hwh := withHeaders_spec H (h := h) (ob := ob) (u := u) (rcb := rcb) (st := st) (rh := rh) (rc := rc) (l := l) (len := len) (p := p) (x := x)
          (tr := tr ++ accepted ob.curl (optionPlan ob path) ++ accepted ob.curl (methodPlan x.type)) (q := wanted ob path hs x)
          (url := text "https://" ++ ob.host ++ path) (ls := allLines hs) hlen (by
            rw [cfg_append, cfg_append, ← List.foldl_append, ← List.foldl_append, ← List.append_assoc]; exact hrd.1)
        step hwh into r4
        intro x' evs3 hTS
        step (H.slistFreeAll l (allLines hs))
        refine Triple.pure (entails_ex_r x' (entails_ex_r (accepted ob.curl (optionPlan ob path ++ methodPlan x.type) ++ evs3) (entails_pand_r ?_ (hE ?_))))
        · rw [accepted_append]
          simp only [List.append_assoc, hex_sep, sep_hex]
          refine entails_ex_r b1 ?_
          sep_cancel
        · rcases hTS.append (p1 := optionPlan ob path ++ methodPlan x.type) with ⟨h1, h2, h3⟩ | ⟨evs', h1, h2⟩
          · exact Or.inl ⟨l, h1, h2, by rw [if_pos ht, ← List.append_assoc]; exact h3⟩
          · exact Or.inr (Or.inr (Or.inr ⟨ht, l, evs', h1, h2⟩))
      · have hne : r3 ≠ .ok := by rcases hls with ⟨h, _⟩ | ⟨h, _⟩ <;> rw [h] <;> simp
        rw [if_neg hne]
        simp only [pure_bind]
        step (H.slistFreeAll l ls)
        refine Triple.pure (entails_ex_r x (entails_ex_r (accepted ob.curl (optionPlan ob path ++ methodPlan x.type)) (entails_pand_r ?_ (hE (Or.inr (Or.inr (Or.inl ⟨ht, rfl, rfl, hls⟩)))))))
        rw [accepted_append]
        simp only [List.append_assoc, hex_sep, sep_hex]
        refine entails_ex_r b1 ?_
        sep_cancel
    · rw [if_pos (by simp)]
      refine Triple.pure (entails_ex_r x (entails_ex_r (accepted ob.curl (optionPlan ob path) ++ evs2) (entails_pand_r ?_ (hE (Or.inl ⟨0, rfl, rfl, by rw [if_pos ht]; exact hR.left.right⟩)))))
      simp only [List.append_assoc, hex_sep, sep_hex]
      refine entails_ex_r b1 ?_
      sep_cancel
    · rw [if_pos (by simp)]
      refine Triple.pure (entails_ex_r x (entails_ex_r (accepted ob.curl (optionPlan ob path)) (entails_pand_r ?_ (hE (Or.inr (Or.inl ⟨ht, rfl, rfl, rfl⟩))))))
      simp only [List.append_nil, hex_sep, sep_hex]
      refine entails_ex_r b1 ?_
      sep_cancel
  · rw [if_pos (by simp)]
    refine Triple.pure (entails_ex_r x (entails_ex_r evs1 (entails_pand_r ?_ (hE (Or.inl ⟨0, rfl, rfl, hR.left⟩)))))
    simp only [hex_sep, sep_hex]
    refine entails_ex_r b1 ?_
    sep_cancel

/-- the arguments of a request: those that are only read, and those that receive the answer -/
def ArgsR (rp : CharPtr) (hd : Ptr) (p : CharPtr) (st rh rc : Ptr) (x : Args) : HProp :=
  Arg rp x.path ∗ OHdr hd x.hdrs ∗ ContentR p x.content ∗ OutX st rh rc x

omit H in
theorem ArgsR_eq {rp : CharPtr} {hd : Ptr} {p : CharPtr} {st rh rc : Ptr} {x : Args} :
  ArgsR rp hd p st rh rc x = (Arg rp x.path ∗ OHdr hd x.hdrs ∗ ContentR p x.content ∗ OutX st rh rc x) := rfl

omit H in
/-- only the answer changes -/
theorem ExecE.same {oom : Prop} {p : CharPtr} {rh rcb : Ptr} {a : Option Obj} {x x' : Args} {r : Res} {evs : List Ev}
    (h : ExecE oom p rh rcb a x r x' evs) : x'.path = x.path ∧ x'.hdrs = x.hdrs ∧ x'.content = x.content ∧ x'.type = x.type ∧ x'.len = x.len := by
  unfold ExecE at h
  have triv : x' = x → x'.path = x.path ∧ x'.hdrs = x.hdrs ∧ x'.content = x.content ∧ x'.type = x.type ∧ x'.len = x.len := by rintro rfl; simp
  split at h
  · split at h
    · exact triv h.2.1
    · rcases h with ⟨_, h, _⟩ | ⟨_, _, h, _⟩ | ⟨_, _, h, _⟩ | ⟨_, h, _⟩ | ⟨_, l, evs', _, ps, e, tail, rh', st', rc', _, _, _, h⟩
      · exact triv h
      · exact triv h
      · exact triv h
      · exact triv h
      · rw [h]; simp
  · exact triv h.2.1

/-- C66–C67: `HTTPAPI_ExecuteRequest` -/
theorem HTTPAPI_ExecuteRequest_spec {rcb handle hd st rh rc : Ptr} {rp p : CharPtr} {a : Option Obj} {x : Args} {tr : List Ev} {len : Nat}
    (hlen : len = match x.content with | some bs => bs.length | none => x.len) :
    Triple rel (Net tr ∗ OConn Easy handle a ∗ Cell3 rcb ∗ ArgsR rp hd p st rh rc x)
      (HTTPAPI_ExecuteRequest lib rcb handle x.type rp hd p len st rh rc)
      (fun r => ∃∃ (x' : Args) (evs : List Ev), (ExecE rel p rh rcb a x r x' evs) ⋏ Net (tr ++ evs) ∗ OConn Easy handle a ∗ Cell3 rcb ∗ ArgsR rp hd p st rh rc x') := by
  unfold HTTPAPI_ExecuteRequest
  rw [ArgsR_eq]
  refine Triple.know (know_OConn (p := handle) (a := a) (by pick)) fun k1 => ?_
  refine Triple.know (know_Arg (s := rp) (o := x.path) (by pick)) fun k2 => ?_
  refine Triple.know (know_OHdr (h := hd) (a := x.hdrs) (by pick)) fun k3 => ?_
  refine Triple.know (know_Content (p := p) (c := x.content) (by pick)) fun k4 => ?_
  have hcl : (p = .null ∧ len > 0) ↔ (x.content = none ∧ x.len > 0) := by
    rw [k4.1]
    constructor <;> rintro ⟨h1, h2⟩ <;> refine ⟨h1, ?_⟩ <;> rw [h1] at hlen <;> dsimp only at hlen <;> omega
  have bad : ∀ {r : Res} {evs : List Ev}, ExecE rel p rh rcb a x r x evs → Net (tr ++ evs) ∗ OConn Easy handle a ∗ Cell3 rcb ∗ Arg rp x.path ∗ OHdr hd x.hdrs ∗ ContentR p x.content ∗ OutX st rh rc x ⊢ₕ
      ∃∃ (x' : Args) (evs : List Ev), (ExecE rel p rh rcb a x r x' evs) ⋏ Net (tr ++ evs) ∗ OConn Easy handle a ∗ Cell3 rcb ∗ ArgsR rp hd p st rh rc x' :=
    fun h => entails_ex_r x (entails_ex_r _ (entails_pand_r (entails_refl _) h))
  refine Triple.ite (fun hb => ?_) (fun hb => ?_)
  · rw [k1, k2, k3, hcl] at hb
    have hE : ExecE rel p rh rcb a x .invalidArg x [] := by
      unfold ExecE
      split
      · rename_i h1 h2
        rw [if_pos (by simpa [h1, h2] using hb)]; exact ⟨rfl, rfl, rfl⟩
      · exact ⟨rfl, rfl, rfl⟩
    have := bad hE
    rw [List.append_nil] at this
    exact Triple.pure this
  · rw [k1, k2, k3, hcl] at hb
    simp only [not_or] at hb
    obtain ⟨h1, h2, h3, h4⟩ := hb
    obtain ⟨o, rfl⟩ := Option.ne_none_iff_exists'.1 h1
    obtain ⟨path, hpath⟩ := Option.ne_none_iff_exists'.1 h2
    obtain ⟨hs, hhd⟩ := Option.ne_none_iff_exists'.1 h3
    rw [hpath, hhd, Arg_some]
    have hcnt := HTTPHeaders_GetHeaderCount_spec (rel := rel) (h := hd) (a := some hs) (out := true)
    dsimp only at hcnt
    step hcnt
    dsimp only
    rw [OConn, ORep_some, ConnR_eq, OHdr, ORep_some]; hoist; intro u hc
    stepd (loadPtr_spec (p := handle) (q := u) ?_)
    refine Triple.know (know_heap0 (p := u) (t := text "https://" ++ o.host) (by pick)) fun hu => ?_
    refine Triple.know (know_CStr (s := .heap u 0) (t := text "https://" ++ o.host) (by pick)) fun hu2 => ?_
    refine Triple.know (know_CStr (s := rp) (t := path) (by pick)) fun hp2 => ?_
    have e0 : CharPtr.ofPtr u = .heap u 0 := by unfold CharPtr.ofPtr; rw [if_neg hu]
    rw [e0]
    step (strlen_spec (s := .heap u 0) (t := text "https://" ++ o.host))
    step (strlen_spec (s := rp) (t := path))
    have esz : ((text "https://" ++ o.host).length + path.length + 1) % szMod = (text "https://" ++ o.host).length + path.length + 1 :=
      Nat.mod_eq_of_lt (by have := hu2.2.2; have := hp2.2.2; simp only [maxObj, szMod] at *; omega)
    rw [esz]
    refine Triple.malloc (fun hrr => ?_) fun tmp htmp _ => ?_
    · rw [if_pos rfl]
      have hE : ExecE rel p rh rcb (some o) x .error x [] := by
        unfold ExecE
        rw [hpath, hhd]; dsimp only
        rw [if_neg h4]
        refine Or.inl ⟨rfl, rfl, rfl, hrr.imp_right fun h => ?_⟩
        have e8 : (text "https://" ++ o.host).length = 8 + o.host.length := by rw [List.length_append]; rfl
        omega
      have := bad hE
      rw [List.append_nil] at this
      refine Triple.pure (entails_trans ?_ this)
      rw [hpath, hhd, Arg_some, OConn, ORep_some, OHdr, ORep_some]
      refine entails_trans (entails_trans ?_ (sep_mono (ConnR_intro (u := u) (o := o) (Easy := Easy) (p := handle) hc) (entails_refl (Net tr ∗ Cell3 rcb ∗ CStr rp path ∗ HdrR hd hs ∗ ContentR p x.content ∗ OutX st rh rc x))))
        (by sep_cancel)
      simp only [sep_assoc]; sep_cancel
    · rw [if_neg htmp]
      have hlen' : p ≠ .null → len = x.body.length := by
        intro hp
        have : x.content ≠ none := fun h => hp (k4.1.2 h)
        obtain ⟨bs, hbs⟩ := Option.ne_none_iff_exists'.1 this
        rw [hbs] at hlen
        rw [hlen]; unfold Args.body; rw [hbs]; rfl
      step (withURL_spec H (h := handle) (ob := o) (u := u) (rcb := rcb) (st := st) (rh := rh) (rc := rc) (tmp := tmp) (hd := hd) (tr := tr) (path := path) (rp := rp) (hs := hs)
        (len := len) (size := (text "https://" ++ o.host).length + path.length + 1) (p := p) (x := x) (b := List.replicate ((text "https://" ++ o.host).length + path.length + 1) .undef)
        hpath hhd h4 hlen' (by simp) rfl) into r
      intro x' evs hE b'
      step (free_spec (p := tmp))
      refine Triple.pure (entails_ex_r x' (entails_ex_r evs (entails_pand_r ?_ hE)))
      obtain ⟨e1, e2, e3, _⟩ := hE.same
      rw [ArgsR_eq, e1, e2, e3, hpath, hhd, Arg_some]
      simp only [ORep_some]
      refine entails_trans (entails_trans ?_ (sep_mono (ConnR_intro (u := u) (o := o) (Easy := Easy) (p := handle) hc) (entails_refl (Net (tr ++ evs) ∗ Cell3 rcb ∗ CStr rp path ∗ HdrR hd hs ∗ ContentR p x.content ∗ OutX st rh rc x'))))
        (by sep_cancel)
      simp only [sep_assoc]; sep_cancel
end

end Verif.Curl
