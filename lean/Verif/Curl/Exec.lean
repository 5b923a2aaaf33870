import Verif.Curl.Callback
/-! # Performing a request -/
set_option linter.unusedSimpArgs false
set_option linter.unusedVariables false
namespace Verif.Curl
open Verif.Headers Verif.Buffer Verif.Crt
open Verif.Sas (text)
open Verif.Sock (intV)
open Verif.Map (CS free_CS know_Arg)
variable {rel : Prop} {lib : Lib} {Net : List Ev → HProp} {Global : HProp} {Easy : Nat → HProp} {Slist : Nat → List Text → HProp}
  {Busy : Nat → Transfer → Nat → HProp}

/-! ## the callbacks of a transfer -/

/-- the response headers after the pieces `ps` -/
def HdrAfter (rel : Prop) (ps : List Piece) (a a' : Option Hdrs) : Prop :=
  match a with
  | some h => ∃ h', a' = some h' ∧ Absorbs rel (allHeaders ps) h h'
  | none => a' = none ∧ ∀ bs, Piece.header bs ∉ ps

theorem HdrAfter.nil {a : Option Hdrs} : HdrAfter rel [] a a := by
  cases a with
  | none => exact ⟨rfl, by simp⟩
  | some h => exact ⟨h, rfl, .nil⟩

theorem HdrAfter.header {bs : Text} {ps : List Piece} {h h1 : Hdrs} {a' : Option Hdrs} (h2 : Absorbs rel (headersOf bs) h h1)
    (h3 : HdrAfter rel ps (some h1) a') : HdrAfter rel (.header bs :: ps) (some h) a' := by
  obtain ⟨h', e, h4⟩ := h3
  exact ⟨h', e, h2.append h4⟩

theorem HdrAfter.body {bs : Text} {ps : List Piece} {a a' : Option Hdrs} (h : HdrAfter rel ps a a') : HdrAfter rel (.body bs :: ps) a a' := by
  cases a with
  | none => exact ⟨h.1, fun x hx => by simpa using h.2 x (by simpa using hx)⟩
  | some a => exact h

/-- the transfer with what has arrived -/
theorem callbacks_spec (H : Honours rel lib Net Global Easy Slist Busy) {c : Nat} {rh rcb : Ptr} : ∀ (n : Nat) (t : Transfer) (tr : List Ev)
    (a : Option Hdrs) (e : Bool), t.cfg.writeHeader = rh → t.cfg.writeData = rcb → (a = none → t.cfg.headerFn = .null) →
    Triple rel (Net tr ∗ Busy c t n ∗ OHdr rh a ∗ CollR rel rcb t.got e) (callbacks lib c n)
      (fun _ => ∃∃ (ps : List Piece) (a' : Option Hdrs) (e' : Bool), (HdrAfter rel ps a a') ⋏
        Net (tr ++ ps.map (Piece.ev c)) ∗ Busy c { t with got := t.got ++ bodyOf ps } 0 ∗ OHdr rh a' ∗ CollR rel rcb (t.got ++ bodyOf ps) e') := by
  intro n
  induction n with
  | zero =>
    intro t tr a e h1 h2 h3
    unfold callbacks
    refine Triple.pure (entails_ex_r [] (entails_ex_r a (entails_ex_r e (entails_pand_r ?_ .nil))))
    simp only [List.map_nil, List.append_nil, bodyOf]
    exact entails_refl _
  | succ n ih =>
    intro t tr a e h1 h2 h3
    unfold callbacks
    step (H.performNext c t n tr) into k
    unfold Given
    obtain ⟨fn, p, size, nmemb, ud⟩ := k
    cases fn with
    | null => dsimp only; hoist; intro h; exact h.elim
    | headers =>
      dsimp only
      hoist; intro bs tail hn hf hu
      cases a with
      | none => rw [h3 rfl] at hf; cases hf
      | some h =>
        subst h1 hu
        rw [OHdr, ORep_some]
        unfold deliver
        step (HeadersWriteFunction_spec (h := t.cfg.writeHeader) (p := p) (hs := h) hn) into r
        intro hs' b' hr ha
        subst hr
        step (H.performBack c t n (tr ++ [.header c bs]) ⟨.headers, p, size, nmemb, t.cfg.writeHeader⟩ b')
        rw [← show OHdr t.cfg.writeHeader (some hs') = HdrR t.cfg.writeHeader hs' from rfl]
        refine (ih t (tr ++ [.header c bs]) (some hs') e rfl h2 (by simp)).conseq (by sep_cancel) fun _ => ?_
        refine entails_ex_l fun ps => entails_ex_l fun a' => entails_ex_l fun e' => entails_pand_l fun hd => ?_
        refine entails_ex_r (.header bs :: ps) (entails_ex_r a' (entails_ex_r e' (entails_pand_r ?_ (.header ha hd))))
        simp only [List.map_cons, List.append_assoc, List.singleton_append, bodyOf, Piece.ev]
        exact entails_refl _
    | content =>
      dsimp only
      hoist; intro bs tail hn hu hroom
      subst h2 hu
      unfold deliver
      step (ContentWriteFunction_spec (rel := rel) (p := p) (rcb := t.cfg.writeData) (got := t.got) (e := e) (tail := tail) hn hroom) into r
      intro e1 hr
      subst hr
      step (H.performBack c { t with got := t.got ++ bs } n (tr ++ [.body c bs]) ⟨.content, p, size, nmemb, t.cfg.writeData⟩ (bytesV bs ++ tail))
      refine (ih { t with got := t.got ++ bs } (tr ++ [.body c bs]) a e1 h1 rfl h3).conseq (by sep_cancel) fun _ => ?_
      refine entails_ex_l fun ps => entails_ex_l fun a' => entails_ex_l fun e' => entails_pand_l fun hd => ?_
      refine entails_ex_r (.body bs :: ps) (entails_ex_r a' (entails_ex_r e' (entails_pand_r ?_ (.body hd))))
      simp only [List.map_cons, List.append_assoc, List.singleton_append, bodyOf, Piece.ev]
      exact entails_refl _

/-- `curl_easy_perform` -/
theorem perform_spec (H : Honours rel lib Net Global Easy Slist Busy) {c : Nat} {rh rcb : Ptr} {tr : List Ev} {k : Cfg} {url : Text} {ls : List Text}
    {bs : Text} {a : Option Hdrs} (hk : cfg c tr = k) (hu : k.url = some url) (hw : k.writeFn = .content) (h1 : k.writeHeader = rh) (h2 : k.writeData = rcb)
    (h3 : a = none → k.headerFn = .null) :
    Triple rel (Net tr ∗ Easy c ∗ Lines Slist k.headers ls ∗ BodyR k bs ∗ OHdr rh a ∗ CollR rel rcb [] false) (perform lib c)
      (fun r => ∃∃ (ps : List Piece) (a' : Option Hdrs) (e' : Bool), (HdrAfter rel ps a a') ⋏
        Net (tr ++ ([.perform c (k.request url ls bs)] ++ ps.map (Piece.ev c) ++ [.done c r])) ∗ Easy c ∗ Lines Slist k.headers ls ∗ BodyR k bs ∗ OHdr rh a' ∗
        CollR rel rcb (bodyOf ps) e') := by
  unfold perform
  step (H.performBegin c tr k url ls bs hk hu hw) into n
  step (callbacks_spec H (c := c) (rh := rh) (rcb := rcb) n ⟨k, ls, bs, []⟩ (tr ++ [.perform c (k.request url ls bs)]) a false h1 h2 h3)
  intro ps a' e' hd
  last (H.performEnd c ⟨k, ls, bs, [] ++ bodyOf ps⟩ (tr ++ [.perform c (k.request url ls bs)] ++ ps.map (Piece.ev c)))
  rename_i r
  refine entails_ex_r ps (entails_ex_r a' (entails_ex_r e' (entails_pand_r ?_ hd)))
  simp only [List.append_assoc, List.nil_append, sep_assoc]
  sep_cancel

/-! ## filling in the result -/

def StatR (p : Ptr) : Option Val → HProp
  | none => (p = 0) ⋏ emp
  | some v => p ↦ [v]

theorem fillStatus_spec {p : Ptr} {s : Option Val} {v : Int} :
    Triple rel (StatR p s) (fillStatus p v) (fun _ => StatR p (s.map fun _ => intV v)) := by
  unfold fillStatus
  cases s with
  | none =>
    unfold StatR; hoist; rintro rfl
    rw [if_neg (by simp)]
    exact Triple.pure (entails_pand_r (entails_refl _) rfl)
  | some w =>
    rw [show StatR p (some w) = (p ↦ [w]) from rfl]
    refine Triple.know (know_pts (p := p) (φ := p ≠ 0) (R := emp) (by unfold Pick; rw [sep_emp]) fun h1 _ => h1) fun hp => ?_
    rw [if_pos hp]
    last (store_spec (p := p) ?_)
    rw [sep_emp]
    exact entails_refl _

/-- what is left in `responseContentBuffer` -/
def Spent (rcb : Ptr) : HProp := ∃∃ (b n e : Nat), rcb ↦ [.ptr b, .int n, .int e] ∗ (if b = 0 then emp else ∃∃ vs : Block, b ↦ vs)

theorem Spent_of {rcb : Ptr} {got : Text} {e : Bool} : CollR rel rcb got e ⊢ₕ Spent rcb := by
  cases e with
  | false =>
    rw [CollR_false]
    refine entails_ex_l fun b => entails_ex_r b (entails_ex_r _ (entails_ex_r _ (sep_mono (entails_refl _) ?_)))
    by_cases hg : got = []
    · rw [if_pos hg]
      refine entails_pand_l fun hb => ?_
      rw [if_pos hb]; exact entails_refl _
    · rw [if_neg hg]
      by_cases hb : b = 0
      · intro h hp
        exact absurd hb hp.1
      · rw [if_neg hb]
        exact entails_ex_r _ (entails_refl _)
  | true =>
    rw [CollR_true]
    refine entails_pand_l fun _ => entails_ex_r 0 (entails_ex_r 0 (entails_ex_r 1 ?_))
    rw [if_pos rfl, sep_emp]; exact entails_refl _

theorem fillContent_spec {rcb rc : Ptr} {a : Option Content} {got : Text} :
    Triple rel (CollR rel rcb got false ∗ OBuf rc a) (fillContent rcb rc)
      (fun r => ∃∃ a' : Option Content, ((r = .ok ∧ a' = a.map fun c => if got = [] then c else some (bytesV got)) ∨
        (got ≠ [] ∧ a ≠ none ∧ ¬ rel ∧ a' = a ∧ r = .insufficientResponseBuffer)) ⋏ Spent rcb ∗ OBuf rc a') := by
  unfold fillContent
  cases a with
  | none =>
    rw [OBuf_none]; hoist; rintro rfl
    rw [if_neg (by simp)]
    refine Triple.pure (entails_ex_r none (entails_pand_r ?_ (Or.inl ⟨rfl, rfl⟩)))
    rw [OBuf_null]
    simp only [sep_emp, emp_sep]
    exact Spent_of
  | some ct =>
    refine Triple.know (OBuf_some_ne (h := rc) (c := ct) (by pick)) fun hc => ?_
    rw [if_pos hc]
    rw [CollR_false]; hoist; intro b
    stepd (loadInt_spec (p := rcb) (n := got.length) ?_)
    by_cases hg : got = []
    · subst hg
      rw [if_neg (c := List.length [] > 0) (by simp)]
      refine Triple.pure (entails_ex_r (some ct) (entails_pand_r ?_ (Or.inl ⟨rfl, by simp⟩)))
      refine entails_trans ?_ (sep_mono (Spent_of (rel := rel) (got := []) (e := false)) (entails_refl _))
      rw [CollR_false, hex_sep]
      refine entails_ex_r b ?_
      simp only [sep_assoc]
      sep_cancel
    · have hl : got.length > 0 := List.length_pos_iff.2 hg
      rw [if_neg hg, if_pos hl]
      stepd (loadPtr_spec (p := rcb) (q := b) ?_)
      stepd (loadInt_spec (p := rcb) (n := got.length) ?_)
      refine Triple.know (know_pts (p := b) (φ := b ≠ 0) (by pick) fun h1 _ => h1) fun hb => ?_
      have e0 : CharPtr.ofPtr b = .heap b 0 := by unfold CharPtr.ofPtr; rw [if_neg hb]
      rw [e0]
      have hd : b ↦ bytesV got ⊢ₕ Data (.heap b 0) got := entails_ex_r (bytesV got) (entails_pand_r (entails_refl _) ⟨by simp, by simp⟩)
      have hd2 : Data (.heap b 0) got ⊢ₕ ∃∃ vs : Block, b ↦ vs := by
        unfold Data
        exact entails_ex_l fun vs => entails_pand_l fun _ => entails_ex_r vs (entails_refl _)
      refine Triple.pre (?_ : Triple rel (rcb ↦ [.ptr b, .int got.length, .int 0] ∗ Data (.heap b 0) got ∗ OBuf rc (some ct)) _ _)
        (entails_trans (Q := (b ↦ bytesV got) ∗ rcb ↦ [.ptr b, .int got.length, .int 0] ∗ OBuf rc (some ct)) (by sep_cancel)
          (entails_trans (sep_mono hd (entails_refl _)) (by sep_cancel)))
      step (BUFFER_build_spec (h := rc) (a := some ct) (source := .heap b 0) (bs := got) (size := got.length) (Or.inl rfl)) into r
      intro a' he
      have fin : Data (.heap b 0) got ∗ rcb ↦ [.ptr b, .int got.length, .int 0] ∗ OBuf rc a' ⊢ₕ Spent rcb ∗ OBuf rc a' := by
        rw [← sep_assoc]
        refine sep_mono ?_ (entails_refl _)
        refine entails_trans (sep_mono hd2 (entails_refl _)) ?_
        refine entails_ex_r b (entails_ex_r got.length (entails_ex_r 0 ?_))
        rw [if_neg hb, sep_comm]
        exact entails_refl _
      rcases he with ⟨hr, hb2, c, c', h3, h4, h5⟩ | ⟨hr, h3, h4⟩
      · rw [if_neg (by simp [hr])]
        refine Triple.pure (entails_ex_r a' (entails_pand_r (entails_trans (by sep_cancel) fin) (Or.inl ⟨rfl, ?_⟩)))
        rw [h4, h5, if_neg (by omega)]
        simp [hg]
      · rw [if_pos hr]
        refine Triple.pure (entails_ex_r a' (entails_pand_r (entails_trans (by sep_cancel) fin) (Or.inr ⟨hg, by simp, ?_, h3, rfl⟩)))
        rcases h4 with (h4 | h4) | h4 | h4
        · cases h4
        · simp at h4
        · exact h4
        · exact h4.elim

/-! ## the options -/

/-- what setting the options of a plan gives -/
def Tried (c : Nat) (plan : List Setting) (r : Res) (evs : List Ev) : Prop :=
  (r = .ok ∧ evs = accepted c plan) ∨ (r = .setOptionFailed ∧ Refused c plan evs)

theorem Tried.nil {c : Nat} : Tried c [] .ok [] := Or.inl ⟨rfl, rfl⟩
theorem Tried.first {c : Nat} {s : Setting} {plan : List Setting} {e : Int} (h : e ≠ 0) : Tried c (s :: plan) .setOptionFailed [.set c s e] :=
  Or.inr ⟨rfl, [], s, plan, e, rfl, h, rfl⟩
theorem Tried.cons {c : Nat} {s : Setting} {plan : List Setting} {r : Res} {evs : List Ev} (h : Tried c plan r evs) :
    Tried c (s :: plan) r (.set c s 0 :: evs) := by
  rcases h with ⟨h1, h2⟩ | ⟨h1, l1, s', l2, e, h2, h3, h4⟩
  · exact Or.inl ⟨h1, by rw [h2]; rfl⟩
  · exact Or.inr ⟨h1, s :: l1, s', l2, e, by rw [h2]; rfl, h3, by rw [h4]; rfl⟩

theorem Refused.left {c : Nat} {p1 p2 : List Setting} {evs : List Ev} (h : Refused c p1 evs) : Refused c (p1 ++ p2) evs := by
  obtain ⟨l1, s, l2, e, h1, h2, h3⟩ := h
  exact ⟨l1, s, l2 ++ p2, e, by rw [h1]; simp, h2, h3⟩
theorem Refused.right {c : Nat} {p1 p2 : List Setting} {evs : List Ev} (h : Refused c p2 evs) : Refused c (p1 ++ p2) (accepted c p1 ++ evs) := by
  obtain ⟨l1, s, l2, e, h1, h2, h3⟩ := h
  exact ⟨p1 ++ l1, s, l2, e, by rw [h1]; simp, h2, by rw [h3]; simp [accepted]⟩
theorem accepted_append {c : Nat} {p1 p2 : List Setting} : accepted c (p1 ++ p2) = accepted c p1 ++ accepted c p2 := by simp [accepted]

/-- set an option, go on if it is accepted -/
theorem set_then {c : Nat} {s : Setting} {plan : List Setting} {P Q : HProp} {act : M Int} {k : M Res} {tr : List Ev} (hPQ : P ⊢ₕ Q)
    (hact : ∀ tr, Triple rel (Net tr ∗ P) act (fun r => Net (tr ++ [.set c s r]) ∗ P))
    (hk : ∀ tr, Triple rel (Net tr ∗ P) k (fun r => ∃∃ evs : List Ev, (Tried c plan r evs) ⋏ Net (tr ++ evs) ∗ Q)) :
    Triple rel (Net tr ∗ P) (do let r ← act; if r ≠ 0 then pure .setOptionFailed else k)
      (fun r => ∃∃ evs : List Ev, (Tried c (s :: plan) r evs) ⋏ Net (tr ++ evs) ∗ Q) := by
  refine Triple.bind' (hact tr) fun r => ?_
  refine Triple.ite (fun h => ?_) (fun h => ?_)
  · exact Triple.pure (entails_ex_r [.set c s r] (entails_pand_r (sep_mono (entails_refl _) hPQ) (Tried.first h)))
  · have : r = 0 := by simpa using h
    subst this
    refine (hk (tr ++ [.set c s 0])).conseq (entails_refl _) fun r => ?_
    refine entails_ex_l fun evs => entails_pand_l fun ht => entails_ex_r (.set c s 0 :: evs) (entails_pand_r ?_ ht.cons)
    simp only [List.append_assoc, List.singleton_append]
    exact entails_refl _

theorem null_arg : OptArg (.customRequest .null) (.customRequest none) = emp := by
  show Arg .null none = emp
  rw [Arg_none, eq_self, true_pand]
theorem lit_arg {t : Text} (h : NoNul t) (hl : t.length < maxObj) : OptArg (.customRequest (.str t)) (.customRequest (some t)) = emp := CStr_lit h hl
theorem triv_arg {p : Prop} (h : p) : (p ⋏ emp) = emp := by rw [eq_true h, true_pand]

section
variable (H : Honours rel lib Net Global Easy Slist Busy) {h : Ptr} {ob : Obj} {u : Nat}
include H

theorem setO_spec {o : Opt} {s : Setting} {tr : List Ev} :
    Triple rel (Net tr ∗ h ↦ fields ob u ∗ Easy ob.curl ∗ OptArg o s) (setO lib h o)
      (fun r => Net (tr ++ [.set ob.curl s r]) ∗ h ↦ fields ob u ∗ Easy ob.curl ∗ OptArg o s) := by
  unfold setO
  stepd (loadPtr_spec (p := h) (q := ob.curl) ?_)
  last (H.setopt ob.curl o s tr)
  simp only [sep_assoc]; sep_cancel

/-- the same with more memory around -/
theorem setO_frame {o : Opt} {s : Setting} {tr : List Ev} {F : HProp} (pk : OptArg o s = emp) :
    Triple rel (Net tr ∗ h ↦ fields ob u ∗ Easy ob.curl ∗ F) (setO lib h o)
      (fun r => Net (tr ++ [.set ob.curl s r]) ∗ h ↦ fields ob u ∗ Easy ob.curl ∗ F) := by
  have := setO_spec H (h := h) (ob := ob) (u := u) (o := o) (s := s) (tr := tr)
  simp only [pk, sep_emp] at this
  refine (this.frame F).conseq (by simp only [sep_assoc]; exact entails_refl _) fun r => by simp only [sep_assoc]; exact entails_refl _

theorem setF_frame {o : Long} {f v : Nat} {tr : List Ev} {F : HProp} (hf : (fields ob u)[f]? = some (.int v)) :
    Triple rel (Net tr ∗ h ↦ fields ob u ∗ Easy ob.curl ∗ F) (setF lib h o f)
      (fun r => Net (tr ++ [.set ob.curl (.long o (toLong v)) r]) ∗ h ↦ fields ob u ∗ Easy ob.curl ∗ F) := by
  unfold setF loadLong
  stepd (loadPtr_spec (p := h) (q := ob.curl) ?_)
  simp only [bind_assoc, pure_bind]
  step (loadInt_spec (p := h) (n := v) hf)
  have := H.setopt ob.curl (.long o (toLong v)) (.long o (toLong v)) tr
  have e : OptArg (.long o (toLong v)) (.long o (toLong v)) = emp := by show ((_ : Prop) ⋏ emp) = emp; rw [eq_self, true_pand]
  simp only [e, sep_emp] at this
  last this
  simp only [sep_assoc]; sep_cancel

theorem setBoth_spec {o1 o2 : Opt} {s1 s2 : Setting} {tr : List Ev} {F : HProp} (h1 : OptArg o1 s1 = emp) (h2 : OptArg o2 s2 = emp) :
    Triple rel (Net tr ∗ h ↦ fields ob u ∗ Easy ob.curl ∗ F) (setBoth lib h o1 o2)
      (fun r => ∃∃ evs : List Ev, (Tried ob.curl [s1, s2] r evs) ⋏ Net (tr ++ evs) ∗ h ↦ fields ob u ∗ Easy ob.curl ∗ F) := by
  unfold setBoth
  refine set_then (entails_refl _) (fun tr => setO_frame H h1) fun tr => ?_
  refine set_then (entails_refl _) (fun tr => setO_frame H h2) fun tr => ?_
  exact Triple.pure (entails_ex_r [] (entails_pand_r (by rw [List.append_nil]; exact entails_refl _) Tried.nil))

theorem applyMethod_spec {type : Nat} {tr : List Ev} {F : HProp} :
    Triple rel (Net tr ∗ h ↦ fields ob u ∗ Easy ob.curl ∗ F) (applyMethod lib h type)
      (fun r => ∃∃ evs : List Ev, ((type < 5 ∧ Tried ob.curl (methodPlan type) r evs) ∨ (5 ≤ type ∧ r = .invalidArg ∧ evs = [])) ⋏
        Net (tr ++ evs) ∗ h ↦ fields ob u ∗ Easy ob.curl ∗ F) := by
  have lift : ∀ {o1 o2 : Opt} {s1 s2 : Setting}, type < 5 → methodPlan type = [s1, s2] → OptArg o1 s1 = emp → OptArg o2 s2 = emp →
      Triple rel (Net tr ∗ h ↦ fields ob u ∗ Easy ob.curl ∗ F) (setBoth lib h o1 o2)
      (fun r => ∃∃ evs : List Ev, ((type < 5 ∧ Tried ob.curl (methodPlan type) r evs) ∨ (5 ≤ type ∧ r = .invalidArg ∧ evs = [])) ⋏
        Net (tr ++ evs) ∗ h ↦ fields ob u ∗ Easy ob.curl ∗ F) := by
    intro o1 o2 s1 s2 ht hp h1 h2
    refine (setBoth_spec H h1 h2).conseq (entails_refl _) fun r => ?_
    refine entails_ex_l fun evs => entails_pand_l fun hT => entails_ex_r evs (entails_pand_r (entails_refl _) (Or.inl ⟨ht, by rw [hp]; exact hT⟩))
  unfold applyMethod
  by_cases h0 : type = 0
  · subst h0; exact lift (by decide) rfl (triv_arg rfl) null_arg
  by_cases h0 : type = 1
  · subst h0; exact lift (by decide) rfl (triv_arg rfl) null_arg
  by_cases h0 : type = 2
  · subst h0; exact lift (by decide) rfl (triv_arg rfl) (lit_arg (by decide) (by decide))
  by_cases h0 : type = 3
  · subst h0; exact lift (by decide) rfl (triv_arg rfl) (lit_arg (by decide) (by decide))
  by_cases h0 : type = 4
  · subst h0; exact lift (by decide) rfl (triv_arg rfl) (lit_arg (by decide) (by decide))
  obtain ⟨n, rfl⟩ : ∃ n, type = n + 5 := ⟨type - 5, by omega⟩
  exact Triple.pure (entails_ex_r [] (entails_pand_r (by rw [List.append_nil]; exact entails_refl _) (Or.inr ⟨by omega, rfl, rfl⟩)))

theorem applyContent_spec {type len : Nat} {p : CharPtr} {body : Text} {tr : List Ev} {F : HProp} (hp : body ≠ [] → p ≠ .null)
    (hl : p ≠ .null → len = body.length) (hm : body.length ≤ maxObj) :
    Triple rel (Net tr ∗ h ↦ fields ob u ∗ Easy ob.curl ∗ F) (applyContent lib h type p len)
      (fun r => ∃∃ evs : List Ev, (Tried ob.curl (contentPlan type p body) r evs) ⋏ Net (tr ++ evs) ∗ h ↦ fields ob u ∗ Easy ob.curl ∗ F) := by
  unfold applyContent contentPlan
  by_cases hb : body = []
  · rw [if_neg (by rintro ⟨h1, h2⟩; rw [hl h1, hb] at h2; simp at h2), if_neg (c := body ≠ []) (by simp [hb])]
    refine Triple.ite (fun ht => ?_) (fun ht => ?_)
    · rw [if_pos ht]
      exact setBoth_spec H (triv_arg rfl) (triv_arg rfl)
    · rw [if_neg ht]
      exact Triple.pure (entails_ex_r [] (entails_pand_r (by rw [List.append_nil]; exact entails_refl _) Tried.nil))
  · have := hl (hp hb)
    rw [if_pos ⟨hp hb, by rw [this]; exact List.length_pos_iff.2 hb⟩, if_pos (by simp [hb])]
    have e : toLong len = (body.length : Int) := by
      subst this
      unfold toLong
      have h1 : body.length % 2 ^ 64 = body.length := Nat.mod_eq_of_lt (by simp only [maxObj] at hm; omega)
      rw [h1, if_pos (by simp only [maxObj] at hm; omega)]
    rw [e]
    exact setBoth_spec H (triv_arg rfl) (triv_arg rfl)

theorem applyCallbacks_spec {rh : Ptr} {tr : List Ev} {F : HProp} :
    Triple rel (Net tr ∗ h ↦ fields ob u ∗ Easy ob.curl ∗ F) (applyCallbacks lib h rh)
      (fun r => ∃∃ evs : List Ev, (Tried ob.curl (callbackPlan rh) r evs) ⋏ Net (tr ++ evs) ∗ h ↦ fields ob u ∗ Easy ob.curl ∗ F) := by
  unfold applyCallbacks callbackPlan
  simp only [List.cons_append, List.nil_append]
  refine set_then (entails_refl _) (fun tr => setO_frame H (triv_arg rfl)) fun tr => ?_
  refine set_then (entails_refl _) (fun tr => setO_frame H (triv_arg rfl)) fun tr => ?_
  refine set_then (entails_refl _) (fun tr => setO_frame H (triv_arg rfl)) fun tr => ?_
  refine Triple.ite (fun hr => ?_) (fun hr => ?_)
  · rw [if_pos hr]
    exact setBoth_spec H (triv_arg rfl) (triv_arg rfl)
  · rw [if_neg hr]
    exact Triple.pure (entails_ex_r [] (entails_pand_r (by rw [List.append_nil]; exact entails_refl _) Tried.nil))

theorem url_tail {tmp : Ptr} {path : Text} {tr : List Ev} {F : HProp} :
    Triple rel (Net tr ∗ h ↦ fields ob u ∗ Easy ob.curl ∗ CS tmp (text "https://" ++ ob.host ++ path) ∗ F) (do
      let r ← setO lib h (.url (.heap tmp 0))
      if r ≠ 0 then pure .setOptionFailed else do
      let r ← setF lib h .timeoutMs fTimeout
      if r ≠ 0 then pure .setOptionFailed else do
      let r ← setF lib h .lowSpeedLimit fLimit
      if r ≠ 0 then pure .setOptionFailed else do
      let r ← setF lib h .lowSpeedTime fTime
      if r ≠ 0 then pure .setOptionFailed else do
      let r ← setF lib h .freshConnect fFresh
      if r ≠ 0 then pure .setOptionFailed else do
      let r ← setF lib h .forbidReuse fForbid
      if r ≠ 0 then pure .setOptionFailed else do
      let r ← setO lib h (.long .httpVersion HTTP_1_1)
      if r ≠ 0 then pure .setOptionFailed else pure .ok)
      (fun r => ∃∃ evs : List Ev, (Tried ob.curl ((optionPlan ob path).drop 1) r evs) ⋏ Net (tr ++ evs) ∗ h ↦ fields ob u ∗ Easy ob.curl ∗
        CS tmp (text "https://" ++ ob.host ++ path) ∗ F) := by
  unfold optionPlan
  simp only [List.drop_succ_cons, List.drop_zero]
  refine set_then (entails_refl _) (fun tr => ?_) fun tr => ?_
  · have := (setO_spec H (h := h) (ob := ob) (u := u) (o := .url (.heap tmp 0)) (s := .url (text "https://" ++ ob.host ++ path)) (tr := tr)).frame F
    exact this.conseq (by simp only [sep_assoc]; exact entails_refl _) fun r => by simp only [sep_assoc]; exact entails_refl _
  refine set_then (entails_refl _) (fun tr => setF_frame H rfl) fun tr => ?_
  refine set_then (entails_refl _) (fun tr => setF_frame H rfl) fun tr => ?_
  refine set_then (entails_refl _) (fun tr => setF_frame H rfl) fun tr => ?_
  refine set_then (entails_refl _) (fun tr => setF_frame H rfl) fun tr => ?_
  refine set_then (entails_refl _) (fun tr => setF_frame H rfl) fun tr => ?_
  refine set_then (entails_refl _) (fun tr => setO_frame H (triv_arg rfl)) fun tr => ?_
  exact Triple.pure (entails_ex_r [] (entails_pand_r (by rw [List.append_nil]; exact entails_refl _) Tried.nil))

theorem applyOptions_spec {tmp : Ptr} {size : Nat} {rp : CharPtr} {path : Text} {b : Block} {tr : List Ev} (hb : b.length = size)
    (hs : size = (text "https://" ++ ob.host).length + path.length + 1) :
    Triple rel (Net tr ∗ h ↦ fields ob u ∗ Easy ob.curl ∗ CS u (text "https://" ++ ob.host) ∗ CStr rp path ∗ tmp ↦ b) (applyOptions lib h tmp size rp)
      (fun r => ∃∃ evs : List Ev, (Tried ob.curl (optionPlan ob path) r evs) ⋏ Net (tr ++ evs) ∗ h ↦ fields ob u ∗ Easy ob.curl ∗
        CS u (text "https://" ++ ob.host) ∗ CStr rp path ∗ ∃∃ b : Block, tmp ↦ b) := by
  unfold applyOptions
  have e : optionPlan ob path = .long .verbose (toLong ob.verbose) :: (optionPlan ob path).drop 1 := rfl
  rw [e]
  refine set_then ?_ (fun tr => setF_frame H rfl) fun tr => ?_
  · exact sep_mono (entails_refl _) (sep_mono (entails_refl _) (sep_mono (entails_refl _) (sep_mono (entails_refl _) (entails_ex_r b (entails_refl _)))))
  stepd (loadPtr_spec (p := h) (q := u) ?_)
  refine Triple.know (know_heap0 (p := u) (t := text "https://" ++ ob.host) (by pick)) fun hu => ?_
  have e0 : CharPtr.ofPtr u = .heap u 0 := by unfold CharPtr.ofPtr; rw [if_neg hu]
  rw [e0]
  step (strcpy_s_fits (dst := tmp) (size := size) (src := .heap u 0) (b := b) (t := text "https://" ++ ob.host) (by omega) hb (by omega)) into r
  intro b1 hb1 hr hc1
  rw [if_neg (by simp [hr])]
  step (strcat_s_fits (dst := tmp) (size := size) (src := rp) (b := b1) (t := path) (u := text "https://" ++ ob.host) (by omega) hb1 hc1 (by omega)) into r
  intro b2 hb2 hr2 hc2
  rw [if_neg (by simp [hr2])]
  refine (url_tail H (h := h) (ob := ob) (u := u) (tmp := tmp) (path := path) (tr := tr) (F := CS u (text "https://" ++ ob.host) ∗ CStr rp path)).conseq ?_ fun r => ?_
  · refine entails_trans (Q := tmp ↦ b2 ∗ (Net tr ∗ h ↦ fields ob u ∗ Easy ob.curl ∗ CS u (text "https://" ++ ob.host) ∗ CStr rp path)) (by sep_cancel) ?_
    refine entails_trans (sep_mono (CS_of hc2) (entails_refl _)) (by sep_cancel)
  · refine entails_ex_l fun evs => entails_pand_l fun hT => entails_ex_r evs (entails_pand_r ?_ hT)
    refine sep_mono (entails_refl _) (sep_mono (entails_refl _) (sep_mono (entails_refl _) ?_))
    have hx : ∀ {t : Text}, CS tmp t ⊢ₕ ∃∃ b : Block, tmp ↦ b := by
      intro t
      simp only [CS, CStr_heap0]
      exact entails_ex_l fun vs => entails_pand_l fun _ => entails_ex_r vs (entails_refl _)
    refine entails_trans (sep_mono hx (entails_refl _)) ?_
    sep_cancel
end

end Verif.Curl
