import Verif.Wh.Receive
/-! # `HTTPAPI_ExecuteRequest` of `httpapi_winhttp.c` -/
set_option linter.unusedSimpArgs false
set_option linter.unusedVariables false
namespace Verif.Wh
open Verif.Headers (Hdrs HdrR OHdr know_OHdr)
open Verif.Buffer (Content OBuf)
open Verif.Curl (Args ArgsR ArgsR_eq OutX OutX_eq ContentR know_Content)
open Verif.Map (CS free_CS know_Arg)
open Verif.Ti (Lost Lost_zero)
variable {rel : Prop} {lib : Lib} {W : Codec} {Net : List Ev → HProp} {Sess Con : Nat → HProp} {Req : Nat → Nat → HProp}

/-- a block with any content -/
def Any (p : Ptr) : HProp := ∃∃ b : Block, p ↦ b
theorem Any_intro {p : Ptr} {b : Block} : p ↦ b ⊢ₕ Any p := entails_ex_r b (entails_refl _)
theorem Any_WStr {p : Ptr} {w : Wide} : WStr p w ⊢ₕ Any p := by
  rw [WStr_eq]; exact entails_ex_l fun rest => entails_pand_l fun _ => Any_intro
theorem free_Any {p : Ptr} : Triple rel (Any p) (free p) (fun _ => emp) := by
  unfold Any; hoist; intro b; exact free_spec (p := p)

/-- only the answer changes -/
def Same (x x' : Args) : Prop := x'.path = x.path ∧ x'.hdrs = x.hdrs ∧ x'.content = x.content

theorem ReceiveE.same {q : Nat} {x x' : Args} {r : Res} {evs : List Ev} {k : Nat} (h : ReceiveE rel W q x r x' evs k) : Same x x' := by
  rcases h with ⟨_, rfl, _⟩ | ⟨_, rfl, _⟩ | ⟨code, evs1, h, _⟩
  · exact ⟨rfl, rfl, rfl⟩
  · exact ⟨rfl, rfl, rfl⟩
  · rcases h with ⟨_, _, _, rfl, _⟩ | ⟨_, _, _, _, ⟨_, _, rfl, _⟩ | ⟨_, _, _, _, _, _, rfl, _⟩⟩ <;> exact ⟨rfl, rfl, rfl⟩

theorem OnE.same {q t : Nat} {wh : Wide} {x x' : Args} {r : Res} {evs : List Ev} {k : Nat} (h : OnE rel W q t wh x r x' evs k) : Same x x' := by
  rcases h with ⟨_, rfl, _⟩ | ⟨_, rfl, _⟩ | ⟨_, rfl, _⟩ | ⟨_, h, _⟩
  · exact ⟨rfl, rfl, rfl⟩
  · exact ⟨rfl, rfl, rfl⟩
  · exact ⟨rfl, rfl, rfl⟩
  · exact h.same

theorem Content_Data {p : CharPtr} {c : Option Text} : (c = none → ContentR p c ⊢ₕ Data .null []) ∧ (c ≠ none → ContentR p c ⊢ₕ Data p (c.getD [])) := by
  constructor
  · rintro rfl
    unfold ContentR
    exact entails_pand_l fun _ => entails_pand_r (entails_refl _) rfl
  · cases c with
    | none => intro h; exact absurd rfl h
    | some bs => intro _; unfold ContentR; exact entails_pand_l fun _ => entails_refl _

theorem setTimeouts_c (H : Honours rel lib W Net Sess Con Req) {q : Nat} {t1 t2 t3 t4 : Int} {tr : List Ev} :
    Triple rel (Net tr ∗ ReqR Req q) (lib.setTimeouts q t1 t2 t3 t4) (fun r => Net (tr ++ [.timeouts q t1 t2 t3 t4 r]) ∗ ReqR Req q) := by
  rw [ReqR_eq]; hoist; intro n; exact H.setTimeouts q n t1 t2 t3 t4 tr
theorem setSecurity_c (H : Honours rel lib W Net Sess Con Req) {q f : Nat} {tr : List Ev} :
    Triple rel (Net tr ∗ ReqR Req q) (lib.setSecurity q f) (fun r => Net (tr ++ [.security q f r]) ∗ ReqR Req q) := by
  rw [ReqR_eq]; hoist; intro n; exact H.setSecurity q n f tr
theorem closeRequest_c (H : Honours rel lib W Net Sess Con Req) {q : Nat} {tr : List Ev} :
    Triple rel (Net tr ∗ ReqR Req q) (lib.closeHandle q) (fun _ => Net (tr ++ [.close q])) := by
  rw [ReqR_eq]; hoist; intro n; exact H.closeRequest q n tr
theorem sendRequest_c (H : Honours rel lib W Net Sess Con Req) {q : Nat} {h : Ptr} {w : Wide} {p : CharPtr} {c : Option Text} {len : Nat} {tr : List Ev}
    (hl : len ≤ (c.getD []).length) : Triple rel (Net tr ∗ ReqR Req q ∗ WStr h w ∗ ContentR p c) (lib.sendRequest q h p len len)
      (fun r => Net (tr ++ [.send q w ((c.getD []).take len) r]) ∗ ReqR Req q ∗ WStr h w ∗ ContentR p c) := by
  rw [ReqR_eq]; hoist; intro n
  cases c with
  | none =>
    unfold ContentR; hoist; rintro rfl
    have := H.sendRequest q n h w .null [] len tr hl
    refine this.conseq ?_ fun r => ?_
    · rw [show Data .null [] = (((([] : List UInt8) = []) ⋏ emp)) from rfl, eq_self, true_pand]
      sep_cancel
    · rw [show Data .null [] = (((([] : List UInt8) = []) ⋏ emp)) from rfl, eq_self, true_pand]
      simp only [eq_self, true_pand]
      exact entails_refl _
  | some bs =>
    unfold ContentR; hoist; intro hp
    have := H.sendRequest q n h w p bs len tr hl
    refine this.conseq (entails_refl _) fun r => ?_
    simp only [sep_pand]
    exact entails_pand_r (entails_refl _) hp

theorem onRequest_spec (H : Honours rel lib W Net Sess Con Req) {q timeout : Nat} {h st rh rc : Ptr} {wh : Wide} {p : CharPtr} {x : Args} {len : Nat} {tr : List Ev}
    (hl : len = x.body.length) :
    Triple rel (Net tr ∗ ReqR Req q ∗ WStr h wh ∗ ContentR p x.content ∗ OutX st rh rc x) (onRequest lib q timeout h p len st rh rc)
      (fun r => ∃∃ (x' : Args) (evs : List Ev) (k : Nat), (OnE rel W q timeout wh x r x' evs k) ⋏
        Net (tr ++ evs) ∗ ReqR Req q ∗ WStr h wh ∗ ContentR p x.content ∗ OutX st rh rc x' ∗ Lost k) := by
  subst hl
  unfold onRequest
  step (setTimeouts_c H (q := q) (t1 := 0) (t2 := 60000) (t3 := asInt timeout) (t4 := asInt timeout)) into good
  refine Triple.ite (fun hg => ?_) fun hg => ?_
  · subst hg
    refine Triple.pure (entails_ex_r x (entails_ex_r _ (entails_ex_r 0 (entails_pand_r ?_ (.inl ⟨rfl, rfl, rfl, rfl⟩)))))
    rw [Lost_zero, sep_emp]; sep_cancel
  have hg : good = true := by simpa using hg
  subst hg
  step (setSecurity_c H (q := q) (f := 0)) into good
  refine Triple.ite (fun hg => ?_) fun hg => ?_
  · subst hg
    refine Triple.pure (entails_ex_r x (entails_ex_r _ (entails_ex_r 0 (entails_pand_r ?_ (.inr (.inl ⟨rfl, rfl, rfl, rfl⟩))))))
    rw [Lost_zero, sep_emp, List.append_assoc]; exact by sep_cancel
  have hg : good = true := by simpa using hg
  subst hg
  step (sendRequest_c H (q := q) (h := h) (w := wh) (p := p) (c := x.content) (len := x.body.length % 2 ^ 32) (Nat.mod_le _ _)) into good
  refine Triple.ite (fun hg => ?_) fun hg => ?_
  · subst hg
    refine Triple.pure (entails_ex_r x (entails_ex_r _ (entails_ex_r 0 (entails_pand_r ?_ (.inr (.inr (.inl ⟨rfl, rfl, rfl, rfl⟩)))))))
    rw [Lost_zero, sep_emp]; simp only [List.append_assoc, List.cons_append, List.nil_append]; exact by unfold Args.body; sep_cancel
  have hg : good = true := by simpa using hg
  subst hg
  refine Triple.last (receive_spec H (q := q) (st := st) (rh := rh) (rc := rc) (x := x) (tr := _)) (by fr) fun r => ?_
  simp only [hex_sep, pand_sep]
  refine entails_ex_l fun x' => entails_ex_l fun evs => entails_ex_l fun k => entails_pand_l fun hR => ?_
  refine entails_ex_r x' (entails_ex_r _ (entails_ex_r k (entails_pand_r ?_ (.inr (.inr (.inr ⟨evs, hR, rfl⟩))))))
  simp only [List.append_assoc, List.cons_append, List.nil_append, sep_assoc]
  unfold Args.body
  sep_cancel

/-- number of characters of a conversion, with the NUL -/
def wsize (W : Codec) (t : Text) : Nat := match W.widen t with
  | some w => w.length + 1
  | none => 0

/-- what happens with the path converted -/
def PathE (rel : Prop) (W : Codec) (o : Obj) (wp : Wide) (t : Text) (x : Args) (r : Res) (x' : Args) (evs : List Ev) (k : Nat) : Prop :=
  (r = .stringProcessingError ∧ (¬ rel ∨ W.widen t = none) ∧ x' = x ∧ evs = [] ∧ k = 0) ∨
  ∃ wh, W.widen t = some wh ∧
    ((r = .openRequestFailed ∧ x' = x ∧ evs = [.openRequest o.con (verbOf x.type) wp 0] ∧ k = 0) ∨
     ∃ q evs1, q ≠ 0 ∧ OnE rel W q o.timeout wh x r x' evs1 k ∧ evs = .openRequest o.con (verbOf x.type) wp q :: (evs1 ++ [.close q]))

theorem withHeaders_spec (H : Honours rel lib W Net Sess Con Req) {handle path h2 ht st rh rc : Ptr} {o : Obj} {wp : Wide} {t : Text} {b : Block} {p : CharPtr} {x : Args}
    {len : Nat} {tr : List Ev} (hl : len = x.body.length) (hb : wsize W t ≤ b.length) :
    Triple rel (Net tr ∗ ConnR Con handle o ∗ WStr path wp ∗ CS h2 t ∗ ht ↦ b ∗ ContentR p x.content ∗ OutX st rh rc x)
      (withHeaders lib handle (verbOf x.type) path h2 ht (wsize W t) p len st rh rc)
      (fun r => ∃∃ (x' : Args) (evs : List Ev) (k : Nat), (PathE rel W o wp t x r x' evs k) ⋏
        Net (tr ++ evs) ∗ ConnR Con handle o ∗ WStr path wp ∗ CS h2 t ∗ Any ht ∗ ContentR p x.content ∗ OutX st rh rc x' ∗ Lost k) := by
  unfold withHeaders
  cases hw : W.widen t with
  | none =>
    step (H.widenFails (.heap h2 0) t ht (wsize W t) b hw)
    rw [if_pos rfl]
    refine Triple.pure (entails_ex_r x (entails_ex_r [] (entails_ex_r 0 (entails_pand_r ?_ (.inl ⟨rfl, .inr hw, rfl, rfl, rfl⟩)))))
    rw [Lost_zero, sep_emp, List.append_nil]
    refine entails_trans (Q := ht ↦ b ∗ (Net tr ∗ ConnR Con handle o ∗ WStr path wp ∗ CS h2 t ∗ ContentR p x.content ∗ OutX st rh rc x)) (by sep_cancel)
      (entails_trans (sep_mono Any_intro (entails_refl _)) (by sep_cancel))
  | some wh =>
    have hs : wsize W t = wh.length + 1 := by unfold wsize; rw [hw]
    rw [hs] at hb ⊢
    step (H.widen (.heap h2 0) t wh ht (wh.length + 1) b hw (Nat.le_refl _) hb)
    rw [if_neg (by simp)]
    refine Triple.pre (?_ : Triple rel (WStr ht wh ∗ (CS h2 t ∗ Net tr ∗ ConnR Con handle o ∗ WStr path wp ∗ ContentR p x.content ∗ OutX st rh rc x)) _ _)
      (entails_trans (Q := ht ↦ (wideV wh ++ .int 0 :: b.drop (wh.length + 1)) ∗ (CS h2 t ∗ Net tr ∗ ConnR Con handle o ∗ WStr path wp ∗ ContentR p x.content ∗ OutX st rh rc x))
        (by sep_cancel) (sep_mono (WStr_intro (H.wide_ok t wh hw).1) (entails_refl _)))
    conv => arg 2; rw [ConnR_eq]
    hoist; intro ho
    have back : handle ↦ [.ptr o.con, .int o.timeout] ∗ Con o.con ⊢ₕ ConnR Con handle o := by
      rw [ConnR_eq]; exact entails_pand_r (entails_refl _) ho
    step (loadPtr_spec (p := handle) (b := [.ptr o.con, .int o.timeout]) (off := fConn) (q := o.con) rfl)
    step (H.openRequest o.con (verbOf x.type) path wp tr) into q
    refine Triple.ite (fun hq => ?_) fun hq => ?_
    · subst hq
      rw [if_pos rfl]
      refine Triple.pure (entails_ex_r x (entails_ex_r _ (entails_ex_r 0 (entails_pand_r ?_ (.inr ⟨wh, hw, .inl ⟨rfl, rfl, rfl, rfl⟩⟩)))))
      rw [Lost_zero, sep_emp]
      refine entails_trans (Q := (WStr ht wh ∗ (handle ↦ [.ptr o.con, .int o.timeout] ∗ Con o.con)) ∗
        (Net (tr ++ [.openRequest o.con (verbOf x.type) wp 0]) ∗ WStr path wp ∗ CS h2 t ∗ ContentR p x.content ∗ OutX st rh rc x)) (by (try simp only [sep_assoc, emp_sep]); sep_cancel)
        (entails_trans (sep_mono (sep_mono Any_WStr back) (entails_refl _)) (by simp only [sep_assoc]; sep_cancel))
    · rw [if_neg hq, show (∃∃ n, Req q n) = ReqR Req q from rfl]
      step (loadInt_spec (p := handle) (b := [.ptr o.con, .int o.timeout]) (off := fTimeout) (n := o.timeout) rfl)
      step (onRequest_spec H (q := q) (timeout := o.timeout) (h := ht) (st := st) (rh := rh) (rc := rc) (wh := wh) (p := p) (x := x) (len := len) hl) into r
      intro x' evs k hO
      step (closeRequest_c H (q := q))
      refine Triple.pure (entails_ex_r x' (entails_ex_r _ (entails_ex_r k (entails_pand_r ?_ (.inr ⟨wh, hw, .inr ⟨q, evs, hq, hO, rfl⟩⟩)))))
      refine entails_trans (Q := (WStr ht wh ∗ (handle ↦ [.ptr o.con, .int o.timeout] ∗ Con o.con)) ∗
        (Net (tr ++ (.openRequest o.con (verbOf x.type) wp q :: (evs ++ [.close q]))) ∗ WStr path wp ∗ CS h2 t ∗ ContentR p x.content ∗ OutX st rh rc x' ∗ Lost k))
        (by simp only [List.append_assoc, List.cons_append, List.nil_append, sep_assoc]; sep_cancel)
        (entails_trans (sep_mono (sep_mono Any_WStr back) (entails_refl _)) (by simp only [sep_assoc]; sep_cancel))

theorem wsize_le (H : Honours rel lib W Net Sess Con Req) {t : Text} : wsize W t < 2 ^ 31 := by
  unfold wsize
  cases h : W.widen t with
  | none => decide
  | some w => exact (H.wide_ok t w h).2

theorem widenSize_c (H : Honours rel lib W Net Sess Con Req) {s : CharPtr} {t : Text} :
    Triple rel (CStr s t) (lib.widen s 0 0) (fun r => (r = wsize W t) ⋏ CStr s t) := by
  have := H.widenSize s (some t)
  rw [Arg_some] at this
  exact this

theorem withPath_spec (H : Honours rel lib W Net Sess Con Req) {handle pb h2 st rh rc : Ptr} {o : Obj} {rp : CharPtr} {path : Text} {t : Text} {b : Block} {p : CharPtr} {x : Args}
    {len : Nat} {tr : List Ev} (hl : len = x.body.length) (hb : wsize W path ≤ b.length) :
    Triple rel (Net tr ∗ ConnR Con handle o ∗ CStr rp path ∗ CS h2 t ∗ pb ↦ b ∗ ContentR p x.content ∗ OutX st rh rc x)
      (withPath lib handle (verbOf x.type) rp pb (wsize W path) h2 p len st rh rc)
      (fun r => ∃∃ (x' : Args) (evs : List Ev) (k : Nat), ((r = .stringProcessingError ∧ W.widen path = none ∧ x' = x ∧ evs = [] ∧ k = 0) ∨
          ∃ wp, W.widen path = some wp ∧ PathE rel W o wp t x r x' evs k) ⋏
        Net (tr ++ evs) ∗ ConnR Con handle o ∗ CStr rp path ∗ CS h2 t ∗ Any pb ∗ ContentR p x.content ∗ OutX st rh rc x' ∗ Lost k) := by
  unfold withPath
  cases hw : W.widen path with
  | none =>
    step (H.widenFails rp path pb (wsize W path) b hw)
    rw [if_pos rfl]
    refine Triple.pure (entails_ex_r x (entails_ex_r [] (entails_ex_r 0 (entails_pand_r ?_ (.inl ⟨rfl, rfl, rfl, rfl, rfl⟩)))))
    rw [Lost_zero, sep_emp, List.append_nil]
    refine entails_trans (Q := pb ↦ b ∗ (Net tr ∗ ConnR Con handle o ∗ CStr rp path ∗ CS h2 t ∗ ContentR p x.content ∗ OutX st rh rc x)) (by sep_cancel)
      (entails_trans (sep_mono Any_intro (entails_refl _)) (by sep_cancel))
  | some wp =>
    have hs : wsize W path = wp.length + 1 := by unfold wsize; rw [hw]
    rw [hs] at hb ⊢
    step (H.widen rp path wp pb (wp.length + 1) b hw (Nat.le_refl _) hb)
    rw [if_neg (by simp)]
    refine Triple.pre (?_ : Triple rel (WStr pb wp ∗ (CS h2 t ∗ Net tr ∗ ConnR Con handle o ∗ CStr rp path ∗ ContentR p x.content ∗ OutX st rh rc x)) _ _)
      (entails_trans (Q := pb ↦ (wideV wp ++ .int 0 :: b.drop (wp.length + 1)) ∗ (CS h2 t ∗ Net tr ∗ ConnR Con handle o ∗ CStr rp path ∗ ContentR p x.content ∗ OutX st rh rc x))
        (by sep_cancel) (sep_mono (WStr_intro (H.wide_ok path wp hw).1) (entails_refl _)))
    step (widenSize_c H (s := .heap h2 0) (t := t))
    have hlt := wsize_le H (t := t)
    refine Triple.mallocW (by omega) (fun hr => ?_) fun ht hp hm => ?_
    · rw [if_pos rfl]
      refine Triple.pure (entails_ex_r x (entails_ex_r [] (entails_ex_r 0 (entails_pand_r ?_ (.inr ⟨wp, rfl, .inl ⟨rfl, .inl (hr.resolve_right (by simp only [maxObj]; omega)), rfl, rfl, rfl⟩⟩)))))
      rw [Lost_zero, sep_emp, List.append_nil]
      refine entails_trans (Q := WStr pb wp ∗ (Net tr ∗ ConnR Con handle o ∗ CStr rp path ∗ CS h2 t ∗ ContentR p x.content ∗ OutX st rh rc x)) (by sep_cancel)
        (entails_trans (sep_mono Any_WStr (entails_refl _)) (by sep_cancel))
    · rw [if_neg hp]
      step (withHeaders_spec H (handle := handle) (path := pb) (h2 := h2) (ht := ht) (st := st) (rh := rh) (rc := rc) (o := o) (wp := wp) (t := t)
        (b := List.replicate (wsize W t + 1) .undef) (p := p) (x := x) (len := len) hl (by simp)) into r
      intro x' evs k hP
      step (free_Any (p := ht))
      refine Triple.pure (entails_ex_r x' (entails_ex_r evs (entails_ex_r k (entails_pand_r ?_ (.inr ⟨wp, rfl, hP⟩)))))
      refine entails_trans (Q := WStr pb wp ∗ (Net (tr ++ evs) ∗ ConnR Con handle o ∗ CStr rp path ∗ CS h2 t ∗ ContentR p x.content ∗ OutX st rh rc x' ∗ Lost k)) (by sep_cancel)
        (entails_trans (sep_mono Any_WStr (entails_refl _)) (by sep_cancel))

/-- a request on a connection -/
def RequestE (rel : Prop) (W : Codec) (o : Obj) (path : Text) (hs : Hdrs) (x : Args) (r : Res) (x' : Args) (evs : List Ev) (k : Nat) : Prop :=
  (r = .allocFailed ∧ (¬ rel ∨ maxObj < (reqText hs).length + 1) ∧ x' = x ∧ evs = [] ∧ k = 0) ∨
  (r = .stringProcessingError ∧ (¬ rel ∨ W.widen path = none ∨ W.widen (reqText hs) = none) ∧ x' = x ∧ evs = [] ∧ k = 0) ∨
  ∃ wp wh, W.widen path = some wp ∧ W.widen (reqText hs) = some wh ∧
    ((r = .openRequestFailed ∧ x' = x ∧ evs = [.openRequest o.con (verbOf x.type) wp 0] ∧ k = 0) ∨
     ∃ q evs1, q ≠ 0 ∧ OnE rel W q o.timeout wh x r x' evs1 k ∧ evs = .openRequest o.con (verbOf x.type) wp q :: (evs1 ++ [.close q]))

theorem RequestE.same {o : Obj} {path : Text} {hs : Hdrs} {x x' : Args} {r : Res} {evs : List Ev} {k : Nat} (h : RequestE rel W o path hs x r x' evs k) : Same x x' := by
  rcases h with ⟨_, _, rfl, _⟩ | ⟨_, _, rfl, _⟩ | ⟨_, _, _, _, ⟨_, rfl, _⟩ | ⟨_, _, _, h, _⟩⟩
  · exact ⟨rfl, rfl, rfl⟩
  · exact ⟨rfl, rfl, rfl⟩
  · exact ⟨rfl, rfl, rfl⟩
  · exact h.same

theorem request_spec (H : Honours rel lib W Net Sess Con Req) {handle hd st rh rc : Ptr} {o : Obj} {rp : CharPtr} {path : Text} {hs : Hdrs} {p : CharPtr} {x : Args}
    {len : Nat} {tr : List Ev} (hl : len = x.body.length) :
    Triple rel (Net tr ∗ ConnR Con handle o ∗ CStr rp path ∗ HdrR hd hs ∗ ContentR p x.content ∗ OutX st rh rc x)
      (request lib handle (verbOf x.type) rp hd p len st rh rc)
      (fun r => ∃∃ (x' : Args) (evs : List Ev) (k : Nat), (RequestE rel W o path hs x r x' evs k) ⋏
        Net (tr ++ evs) ∗ ConnR Con handle o ∗ CStr rp path ∗ HdrR hd hs ∗ ContentR p x.content ∗ OutX st rh rc x' ∗ Lost k) := by
  unfold request
  step (ConstructHeadersString_spec (rel := rel) (hd := hd) (hs := hs)) into h2
  refine Triple.ite (fun hz => ?_) fun hz => ?_
  · subst hz
    rw [if_pos rfl]; hoist; intro hr
    refine Triple.pure (entails_ex_r x (entails_ex_r [] (entails_ex_r 0 (entails_pand_r ?_ (.inl ⟨rfl, hr, rfl, rfl, rfl⟩)))))
    rw [Lost_zero, sep_emp, List.append_nil]; sep_cancel
  rw [if_neg hz]
  step (widenSize_c H (s := rp) (t := path))
  have hlt := wsize_le H (t := path)
  refine Triple.mallocW (by omega) (fun hr => ?_) fun pb hp hm => ?_
  · rw [if_pos rfl]
    step (free_CS (p := h2))
    refine Triple.pure (entails_ex_r x (entails_ex_r [] (entails_ex_r 0 (entails_pand_r ?_ (.inl ⟨rfl, .inl (hr.resolve_right (by simp only [maxObj]; omega)), rfl, rfl, rfl⟩)))))
    rw [Lost_zero, sep_emp, List.append_nil]; sep_cancel
  · rw [if_neg hp]
    step (withPath_spec H (handle := handle) (pb := pb) (h2 := h2) (st := st) (rh := rh) (rc := rc) (o := o) (rp := rp) (path := path) (t := reqText hs)
        (b := List.replicate (wsize W path + 1) .undef) (p := p) (x := x) (len := len) hl (by simp)) into r
    intro x' evs k hP
    step (free_Any (p := pb))
    step (free_CS (p := h2))
    refine Triple.pure (entails_ex_r x' (entails_ex_r evs (entails_ex_r k (entails_pand_r (by sep_cancel) ?_))))
    rcases hP with ⟨h1, h2, h3⟩ | ⟨wp, hwp, ⟨h1, h2, h3⟩ | ⟨wh, hwh, h⟩⟩
    · exact .inr (.inl ⟨h1, .inr (.inl h2), h3⟩)
    · exact .inr (.inl ⟨h1, h2.imp_right .inr, h3⟩)
    · exact .inr (.inr ⟨wp, wh, hwp, hwh, h⟩)

theorem requestTypeString_lt {t : Nat} (h : t < 5) : requestTypeString t = some (verbOf t) := by
  match t with
  | 0 | 1 | 2 | 3 | 4 => rfl
  | k + 5 => omega
theorem requestTypeString_ge {t : Nat} (h : 5 ≤ t) : requestTypeString t = none := by
  match t with
  | 0 | 1 | 2 | 3 | 4 => omega
  | k + 5 => rfl

/-- `contentLength` is the length of `content`; a request without `content` has length 0 -/
theorem HTTPAPI_ExecuteRequest_spec (H : Honours rel lib W Net Sess Con Req) {g n s : Nat} {handle hd st rh rc : Ptr} {a : Option Obj} {rp p : CharPtr} {x : Args}
    {len : Nat} {tr : List Ev} (hl : len = x.body.length) :
    Triple rel (Net tr ∗ Glob Sess g n s ∗ OConn Con handle a ∗ ArgsR rp hd p st rh rc x)
      (HTTPAPI_ExecuteRequest lib g handle x.type rp hd p len st rh rc)
      (fun r => ∃∃ (x' : Args) (evs : List Ev) (k : Nat), (ExecE rel W n a x r x' evs k) ⋏
        Net (tr ++ evs) ∗ Glob Sess g n s ∗ OConn Con handle a ∗ ArgsR rp hd p st rh rc x' ∗ Lost k) := by
  unfold HTTPAPI_ExecuteRequest
  have bad : ∀ {r : Res}, ExecE rel W n a x r x [] 0 → Glob Sess g n s ∗ Net tr ∗ OConn Con handle a ∗ ArgsR rp hd p st rh rc x ⊢ₕ
      ∃∃ (x' : Args) (evs : List Ev) (k : Nat), (ExecE rel W n a x r x' evs k) ⋏ Net (tr ++ evs) ∗ Glob Sess g n s ∗ OConn Con handle a ∗ ArgsR rp hd p st rh rc x' ∗ Lost k :=
    fun h => entails_ex_r x (entails_ex_r [] (entails_ex_r 0 (entails_pand_r (by rw [List.append_nil, Lost_zero, sep_emp]; sep_cancel) h)))
  step (state_spec (rel := rel) (Sess := Sess) (g := g) (n := n) (s := s))
  by_cases hn : n = 0
  · rw [if_pos hn, if_pos (by simp)]
    exact Triple.pure (bad (by unfold ExecE; rw [if_pos hn]; exact ⟨rfl, rfl, rfl, rfl⟩))
  rw [if_neg hn, if_neg (by simp)]
  refine Triple.pre (?_ : Triple rel (Glob Sess g n s ∗ Net tr ∗ OConn Con handle a ∗ ArgsR rp hd p st rh rc x) _ _) (by sep_cancel)
  conv => arg 2; rw [ArgsR_eq]
  refine Triple.know (know_OConn (p := handle) (a := a) (by pick)) fun k1 => ?_
  refine Triple.know (know_Arg (s := rp) (o := x.path) (by pick)) fun k2 => ?_
  refine Triple.know (know_OHdr (h := hd) (a := x.hdrs) (by pick)) fun k3 => ?_
  refine Triple.ite (fun hb => ?_) (fun hb => ?_)
  · rw [k1, k2, k3] at hb
    refine Triple.pure (bad ?_)
    unfold ExecE
    rw [if_neg hn]
    split
    · rename_i h1 h2 h3
      rw [h2, h3] at hb; simp at hb
    · exact ⟨rfl, rfl, rfl, rfl⟩
  · rw [k1, k2, k3] at hb
    simp only [not_or] at hb
    obtain ⟨h1, h2, h3⟩ := hb
    obtain ⟨o, rfl⟩ := Option.ne_none_iff_exists'.1 h1
    obtain ⟨path, hpath⟩ := Option.ne_none_iff_exists'.1 h2
    obtain ⟨hs, hhd⟩ := Option.ne_none_iff_exists'.1 h3
    by_cases ht : 5 ≤ x.type
    · rw [requestTypeString_ge ht]
      dsimp only
      refine Triple.pure (bad ?_)
      unfold ExecE; rw [if_neg hn, hpath, hhd]; dsimp only; rw [if_pos ht]; exact ⟨rfl, rfl, rfl, rfl⟩
    · rw [requestTypeString_lt (by omega)]
      dsimp only
      rw [hpath, hhd, Arg_some, OHdr, ORep_some, OConn, ORep_some]
      refine Triple.last (request_spec H (handle := handle) (hd := hd) (st := st) (rh := rh) (rc := rc) (o := o) (rp := rp) (path := path) (hs := hs) (p := p) (x := x) (len := len)
        (tr := tr) hl) (by fr) fun r => ?_
      simp only [hex_sep, pand_sep]
      refine entails_ex_l fun x' => entails_ex_l fun evs => entails_ex_l fun k => entails_pand_l fun hR => ?_
      obtain ⟨e1, e2, e3⟩ := hR.same
      refine entails_ex_r x' (entails_ex_r evs (entails_ex_r k (entails_pand_r ?_ ?_)))
      · rw [ArgsR_eq, e1, e2, e3, hpath, hhd, Arg_some, OHdr, ORep_some]
        simp only [sep_assoc]
        sep_cancel
      · unfold ExecE; rw [if_neg hn, hpath, hhd]; dsimp only; rw [if_neg ht]; exact hR

end Verif.Wh
