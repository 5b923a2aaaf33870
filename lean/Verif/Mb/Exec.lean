import Verif.Mb.Send
/-! # The calls of `httpapi_mbed.cpp` -/
set_option linter.unusedSimpArgs false
set_option linter.unusedVariables false
namespace Verif.Mb
open Verif.Headers (Hdrs HdrR OHdr HTTPHeaders_GetHeaderCount_spec know_OHdr)
open Verif.Buffer (Content OBuf)
open Verif.Curl (Args StatR ContentR OutX OutX_eq ArgsR ArgsR_eq fillStatus_spec know_Content CStr_lit)
open Verif.Ti (over over_nil)
open Verif.Map (know_Arg)
open Verif.Sas (text)
open Verif.Sock (intV)
variable {rel : Prop} {lib : Lib} {Net : List Ev → HProp} {Con : Nat → Option Wire → HProp} {Peer : Text → Wire → Prop} {W : Prop}

abbrev OHandle (Con : Nat → Option Wire → HProp) (h : Ptr) (a : Option Obj) : HProp := ORep (HandleR Con) h a

theorem know_OHandle {p : Ptr} {a : Option Obj} {P F : HProp} (pk : Pick P (OHandle Con p a) F) : ∀ h, P h → (p = 0 ↔ a = none) := by
  intro h hp
  unfold Pick at pk; rw [pk] at hp
  cases a with
  | none => simp only [OHandle, ORep_none, pand_sep] at hp; simp [hp.1]
  | some c =>
    rw [OHandle, ORep_some, HandleR_eq] at hp
    simp only [hex_sep, pand_sep, sep_assoc] at hp
    obtain ⟨b, q, _, hp⟩ := hp
    have := know_pts (p := p) (φ := p ≠ 0) (P := (p ↦ b) ∗ (CertR q c.cert ∗ Con c.con c.wire ∗ F)) (by pick) (fun h1 _ => h1) h hp
    simp [this]

theorem con_spec {h : Ptr} {o : Obj} : Triple rel (HandleR Con h o) (loadPtr h fCon) (fun r => (r = o.con) ⋏ HandleR Con h o) := by
  conv => arg 2; rw [HandleR_eq]
  hoist; intro blk q hl hc hlen hq hcon
  last (loadPtr_spec (p := h) hcon)
  simp only [pand_sep]
  refine entails_pand_l fun e => entails_pand_r ?_ e
  rw [HandleR_eq]
  exact entails_ex_r blk (entails_ex_r q (entails_pand_r (by sep_cancel) ⟨hl, hc, hlen, hq, hcon⟩))

theorem know_held {rc : Ptr} {a : Option Content} {P F : HProp} (pk : Pick P (OBuf rc a) F) : ∀ h, P h → held a ≤ maxObj := by
  intro h hP
  cases a with
  | none => simp [held]
  | some c =>
    have := Ex.know_Buf (b := rc) (c := c) pk h hP
    cases c with
    | none => simp [held]
    | some v => simpa [held, Buffer.clen] using this

theorem fail_kept {a : Option Content} {rest : Text} : (a.map fun b => if (Body.fail rest).wiped then none else over b (Body.fail rest).got) = a := by
  cases a <;> simp [over_nil, Body.fail]

theorem Filled_fail {x : Args} {rest : Text} : Filled rel x ⟨none, [], .fail rest⟩ x :=
  ⟨x.rhdrs, Given_nil, by dsimp only; rw [fail_kept]⟩

section
variable (H : Stream rel lib Con W)
include H

theorem receive_spec {c : Nat} {w : Wire} {buf cp st rh rc : Ptr} {x : Args} {y : Reply} (hy : Says w.fin x.rcontent w.ins y) (hr : x.rcontent ≠ none → rel) :
    Triple rel (Con c (some w) ∗ Arr buf ∗ Cell cp ∗ OutX st rh rc x) (receive lib c buf cp st rh rc)
      (fun r => ∃∃ x' : Args, (r = y.body.res ∧ Filled rel x y x') ⋏ Con c (some (w.to y.body.rest)) ∗ Arr buf ∗ Cell cp ∗ OutX st rh rc x') := by
  unfold receive
  cases hy with
  | @bad rest hl =>
    step (readLine_bad H (c := c) (w := w) (buf := buf) (cp := cp) hl)
    rw [if_pos (by omega)]
    exact Triple.pure (entails_ex_r x (entails_pand_r (by sep_cancel) ⟨rfl, Filled_fail⟩))
  | @notHttp t rest hl hs =>
    step (readLine_got H (c := c) (w := w) (buf := buf) (cp := cp) hl)
    rw [if_neg (by omega)]
    step (cstr_Has (buf := buf) (t := t))
    rw [hs]
    refine Triple.pure (entails_ex_r x (entails_pand_r (entails_trans (?_ : _ ⊢ₕ Has buf t ∗ _) (entails_trans (sep_mono Has_Arr
      (entails_refl (Con c (some (w.to rest)) ∗ Cell cp ∗ OutX st rh rc x))) (by sep_cancel))) ⟨rfl, Filled_fail⟩))
    sep_cancel
  | @headBad t rest z ps rest' hl hs hf hh =>
    step (readLine_got H (c := c) (w := w) (buf := buf) (cp := cp) hl)
    rw [if_neg (by omega)]
    step (cstr_Has (buf := buf) (t := t))
    rw [hs]; dsimp only
    rw [if_neg (by simpa using hf), OutX_eq]
    step (fillStatus_spec (p := st) (s := x.status) (v := z))
    have hsuf := line_suffix hl
    refine Triple.pre (?_ : Triple rel (Arr buf ∗ StatR st (x.status.map fun _ => intV z) ∗ Con c (some (w.to rest)) ∗ Cell cp ∗ OHdr rh x.rhdrs ∗ OBuf rc x.rcontent) _ _)
      (entails_trans (?_ : _ ⊢ₕ Has buf t ∗ _) (sep_mono Has_Arr (entails_refl _)))
    rotate_left
    · sep_cancel
    step (readHeaders_spec H (c := c) (buf := buf) (cp := cp) (rh := rh) hh (w := w.to rest) (a := x.rhdrs) rfl (Wire.ins_to hsuf))
    rintro a' rfl hg
    dsimp only
    refine Triple.pure (entails_ex_r _ (entails_pand_r ?_ ⟨rfl, a', hg, rfl⟩))
    rw [OutX_eq]; dsimp only; rw [fail_kept, Wire.to_to hsuf hh.suffix]; dsimp only [Body.fail]
    sep_cancel
  | @plain t rest z ps d rest' hl hs hf hh hd hc =>
    step (readLine_got H (c := c) (w := w) (buf := buf) (cp := cp) hl)
    rw [if_neg (by omega)]
    step (cstr_Has (buf := buf) (t := t))
    rw [hs]; dsimp only
    rw [if_neg (by simpa using hf), OutX_eq]
    step (fillStatus_spec (p := st) (s := x.status) (v := z))
    have hsuf := line_suffix hl
    refine Triple.pre (?_ : Triple rel (Arr buf ∗ StatR st (x.status.map fun _ => intV z) ∗ Con c (some (w.to rest)) ∗ Cell cp ∗ OHdr rh x.rhdrs ∗ OBuf rc x.rcontent) _ _)
      (entails_trans (?_ : _ ⊢ₕ Has buf t ∗ _) (sep_mono Has_Arr (entails_refl _)))
    rotate_left
    · sep_cancel
    step (readHeaders_spec H (c := c) (buf := buf) (cp := cp) (rh := rh) hh (w := w.to rest) (a := x.rhdrs) rfl (Wire.ins_to hsuf))
    rintro a' rfl hg
    dsimp only
    rw [if_neg (by simp)]
    have hsuf2 : (d ++ rest') <:+ w.ins := hh.suffix.trans hsuf
    rw [Wire.to_to hsuf hh.suffix]
    last (plainBody_spec H (c := c) (buf := buf) (rc := rc) (w := w.to (d ++ rest')) (a := x.rcontent) (d := d) (rest := rest') (Wire.ins_to hsuf2) hd hc hr)
    simp only [pand_sep, sep_assoc]
    refine entails_pand_l fun hr => entails_ex_r _ (entails_pand_r ?_ ⟨hr, a', hg, rfl⟩)
    rw [OutX_eq]; dsimp only [after]
    rw [Wire.to_got hsuf2]
    simp only [Bool.false_eq_true, if_false]
    sep_cancel
  | @chunked t rest z ps n rest' o hl hs hf hh hc =>
    step (readLine_got H (c := c) (w := w) (buf := buf) (cp := cp) hl)
    rw [if_neg (by omega)]
    step (cstr_Has (buf := buf) (t := t))
    rw [hs]; dsimp only
    rw [if_neg (by simpa using hf), OutX_eq]
    step (fillStatus_spec (p := st) (s := x.status) (v := z))
    have hsuf := line_suffix hl
    refine Triple.pre (?_ : Triple rel (Arr buf ∗ StatR st (x.status.map fun _ => intV z) ∗ Con c (some (w.to rest)) ∗ Cell cp ∗ OHdr rh x.rhdrs ∗ OBuf rc x.rcontent) _ _)
      (entails_trans (?_ : _ ⊢ₕ Has buf t ∗ _) (sep_mono Has_Arr (entails_refl _)))
    rotate_left
    · sep_cancel
    step (readHeaders_spec H (c := c) (buf := buf) (cp := cp) (rh := rh) hh (w := w.to rest) (a := x.rhdrs) rfl (Wire.ins_to hsuf))
    rintro a' rfl hg
    dsimp only
    rw [if_pos rfl]
    have hsuf2 : rest' <:+ w.ins := hh.suffix.trans hsuf
    rw [Wire.to_to hsuf hh.suffix]
    refine Triple.know (know_held (rc := rc) (a := x.rcontent) (by pick)) fun hm => ?_
    have hk := chunkLoop_spec H (c := c) (buf := buf) (cp := cp) (rc := rc) (a := x.rcontent) hr hc (w := w.to rest') (got := []) (received := none) rfl (Wire.ins_to hsuf2) (by
      show held x.rcontent + 0 + (maxObj - held x.rcontent) ≤ maxObj
      omega)
    have ea : after x.rcontent [] = x.rcontent := by unfold after; cases x.rcontent <;> simp [over_nil]
    rw [ea] at hk
    last hk
    simp only [pand_sep, sep_assoc]
    refine entails_pand_l fun hr => entails_ex_r _ (entails_pand_r ?_ ⟨hr, a', hg, rfl⟩)
    rw [OutX_eq, Wire.to_to hsuf2 hc.suffix]
    simp only [List.nil_append]
    sep_cancel

end

section
variable (H : Honours rel lib Net Con Peer W)
include H

/-- C89–C91: `HTTPAPI_ExecuteRequest` -/
theorem HTTPAPI_ExecuteRequest_spec {buf cp handle hd st rh rc : Ptr} {rp p : CharPtr} {a : Option Obj} {x : Args} {tr : List Ev} {len : Nat}
    (hlen : len = match x.content with | some bs => bs.length | none => x.len) (hr : x.rcontent ≠ none → rel) (hS : Sendable x)
    (hA : ∀ o, a = some o → Answered rel W Peer o x) :
    Triple rel (Net tr ∗ OHandle Con handle a ∗ Arr buf ∗ Cell cp ∗ ArgsR rp hd p st rh rc x)
      (HTTPAPI_ExecuteRequest lib buf cp handle x.type rp hd p len st rh rc)
      (fun r => ∃∃ (x' : Args) (a' : Option Obj) (evs : List Ev), (ExecE rel W Peer (conOf a) a x r x' a' evs) ⋏
        Net (tr ++ evs) ∗ OHandle Con handle a' ∗ Arr buf ∗ Cell cp ∗ ArgsR rp hd p st rh rc x') := by
  unfold HTTPAPI_ExecuteRequest
  rw [ArgsR_eq]
  refine Triple.know (know_OHandle (Con := Con) (p := handle) (a := a) (by pick)) fun k1 => ?_
  refine Triple.know (know_Arg (s := rp) (o := x.path) (by pick)) fun k2 => ?_
  refine Triple.know (know_OHdr (h := hd) (a := x.hdrs) (by pick)) fun k3 => ?_
  refine Triple.know (know_Content (p := p) (c := x.content) (by pick)) fun k4 => ?_
  have km : methodName x.type = .null ↔ 5 ≤ x.type := by
    generalize x.type = t
    match t with
    | 0 | 1 | 2 | 3 | 4 => simp [methodName, CharPtr.str]
    | k + 5 => simp [methodName]
  refine Triple.ite (fun hb => ?_) (fun hb => ?_)
  · rw [k1, k2, k3, km] at hb
    refine Triple.pure (entails_ex_r x (entails_ex_r a (entails_ex_r [] (entails_pand_r (by rw [List.append_nil, ArgsR_eq]; sep_cancel) ?_))))
    unfold ExecE
    split
    · rename_i h2 h3
      rw [if_pos (by simpa [h2, h3] using hb)]; exact ⟨rfl, rfl, rfl, rfl⟩
    · exact ⟨rfl, rfl, rfl, rfl⟩
  · rw [k1, k2, k3, km] at hb
    simp only [not_or] at hb
    obtain ⟨h1, h2, h3, h5⟩ := hb
    obtain ⟨o, rfl⟩ := Option.ne_none_iff_exists'.1 h1
    obtain ⟨path, hpath⟩ := Option.ne_none_iff_exists'.1 h2
    obtain ⟨hs, hhs⟩ := Option.ne_none_iff_exists'.1 h3
    have hA := hA o rfl path hs
    have hE : ∀ {r x' a' evs}, (∃ r1 w1, ConnectE Peer o.con o r1 w1 evs ∧
      ((r1 ≠ .ok ∧ r = r1 ∧ x' = x ∧ a' = some { o with wire := w1 }) ∨
       (r1 = .ok ∧ ∃ w, w1 = some w ∧
        ((4096 ≤ (requestLine x path).length ∧ r = .stringProcessingError ∧ x' = x ∧ a' = some { o with wire := some w }) ∨
         ((requestLine x path).length < 4096 ∧ ∃ r2 w2, Sends rel W (pieces x path hs) w r2 w2 ∧
          ((r2 ≠ .ok ∧ r = r2 ∧ x' = x ∧ a' = some { o with wire := some w2 }) ∨
           (r2 = .ok ∧ ∃ y, Says w2.fin x.rcontent w2.ins y ∧ r = y.body.res ∧ Filled rel x y x' ∧
             a' = some { o with wire := some (w2.to y.body.rest) }))))))) → ExecE rel W Peer (conOf (some o)) (some o) x r x' a' evs := by
      intro r x' a' evs h
      unfold ExecE; rw [hpath, hhs]; dsimp only; rw [if_neg h5]; exact h
    have hgc := HTTPHeaders_GetHeaderCount_spec (rel := rel) (h := hd) (a := x.hdrs) (out := true)
    simp only [hhs] at hgc
    rw [hhs]
    step hgc
    dsimp only
    simp only [OHandle, ORep_some]
    step (con_spec (Con := Con) (h := handle) (o := o))
    step (ensureConnected_spec H (h := handle) (o := o) (tr := tr)) into r1
    intro w1 evs hC
    refine Triple.ite (fun hr1 => ?_) fun hr1 => ?_
    · refine Triple.pure (entails_ex_r x (entails_ex_r (some { o with wire := w1 }) (entails_ex_r evs (entails_pand_r ?_ (hE ⟨r1, w1, hC, .inl ⟨hr1, rfl, rfl, rfl⟩⟩)))))
      simp only [ArgsR_eq, hhs, ORep_some, OHdr]; sep_cancel
    have hr1 : r1 = .ok := Decidable.not_not.1 hr1
    subst hr1
    obtain ⟨w, rfl, hw⟩ : ∃ w, w1 = some w ∧ (o.wire = some w ∨ (o.wire = none ∧ Peer o.host w ∧ w.out = [] ∧ w.pos = 0)) := by
      unfold ConnectE at hC
      cases hw : o.wire with
      | some w => rw [hw] at hC; exact ⟨w, hC.2.1, .inl rfl⟩
      | none =>
        rw [hw] at hC
        rcases hC with ⟨t, _, h, _⟩ | ⟨e, _, h, _⟩ | ⟨w, _, h, hp, ho, hq, _⟩
        · cases h
        · cases h
        · exact ⟨w, h, .inr ⟨rfl, hp, ho, hq⟩⟩
    have eh : ∀ w', HandleR Con handle { o with wire := w' } = (Rest handle o ∗ Con o.con w') := fun w' => HandleR_rest
    simp only [eh, hpath, Arg_some, OHdr, ORep_some, sep_assoc]
    step (send_spec H.toStream (c := o.con) (w := w) (buf := buf) (x := x) (rp := rp) (path := path) (hd := hd) (hs := hs) (p := p) (len := len) (by omega) (hS.1 hs hhs) hS.2 (by
      intro hpn
      obtain ⟨bs, hbs⟩ := Option.ne_none_iff_exists'.1 (fun h => hpn (k4.1.2 h))
      rw [hlen]; unfold Args.body; rw [hbs]; rfl)) into r2
    intro w2 hSE
    refine Triple.ite (fun hr2 => ?_) fun hr2 => ?_
    · refine Triple.pure (entails_ex_r x (entails_ex_r (some { o with wire := some w2 }) (entails_ex_r evs (entails_pand_r ?_ (hE ⟨.ok, some w, hC, .inr ⟨rfl, w, rfl, ?_⟩⟩)))))
      · simp only [ArgsR_eq, hhs, hpath, ORep_some, eh, Arg_some, OHdr, sep_assoc]; sep_cancel
      · rcases hSE with ⟨h1, h2, h3⟩ | ⟨h1, h2⟩
        · subst h3; exact .inl ⟨h1, h2, rfl, rfl⟩
        · exact .inr ⟨h1, r2, w2, h2, .inl ⟨hr2, rfl, rfl, rfl⟩⟩
    have hr2 : r2 = .ok := Decidable.not_not.1 hr2
    subst hr2
    rcases hSE with ⟨_, h2, _⟩ | ⟨hll, hSE⟩
    · cases h2
    obtain ⟨y, hy⟩ := hA w w2 hpath hhs hw hSE
    last (receive_spec H.toStream (c := o.con) (w := w2) (buf := buf) (cp := cp) (st := st) (rh := rh) (rc := rc) hy hr)
    rename_i r
    simp only [hex_sep, pand_sep, sep_assoc]
    refine entails_ex_l fun x' => entails_pand_l fun hx => ?_
    refine entails_ex_r x' (entails_ex_r (some { o with wire := some (w2.to y.body.rest) }) (entails_ex_r evs (entails_pand_r ?_
      (hE ⟨.ok, some w, hC, .inr ⟨rfl, w, rfl, .inr ⟨hll, .ok, w2, hSE, .inr ⟨rfl, y, hy, hx.1, hx.2, rfl⟩⟩⟩⟩))))
    obtain ⟨hs', _, ex⟩ := hx.2
    have e1 : x'.path = x.path := by rw [ex]
    have e2 : x'.hdrs = x.hdrs := by rw [ex]
    have e3 : x'.content = x.content := by rw [ex]
    simp only [ArgsR_eq, e1, e2, e3, hhs, hpath, ORep_some, eh, Arg_some, OHdr, sep_assoc]
    sep_cancel
end
end Verif.Mb
