import Verif.Ex.Loop
import Verif.Map.History
/-! # C44: preparing a request -/
set_option linter.unusedSimpArgs false
set_option linter.unusedVariables false
namespace Verif.Ex
open Verif.Crt Verif.Strings Verif.Sock Verif.Buffer Verif.Headers
open Verif.Sas (text)
variable {rel : Prop} {api : Http} {Net : List Ev → HProp} {Sess : HProp} {Conn : Nat → HProp}

/-! ## objects that are made when the caller has none -/

/-- the object used instead of the caller's object `h`: `own` tells whether it is the caller's -/
def Kept {A : Type} (R : Ptr → A → HProp) (h : Ptr) (there own : Bool) (p : Ptr) (v : A) : HProp :=
  (own = there ∧ if there then p = h else h = 0) ⋏ R p v

theorem Kept_eq {A : Type} {R : Ptr → A → HProp} {h p : Ptr} {there own : Bool} {v : A} : Kept R h there own p v =
  ((own = there ∧ if there then p = h else h = 0) ⋏ R p v) := rfl

theorem buildBuffer_spec {h : Ptr} {a : Option Content} :
    Triple rel (OBuf h a) (buildBufferIfNotExist h)
      (fun x => if x.1 = 0 then Kept Buf h a.isSome x.2.1 x.2.2 (a.getD none) else (¬ rel) ⋏ OBuf h a) := by
  unfold buildBufferIfNotExist
  cases a with
  | none =>
    rw [Buffer.OBuf_none]; hoist; rintro rfl
    rw [if_pos rfl]
    step BUFFER_new_spec into b
    by_cases hb : b = 0
    · rw [if_pos hb, if_pos hb]; hoist; intro hr
      refine Triple.pure ?_
      rw [if_neg (by simp)]; exact entails_pand_r (entails_pand_r (entails_refl _) rfl) hr
    · rw [if_neg hb, if_neg hb]
      refine Triple.pure ?_
      rw [if_pos rfl]; exact entails_pand_r (entails_refl _) ⟨rfl, rfl⟩
  | some c =>
    refine Triple.know (OBuf_some_ne (h := h) (c := c) (by pick)) fun h0 => ?_
    rw [if_neg h0]
    refine Triple.pure ?_
    rw [if_pos rfl]; exact entails_pand_r (entails_refl _) ⟨rfl, rfl⟩

theorem dropBuffer_spec {h p : Ptr} {own : Bool} {a : Option Content} {v : Content} :
    Triple rel (Kept Buf h a.isSome own p v) (dropBuffer own p) (fun _ => OBuf h (a.map fun _ => v)) := by
  rw [Kept_eq]; hoist; intro h1 h2
  unfold dropBuffer
  cases a with
  | none =>
    simp only [Option.isSome] at h1 h2
    rw [if_pos h1]
    refine (BUFFER_delete_spec (h := p) (a := some v)).conseq (entails_refl _) fun _ => ?_
    exact entails_pand_r (entails_refl _) (by simpa using h2)
  | some c =>
    simp only [Option.isSome] at h1 h2
    rw [if_neg (by simp [h1])]
    obtain rfl : p = h := by simpa using h2
    exact Triple.pure (entails_refl _)

theorem buildRespHdrs_spec {h : Ptr} {a : Option Hdrs} :
    Triple rel (OHdr h a) (buildResponseHttpHeadersHandle h)
      (fun x => if x.1 = 0 then Kept HdrR h a.isSome x.2.1 x.2.2 (a.getD []) else (¬ rel) ⋏ OHdr h a) := by
  unfold buildResponseHttpHeadersHandle
  refine Triple.know (know_OHdr (h := h) (a := a) (by pick)) fun k => ?_
  cases a with
  | none =>
    rw [OHdr, ORep_none]; hoist; rintro rfl
    rw [if_pos rfl]
    step HTTPHeaders_Alloc_spec into b
    by_cases hb : b = 0
    · subst hb
      rw [if_pos rfl, Made_zero]; hoist; intro hr
      refine Triple.pure ?_
      rw [if_neg (by simp)]; exact entails_pand_r (entails_pand_r (entails_refl _) rfl) hr
    · rw [if_neg hb, Made_ne hb]; hoist; rintro x rfl
      refine Triple.pure ?_
      rw [if_pos rfl]; exact entails_pand_r (entails_refl _) ⟨rfl, rfl⟩
  | some c =>
    rw [if_neg (by simp [k])]
    refine Triple.pure ?_
    rw [if_pos rfl]; exact entails_pand_r (entails_refl _) ⟨rfl, rfl⟩

theorem dropHeaders_spec {h p : Ptr} {own : Bool} {a : Option Hdrs} {v : Hdrs} :
    Triple rel (Kept HdrR h a.isSome own p v) (dropHeaders own p) (fun _ => OHdr h (a.map fun _ => v)) := by
  rw [Kept_eq]; hoist; intro h1 h2
  unfold dropHeaders
  cases a with
  | none =>
    simp only [Option.isSome] at h1 h2
    rw [if_pos h1]
    refine (HTTPHeaders_Free_spec (h := p) (a := some v)).conseq (entails_refl _) fun _ => ?_
    exact entails_pand_r (entails_refl _) (by simpa using h2)
  | some c =>
    simp only [Option.isSome] at h1 h2
    rw [if_neg (by simp [h1])]
    obtain rfl : p = h := by simpa using h2
    exact Triple.pure (entails_refl _)

/-! ## the request headers -/

theorem know_Buf {b : Ptr} {c : Content} {P F : HProp} (pk : Pick P (Buf b c) F) : ∀ hp, P hp → clen c ≤ maxObj := by
  intro hp hP
  cases c with
  | none => simp [clen]
  | some vs =>
    unfold Pick at pk; rw [pk, Buf_some, hex_sep] at hP
    obtain ⟨p, hP⟩ := hP
    rw [sep_assoc] at hP
    exact know_pts (p := p) (φ := vs.length ≤ maxObj) (P := b ↦ [.ptr p, .int vs.length] ∗ p ↦ vs ∗ F) (by pick) (fun _ h2 => h2) hp hP

theorem okName_host : okName (text "Host") := by decide
theorem okName_length : okName (text "Content-Length") := by decide

theorem dropWhile_decimal (n : Nat) : (decimal n).dropWhile isLWS = decimal n := by
  have h := decimal_is n
  cases hd : decimal n with
  | nil => rfl
  | cons c cs =>
    rw [hd] at h
    have := h.2.1 c (by simp)
    rw [List.dropWhile_cons_of_neg]
    have h1 : 48 ≤ c.toNat := by simpa [UInt8.le_iff_toNat_le] using this.1
    simp only [isLWS, Bool.or_eq_true, decide_eq_true_eq, not_or]
    refine ⟨⟨⟨?_, ?_⟩, ?_⟩, ?_⟩ <;> rintro rfl <;> revert h1 <;> decide

/-- one header is stored -/
theorem put_header {p : Ptr} {hs : Hdrs} {n v : Text} {s : CharPtr} {V : HProp} (O : Opens V s v) (hn : okName n) (h0 : NoNul n) (hl : n.length < maxObj) :
    Triple rel (HdrR p hs ∗ V) (HTTPHeaders_ReplaceHeaderNameValuePair p (.str n) s)
      (fun r => ∃∃ hs' : Hdrs, ((r = .ok ∧ hs' = stored true hs n (v.dropWhile isLWS)) ∨ (r ≠ .ok ∧ hs' = hs ∧ NoRoom (¬ rel) hs n v)) ⋏ HdrR p hs' ∗ V) := by
  unfold HTTPHeaders_ReplaceHeaderNameValuePair
  have e : CStr (.str n) n = emp := Arg_lit ⟨h0, hl⟩
  have := store_header_opens (rel := rel) (h := p) (hs := hs) (name := .str n) (n := n) O (replace := true)
  rw [e, emp_sep] at this
  refine this.conseq (entails_refl _) fun r => entails_ex_l fun hs' => entails_pand_l fun hE => ?_
  simp only [StoreE] at hE
  rw [if_pos hn] at hE
  rcases hE with ⟨rfl, h2⟩ | ⟨h1, h3, h2⟩
  · exact entails_ex_r _ (entails_pand_r (entails_refl _) (Or.inl ⟨rfl, by simpa using h2⟩))
  · refine entails_ex_r _ (entails_pand_r (entails_refl _) (Or.inr ⟨?_, by simpa using h3, h2⟩))
    rcases h1 with rfl | ⟨rfl, _⟩ <;> simp

/-- what the request headers can be after a failed preparation -/
def HdrFail (oom : Prop) (host : Text) (a : Option Hdrs) (len : Nat) (a' : Option Hdrs) : Prop :=
  (a' = a ∧ NoRoom oom (a.getD []) (text "Host") host) ∨
  (a' = a.map (stored true · (text "Host") (host.dropWhile isLWS)) ∧
    NoRoom oom (stored true (a.getD []) (text "Host") (host.dropWhile isLWS)) (text "Content-Length") (decimal len))

/-- the headers that are sent -/
def sent (host : Text) (len : Nat) (hs : Hdrs) : Hdrs :=
  stored true (stored true hs (text "Host") (host.dropWhile isLWS)) (text "Content-Length") (decimal len)

/-- the part after the headers were found -/
theorem fillHeaders_spec {h p b temp : Ptr} {k : Int} {http : Nat} {host : Text} {opts : List (Text × Block)} {c : Content} {hs : Hdrs} {t : Block} (ht : t.length = 22) :
    Triple rel (Hd h k http host opts ∗ Buf b c ∗ HdrR p hs ∗ temp ↦ t)
      (do
        let len ← BUFFER_length b
        let _ ← size_tToString temp 22 (UInt64.ofNat len)
        setRequestHeaders h p temp)
      (fun good => ∃∃ (hs' : Hdrs) (t' : Block), (if good then hs' = sent host (clen c) hs else HdrFail (¬ rel) host (some hs) (clen c) (some hs')) ⋏
        (t'.length = 22) ⋏ Hd h k http host opts ∗ Buf b c ∗ HdrR p hs' ∗ temp ↦ t') := by
  refine Triple.know (know_Buf (b := b) (c := c) (by pick)) fun hc => ?_
  step (BUFFER_length_spec (h := b) (a := some c)) into len
  rw [show (Option.map clen (some c)).getD 0 = clen c from rfl]
  rintro rfl
  step (size_tToString_spec (dst := temp) (size := 22) (value := UInt64.ofNat (clen c)) (b := t) (by omega)) into r
  intro t' hw hdec
  have hn : (UInt64.ofNat (clen c)).toNat = clen c := by
    rw [UInt64.toNat_ofNat']; apply Nat.mod_eq_of_lt; simp only [maxObj] at hc; omega
  have ht' : cstrV t' = some (decimal (clen c)) := by
    have h1 := hdec (decimal (clen c)) (by rw [hn]; exact decimal_is _)
    have h2 := decimal_length_64 (clen c) (by simp only [maxObj] at hc; omega)
    rcases h1 with h1 | h1
    · exact h1.2.2
    · omega
  unfold setRequestHeaders
  rw [Hd_eq]; hoist; intro hn' vec
  step (loadPtr_spec (p := h) (q := hn') (b := [.ptr hn', intV k, .ptr http, .ptr vec]) rfl)
  rw [← Sas.OStr_some]
  step (STRING_c_str_spec (h := hn') (a := some host)) into s
  rw [show StrAt hn' s (some host) = (hn' ↦ [.ptr s] ∗ CStr (.heap s 0) host) from rfl]
  simp only [sep_assoc]
  refine Triple.know (know_heap0 (p := s) (t := host) (by pick)) fun h0 => ?_
  rw [ofPtr_ne h0]
  have fold : ∀ {X : HProp}, hn' ↦ [.ptr s] ∗ CStr (.heap s 0) host ∗ h ↦ [.ptr hn', intV k, .ptr http, .ptr vec] ∗ OptsR vec opts ⊢ₕ Hd h k http host opts := by
    intro _
    refine entails_trans ?_ (Hd_intro (hn := hn') (vec := vec))
    refine entails_trans ?_ (sep_mono (entails_refl _) (sep_mono (StrAt_OStr (p := s) (a := some host)) (entails_refl _)))
    rw [show StrAt hn' s (some host) = (hn' ↦ [.ptr s] ∗ CStr (.heap s 0) host) from rfl]
    sep_cancel
  step (put_header (p := p) (hs := hs) (n := text "Host") (v := host) (s := .heap s 0) CStr_opens okName_host (by decide) (by decide)) into r1
  intro hs1 hr1
  by_cases hok : r1 = .ok
  · rcases hr1 with ⟨_, rfl⟩ | ⟨h1, _⟩
    rotate_left
    · exact absurd hok h1
    rw [if_pos hok]
    refine Triple.pre ?_ (show _ ⊢ₕ HdrR p (stored true hs (text "Host") (host.dropWhile isLWS)) ∗ temp ↦ t' ∗ Hd h k http host opts ∗ Buf b c from ?_)
    rotate_left
    · refine entails_trans ?_ (sep_mono (entails_refl _) (sep_mono (entails_refl _) (sep_mono (fold (X := emp)) (entails_refl _))))
      sep_cancel
    step (put_header (p := p) (n := text "Content-Length") (v := decimal (clen c)) (s := .heap temp 0) (pts_opens (vs := t') (Nat.zero_le _) (by rw [List.drop_zero]; exact ht')) okName_length (by decide) (by decide)) into r2
    intro hs2 hr2
    refine Triple.pure (entails_ex_r hs2 (entails_ex_r t' (entails_pand_r (entails_pand_r (by sep_cancel) (by rw [hw.1]; exact ht)) ?_)))
    rcases hr2 with ⟨rfl, rfl⟩ | ⟨h1, rfl, h2⟩
    · rw [if_pos (by simp), dropWhile_decimal]; rfl
    · rw [if_neg (by simp [h1])]; exact Or.inr ⟨rfl, h2⟩
  · rcases hr1 with ⟨h1, _⟩ | ⟨_, rfl, h2⟩
    · exact absurd h1 hok
    rw [if_neg hok]
    refine Triple.pure (entails_ex_r hs1 (entails_ex_r t' (entails_pand_r (entails_pand_r ?_ (by rw [hw.1]; exact ht)) ?_)))
    · refine entails_trans ?_ (sep_mono (fold (X := emp)) (entails_refl _))
      sep_cancel
    · rw [if_neg (by simp)]; exact Or.inl ⟨rfl, h2⟩

theorem buildReqHdrs_spec {h b hq temp : Ptr} {k : Int} {http : Nat} {host : Text} {opts : List (Text × Block)} {c : Content} {a : Option Hdrs} {t : Block} (ht : t.length = 22) :
    Triple rel (Hd h k http host opts ∗ Buf b c ∗ OHdr hq a ∗ temp ↦ t) (buildRequestHttpHeadersHandle h b hq temp)
      (fun x => ∃∃ t' : Block, (t'.length = 22) ⋏ Hd h k http host opts ∗ Buf b c ∗ temp ↦ t' ∗
        if x.1 = 0 then Kept HdrR hq a.isSome x.2.1 x.2.2 (sent host (clen c) (a.getD []))
        else ∃∃ a' : Option Hdrs, (HdrFail (¬ rel) host a (clen c) a') ⋏ OHdr hq a') := by
  unfold buildRequestHttpHeadersHandle
  refine Triple.know (know_OHdr (h := hq) (a := a) (by pick)) fun kq => ?_
  have main : ∀ (own : Bool) (p : Ptr), p ≠ 0 → Triple rel (Hd h k http host opts ∗ Buf b c ∗ Kept HdrR hq a.isSome own p (a.getD []) ∗ temp ↦ t)
      (do
        let len ← BUFFER_length b
        let _ ← size_tToString temp 22 (UInt64.ofNat len)
        let good ← setRequestHeaders h p temp
        if good = false then do
          dropHeaders own p
          pure (135, own, 0)
        else pure (0, own, p))
      (fun x => ∃∃ t' : Block, (t'.length = 22) ⋏ Hd h k http host opts ∗ Buf b c ∗ temp ↦ t' ∗
        if x.1 = 0 then Kept HdrR hq a.isSome x.2.1 x.2.2 (sent host (clen c) (a.getD []))
        else ∃∃ a' : Option Hdrs, (HdrFail (¬ rel) host a (clen c) a') ⋏ OHdr hq a') := by
    intro own p hp
    rw [Kept_eq]; hoist; intro h1 h2
    have key := fillHeaders_spec (rel := rel) (h := h) (p := p) (b := b) (temp := temp) (k := k) (http := http) (host := host) (opts := opts) (c := c) (hs := a.getD []) ht
    have ee : ∀ (f : Bool → M (Nat × Bool × Ptr)), (do
        let len ← BUFFER_length b
        let _ ← size_tToString temp 22 (UInt64.ofNat len)
        let good ← setRequestHeaders h p temp
        f good) = ((do
        let len ← BUFFER_length b
        let _ ← size_tToString temp 22 (UInt64.ofNat len)
        setRequestHeaders h p temp : M Bool) >>= f) := by
      intro f; simp only [bind_assoc]
    rw [ee]
    refine Triple.bind' key fun good => ?_
    hoist; intro hs' t' hg ht'
    cases good with
    | true =>
      rw [if_pos rfl] at hg; subst hg
      rw [if_neg (by simp)]
      refine Triple.pure (entails_ex_r t' (entails_pand_r ?_ ht'))
      rw [if_pos rfl, Kept_eq]
      simp only [sep_pand]
      exact entails_pand_r (by sep_cancel) ⟨h1, h2⟩
    | false =>
      rw [if_neg (by simp)] at hg
      rw [if_pos rfl]
      have key2 := dropHeaders_spec (rel := rel) (h := hq) (p := p) (own := own) (a := a) (v := hs')
      rw [Kept_eq] at key2
      refine Triple.pre ?_ (show _ ⊢ₕ ((own = a.isSome ∧ if a.isSome = true then p = hq else hq = 0) ⋏ HdrR p hs') ∗ Hd h k http host opts ∗ Buf b c ∗ temp ↦ t' from ?_)
      rotate_left
      · rw [pand_sep]; exact entails_pand_r (by sep_cancel) ⟨h1, h2⟩
      step key2
      refine Triple.pure (entails_ex_r t' (entails_pand_r ?_ ht'))
      rw [if_neg (by simp)]
      simp only [sep_hex]
      refine entails_ex_r (a.map fun _ => hs') ?_
      simp only [sep_pand]
      refine entails_pand_r (by sep_cancel) ?_
      cases a with
      | none =>
        rcases hg with ⟨_, h4⟩ | ⟨_, h4⟩
        · exact Or.inl ⟨rfl, h4⟩
        · exact Or.inr ⟨rfl, h4⟩
      | some hs =>
        rcases hg with ⟨h3, h4⟩ | ⟨h3, h4⟩
        · simp at h3; subst h3; exact Or.inl ⟨rfl, h4⟩
        · simp at h3; subst h3; exact Or.inr ⟨rfl, h4⟩
  refine Triple.ite (fun h0 => ?_) (fun h0 => ?_)
  · obtain ⟨hs, rfl⟩ := Option.ne_none_iff_exists'.1 (fun e => h0 (kq.2 e))
    refine Triple.bind_pure ?_
    dsimp only
    rw [if_neg h0]
    refine (main true hq h0).pre ?_
    rw [Kept_eq]; simp only [sep_pand, pand_sep]
    exact entails_pand_r (entails_refl _) ⟨rfl, by simp⟩
  · obtain rfl : a = none := kq.1 (by simpa using h0)
    rw [OHdr, ORep_none]; hoist; rintro rfl
    simp only [bind_assoc, pure_bind]
    step HTTPHeaders_Alloc_spec into p
    by_cases hp : p = 0
    · subst hp
      rw [if_pos rfl, Made_zero]; hoist; intro hr
      refine Triple.pure (entails_ex_r t (entails_pand_r ?_ ht))
      rw [if_neg (by simp)]
      simp only [sep_hex]
      refine entails_ex_r none ?_
      simp only [sep_pand, OHdr, ORep_none]
      exact entails_pand_r (entails_pand_r (by sep_cancel) trivial) (Or.inl ⟨rfl, Or.inl hr⟩)
    · rw [if_neg hp, Made_ne hp]; hoist; rintro x rfl
      refine (main false p hp).pre ?_
      rw [Kept_eq]; simp only [sep_pand, pand_sep]
      exact entails_pand_r (by sep_cancel) ⟨rfl, by simp⟩

/-! ## the whole request -/

/-- the caller's status code -/
def OStat (p : Ptr) : Option Val → HProp
  | none => (p = 0) ⋏ emp
  | some v => p ↦ [v]

theorem know_OStat {p : Ptr} {v : Option Val} {P F : HProp} (pk : Pick P (OStat p v) F) : ∀ h, P h → (p = 0 ↔ v = none) := by
  intro h hp; unfold Pick at pk; rw [pk] at hp
  obtain ⟨x, y, _, _, h1, _⟩ := hp
  cases v with
  | none => simp [h1.1]
  | some b => simp [h1.1]

/-- the caller's objects -/
def ArgsR (path : CharPtr) (hq cq st hr cr : Ptr) (x : Args) : HProp :=
  Arg path x.path ∗ OHdr hq x.hdrs ∗ OBuf cq x.content ∗ OStat st x.status ∗ OHdr hr x.rhdrs ∗ OBuf cr x.rcontent

theorem ArgsR_eq {path : CharPtr} {hq cq st hr cr : Ptr} {x : Args} : ArgsR path hq cq st hr cr x =
  (Arg path x.path ∗ OHdr hq x.hdrs ∗ OBuf cq x.content ∗ OStat st x.status ∗ OHdr hr x.rhdrs ∗ OBuf cr x.rcontent) := rfl

theorem dropBuffer_kept {h p : Ptr} {own : Bool} {a : Option Content} {v : Content} (h1 : own = a.isSome) (h2 : if a.isSome = true then p = h else h = 0) :
    Triple rel (Buf p v) (dropBuffer own p) (fun _ => OBuf h (a.map fun _ => v)) :=
  dropBuffer_spec.pre (entails_pand_r (entails_refl _) ⟨h1, h2⟩)

theorem dropHeaders_kept {h p : Ptr} {own : Bool} {a : Option Hdrs} {v : Hdrs} (h1 : own = a.isSome) (h2 : if a.isSome = true then p = h else h = 0) :
    Triple rel (HdrR p v) (dropHeaders own p) (fun _ => OHdr h (a.map fun _ => v)) :=
  dropHeaders_spec.pre (entails_pand_r (entails_refl _) ⟨h1, h2⟩)

theorem map_same {A : Type} {a : Option A} {d : A} : (a.map fun _ => a.getD d) = a := by cases a <;> rfl

/-- the address the object used lies at -/
abbrev At (there own : Bool) (p h : Ptr) : Prop := own = there ∧ if there = true then p = h else h = 0

theorem buildAll_spec {h hq cq st hr cr temp dummy : Ptr} {path : CharPtr} {k : Int} {http : Nat} {host : Text} {opts : List (Text × Block)} {x : Args} {t : Block}
    (ht : t.length = 22) :
    Triple rel (Hd h k http host opts ∗ OHdr hq x.hdrs ∗ OBuf cq x.content ∗ OHdr hr x.rhdrs ∗ OBuf cr x.rcontent ∗ temp ↦ t)
      (buildAllRequests h path hq cq st hr cr temp dummy)
      (fun r => ∃∃ t' : Block, (t'.length = 22) ⋏ temp ↦ t' ∗ Hd h k http host opts ∗
        match r with
        | none => ∃∃ a' : Option Hdrs,
            (HdrFail (¬ rel) host x.hdrs (clen (x.content.getD none)) a' ∨ (¬ rel ∧ a' = x.hdrs.map fun _ => sent host (clen (x.content.getD none)) (x.hdrs.getD []))) ⋏
            OHdr hq a' ∗ OBuf cq x.content ∗ OHdr hr x.rhdrs ∗ OBuf cr x.rcontent
        | some u => (u.path = (if path = .null then .str [] else path) ∧ u.status = (if st = 0 then dummy else st) ∧
              At x.hdrs.isSome u.hdrsOwn u.hdrs hq ∧ At x.content.isSome u.contentOwn u.content cq ∧
              At x.rhdrs.isSome u.rhdrsOwn u.rhdrs hr ∧ At x.rcontent.isSome u.rcontentOwn u.rcontent cr) ⋏
            HdrR u.hdrs (sent host (clen (x.content.getD none)) (x.hdrs.getD [])) ∗ Buf u.content (x.content.getD none) ∗ HdrR u.rhdrs (x.rhdrs.getD []) ∗
            Buf u.rcontent (x.rcontent.getD none)) := by
  unfold buildAllRequests
  step (buildBuffer_spec (h := cq) (a := x.content)) into y
  obtain ⟨e1, contentOwn, content⟩ := y
  dsimp only
  by_cases he1 : e1 = 0
  rotate_left
  · rw [if_neg he1, if_pos he1]; hoist; intro hrel
    refine Triple.pure (entails_ex_r t (entails_pand_r ?_ ht))
    dsimp only; rw [sep_hex, sep_hex]
    refine entails_ex_r x.hdrs ?_
    simp only [sep_pand]
    exact entails_pand_r (by sep_cancel) (Or.inl (Or.inl ⟨rfl, Or.inl hrel⟩))
  rw [if_pos he1, if_neg (by simp [he1]), Kept_eq]; hoist; intro hc1 hc2
  step (buildReqHdrs_spec (h := h) (b := content) (hq := hq) (temp := temp) (t := t) ht) into y
  obtain ⟨e2, hdrsOwn, hdrs⟩ := y
  dsimp only
  intro t' ht'
  by_cases he2 : e2 = 0
  rotate_left
  · rw [if_neg he2, if_pos he2]; hoist; intro a' hf
    step (dropBuffer_kept (h := cq) (p := content) (own := contentOwn) (a := x.content) hc1 hc2)
    rw [map_same]
    refine Triple.pure (entails_ex_r t' (entails_pand_r ?_ ht'))
    dsimp only; rw [sep_hex, sep_hex]
    refine entails_ex_r a' ?_
    simp only [sep_pand]
    exact entails_pand_r (by sep_cancel) (Or.inl hf)
  rw [if_pos he2, if_neg (by simp [he2]), Kept_eq]; hoist; intro hh1 hh2
  step (buildRespHdrs_spec (h := hr) (a := x.rhdrs)) into y
  obtain ⟨e3, rhdrsOwn, rhdrs⟩ := y
  dsimp only
  by_cases he3 : e3 = 0
  rotate_left
  · rw [if_neg he3, if_pos he3]; hoist; intro hrel
    step (dropBuffer_kept (h := cq) (p := content) (own := contentOwn) (a := x.content) hc1 hc2)
    rw [map_same]
    step (dropHeaders_kept (h := hq) (p := hdrs) (own := hdrsOwn) (a := x.hdrs) hh1 hh2)
    refine Triple.pure (entails_ex_r t' (entails_pand_r ?_ ht'))
    dsimp only; rw [sep_hex, sep_hex]
    refine entails_ex_r (x.hdrs.map fun _ => sent host (clen (x.content.getD none)) (x.hdrs.getD [])) ?_
    simp only [sep_pand]
    exact entails_pand_r (by sep_cancel) (Or.inr ⟨hrel, trivial⟩)
  rw [if_pos he3, if_neg (by simp [he3]), Kept_eq]; hoist; intro hr1 hr2
  step (buildBuffer_spec (h := cr) (a := x.rcontent)) into y
  obtain ⟨e4, rcontentOwn, rcontent⟩ := y
  dsimp only
  by_cases he4 : e4 = 0
  rotate_left
  · rw [if_neg he4, if_pos he4]; hoist; intro hrel
    step (dropBuffer_kept (h := cq) (p := content) (own := contentOwn) (a := x.content) hc1 hc2)
    rw [map_same]
    step (dropHeaders_kept (h := hq) (p := hdrs) (own := hdrsOwn) (a := x.hdrs) hh1 hh2)
    step (dropHeaders_kept (h := hr) (p := rhdrs) (own := rhdrsOwn) (a := x.rhdrs) hr1 hr2)
    rw [map_same]
    refine Triple.pure (entails_ex_r t' (entails_pand_r ?_ ht'))
    dsimp only; rw [sep_hex, sep_hex]
    refine entails_ex_r (x.hdrs.map fun _ => sent host (clen (x.content.getD none)) (x.hdrs.getD [])) ?_
    simp only [sep_pand]
    exact entails_pand_r (by sep_cancel) (Or.inr ⟨hrel, trivial⟩)
  rw [if_pos he4, if_neg (by simp [he4]), Kept_eq]; hoist; intro hd1 hd2
  refine Triple.pure (entails_ex_r t' (entails_pand_r ?_ ht'))
  dsimp only
  simp only [sep_pand]
  exact entails_pand_r (by sep_cancel) ⟨trivial, trivial, ⟨hh1, hh2⟩, ⟨hc1, hc2⟩, ⟨hr1, hr2⟩, ⟨hd1, hd2⟩⟩

/-! ## path and status -/

theorem CStr_empty : CStr (.str []) [] = emp := by rw [← Arg_some]; exact Arg_lit ⟨by decide, by decide⟩

theorem path_used {path : CharPtr} {o : Option Text} (h : path = .null ↔ o = none) : Arg path o = CStr (if path = .null then .str [] else path) (o.getD []) := by
  cases o with
  | none =>
    rw [if_pos (h.2 rfl), Arg_none, Option.getD, CStr_empty]
    simp [h.2 rfl, true_pand]
  | some t => rw [if_neg (by simp [h]), Arg_some]; rfl

theorem status_used {st dummy : Ptr} {v : Option Val} {d : Val} (h : st = 0 ↔ v = none) :
    (OStat st v ∗ dummy ↦ [d]) = ((if st = 0 then dummy else st) ↦ [v.getD d] ∗ if v = none then emp else dummy ↦ [d]) := by
  cases v with
  | none => rw [if_pos (h.2 rfl), if_pos rfl, sep_emp, OStat]; simp [h.2 rfl, true_pand, emp_sep]
  | some v => rw [if_neg (by simp [h]), if_neg (by simp)]; rfl

theorem status_after {st dummy : Ptr} {v : Option Val} {d w : Val} (h : st = 0 ↔ v = none) :
    ((if st = 0 then dummy else st) ↦ [w] ∗ if v = none then emp else dummy ↦ [d]) ⊢ₕ OStat st (v.map fun _ => w) ∗ dummy ↦ [if v = none then w else d] := by
  cases v with
  | none =>
    rw [if_pos (h.2 rfl), if_pos rfl, if_pos rfl, sep_emp, Option.map, OStat, pand_sep, emp_sep]
    exact entails_pand_r (entails_refl _) (h.2 rfl)
  | some v => rw [if_neg (by simp [h]), if_neg (by simp), if_neg (by simp)]; exact entails_refl _

/-- C40–C42, C44: a request. -/
theorem HTTPAPIEX_ExecuteRequest_spec (H : Honours rel api Net Sess Conn) {h hq cq st hr cr temp dummy : Ptr} {path : CharPtr} {a : Option Obj} {x : Args}
    {t : Block} {d : Val} {tr : List Ev} (ht : t.length = 22) :
    Triple rel (Net tr ∗ OEx Sess Conn h a ∗ ArgsR path hq cq st hr cr x ∗ dummy ↦ [d] ∗ temp ↦ t)
      (HTTPAPIEX_ExecuteRequest api h x.type path hq cq st hr cr temp dummy)
      (fun r => ∃∃ (a' : Option Obj) (x' : Args) (d' : Val) (evs : List Ev) (t' : Block), (ExecE (¬ rel) a x d r a' x' d' evs ∧ t'.length = 22) ⋏
        Net (tr ++ evs) ∗ OEx Sess Conn h a' ∗ ArgsR path hq cq st hr cr x' ∗ dummy ↦ [d'] ∗ temp ↦ t') := by
  unfold HTTPAPIEX_ExecuteRequest
  refine Triple.know (know_OEx (h := h) (a := a) (by pick)) fun k1 => ?_
  have same : ∀ r, ExecE (¬ rel) a x d r a x d [] → Net tr ∗ OEx Sess Conn h a ∗ ArgsR path hq cq st hr cr x ∗ dummy ↦ [d] ∗ temp ↦ t ⊢ₕ
      ∃∃ (a' : Option Obj) (x' : Args) (d' : Val) (evs : List Ev) (t' : Block), (ExecE (¬ rel) a x d r a' x' d' evs ∧ t'.length = 22) ⋏
        Net (tr ++ evs) ∗ OEx Sess Conn h a' ∗ ArgsR path hq cq st hr cr x' ∗ dummy ↦ [d'] ∗ temp ↦ t' := fun r hE =>
    entails_ex_r a (entails_ex_r x (entails_ex_r d (entails_ex_r [] (entails_ex_r t (entails_pand_r (by rw [List.append_nil]; exact entails_refl _) ⟨hE, ht⟩)))))
  cases a with
  | none =>
    rw [if_pos (k1.2 rfl)]
    exact Triple.pure (same _ ⟨rfl, rfl, rfl, rfl, rfl⟩)
  | some o =>
    rw [if_neg (by simp [k1])]
    by_cases ht5 : 5 ≤ x.type
    · rw [if_pos ht5]
      refine Triple.pure (same _ ?_)
      simp only [ExecE]; rw [if_pos ht5]; simp
    rw [if_neg ht5]
    have hE : ∀ r a' x' d' evs, ExecE (¬ rel) (some o) x d r a' x' d' evs = _ := fun r a' x' d' evs => if_neg ht5
    clear same
    rw [OEx, ORep_some, ExR_eq, ArgsR_eq]
    simp only [sep_assoc]
    refine Triple.know (Map.know_Arg (s := path) (o := x.path) (by pick)) fun kp => ?_
    refine Triple.know (know_OStat (p := st) (v := x.status) (by pick)) fun ks => ?_
    step (buildAll_spec (h := h) (hq := hq) (cq := cq) (st := st) (hr := hr) (cr := cr) (temp := temp) (dummy := dummy) (path := path) (x := x) (t := t) ht) into b
    intro t' ht'
    cases b with
    | none =>
      dsimp only
      hoist; intro a' hf
      refine Triple.pure (entails_ex_r (some o) (entails_ex_r { x with hdrs := a' } (entails_ex_r d (entails_ex_r [] (entails_ex_r t' (entails_pand_r ?_ ?_))))))
      · rw [List.append_nil, OEx, ORep_some, ExR_eq, ArgsR_eq]
        simp only [sep_assoc]
        sep_cancel
      · refine ⟨?_, ht'⟩
        rw [hE]
        refine Or.inl ⟨rfl, rfl, rfl, rfl, ?_⟩
        rcases hf with (⟨rfl, h2⟩ | ⟨rfl, h2⟩) | ⟨h2, rfl⟩
        · exact Or.inl ⟨rfl, h2⟩
        · exact Or.inr (Or.inl ⟨rfl, h2⟩)
        · exact Or.inr (Or.inr ⟨rfl, h2⟩)
    | some u =>
      dsimp only
      hoist; intro hp hs hh1 hh2 hc1 hc2 hrh1 hrh2 hrc1 hrc2
      have rest : Triple rel (Hd h (if kOf o.conn = -1 then 0 else kOf o.conn) (o.conn.getD 0) o.host o.opts ∗ ConnR Sess Conn o.conn ∗ Net tr ∗ In u (x.req o) (x.resp d) ∗
          (if x.status = none then emp else dummy ↦ [d]) ∗ temp ↦ t')
          (do
            let result ← loop api h x.type u [false, false, false]
            dropBuffer u.contentOwn u.content
            dropHeaders u.hdrsOwn u.hdrs
            dropBuffer u.rcontentOwn u.rcontent
            dropHeaders u.rhdrsOwn u.rhdrs
            pure result)
          (fun r => ∃∃ (a' : Option Obj) (x' : Args) (d' : Val) (evs : List Ev) (t' : Block), (ExecE (¬ rel) (some o) x d r a' x' d' evs ∧ t'.length = 22) ⋏
            Net (tr ++ evs) ∗ OEx Sess Conn h a' ∗ ArgsR path hq cq st hr cr x' ∗ dummy ↦ [d'] ∗ temp ↦ t') := by
        step (loop_spec H (h := h) (u := u) (q := x.req o) (o := o) (tr := tr) (g := x.resp d)) into r
        rw [Fin]; hoist; intro evs ok c' g' hat hres
        rw [In_eq]; simp only [sep_assoc]
        step (dropBuffer_kept (h := cq) (p := u.content) (own := u.contentOwn) (a := x.content) hc1 hc2)
        step (dropHeaders_kept (h := hq) (p := u.hdrs) (own := u.hdrsOwn) (a := x.hdrs) hh1 hh2)
        step (dropBuffer_kept (h := cr) (p := u.rcontent) (own := u.rcontentOwn) (a := x.rcontent) hrc1 hrc2)
        step (dropHeaders_kept (h := hr) (p := u.rhdrs) (own := u.rhdrsOwn) (a := x.rhdrs) hrh1 hrh2)
        refine Triple.pure (entails_ex_r (some { o with conn := c' }) (entails_ex_r (x.after o g') (entails_ex_r (if x.status = none then g'.status else d) (entails_ex_r evs
          (entails_ex_r t' (entails_pand_r ?_ ?_))))))
        · rw [OEx, ORep_some, ExR_eq, ArgsR_eq, hp, hs]
          simp only [Args.req, Args.after, sep_assoc]
          rw [← path_used kp, map_same]
          refine entails_trans (Q := ((if st = 0 then dummy else st) ↦ [g'.status] ∗ if x.status = none then emp else dummy ↦ [d]) ∗
            Net (tr ++ evs) ∗ Hd h (kOf c') (c'.getD 0) o.host o.opts ∗ ConnR Sess Conn c' ∗ Arg path x.path ∗ OHdr hq (x.hdrs.map fun _ => x.reqHdrs o) ∗ OBuf cq x.content ∗
            OHdr hr (x.rhdrs.map fun _ => g'.hdrs) ∗ OBuf cr (x.rcontent.map fun _ => g'.content) ∗ temp ↦ t') ?_ (entails_trans (sep_mono (status_after ks) (entails_refl _)) ?_)
          · simp only [sep_assoc]; sep_cancel
          · simp only [sep_assoc]; sep_cancel
        · refine ⟨?_, ht'⟩
          rw [hE]
          exact Or.inr ⟨ok, c', g', hat, hres, rfl, rfl, rfl⟩
      have enter : temp ↦ t' ∗ Hd h (if kOf o.conn = -1 then 0 else kOf o.conn) (o.conn.getD 0) o.host o.opts ∗ HdrR u.hdrs (sent o.host (clen (x.content.getD none)) (x.hdrs.getD [])) ∗
          Buf u.content (x.content.getD none) ∗ HdrR u.rhdrs (x.rhdrs.getD []) ∗ Buf u.rcontent (x.rcontent.getD none) ∗ Net tr ∗ ConnR Sess Conn o.conn ∗ Arg path x.path ∗ OStat st x.status ∗ dummy ↦ [d] ⊢ₕ
          Hd h (if kOf o.conn = -1 then 0 else kOf o.conn) (o.conn.getD 0) o.host o.opts ∗ ConnR Sess Conn o.conn ∗ Net tr ∗ In u (x.req o) (x.resp d) ∗
          (if x.status = none then emp else dummy ↦ [d]) ∗ temp ↦ t' := by
        rw [In_eq, hp, hs]
        simp only [Args.req, Args.resp, Args.reqHdrs]
        rw [← path_used kp, status_used ks]
        simp only [withLength, withHost, sent, sep_assoc]
        sep_cancel
      step (Hd_k (h := h) (k_i32 o.conn))
      refine Triple.ite (fun hk => ?_) (fun hk => ?_)
      · rw [if_pos hk] at rest enter
        step (Hd_setK (h := h) (k' := 0))
        exact rest.pre (entails_trans (by sep_cancel) enter)
      · rw [if_neg hk] at rest enter
        exact rest.pre (entails_trans (by sep_cancel) enter)

end Verif.Ex
