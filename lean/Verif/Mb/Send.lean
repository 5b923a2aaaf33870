import Verif.Mb.Body
import Verif.Ti.Props
/-! # Connecting and sending (`httpapi_mbed.cpp`) -/
set_option linter.unusedSimpArgs false
set_option linter.unusedVariables false
namespace Verif.Mb
open Verif.Headers (Hdrs HdrR OHdr HTTPHeaders_GetHeader_spec GotHeader)
open Verif.Curl (Args At ContentR know_Content CStr_lit)
open Verif.Sas (text)
open Verif.Ti (At_of)
variable {rel : Prop} {lib : Lib} {Net : List Ev → HProp} {Con : Nat → Option Wire → HProp} {Peer : Text → Wire → Prop} {W : Prop}

/-! ## Bytes -/

theorem Bytes.pts {p : Ptr} {b : Block} {bs : Text} (h : bytesV bs <+: b) : Bytes (p ↦ b) (.heap p 0) bs where
  storage := (storage_pts (by omega)).conseq (entails_refl _) fun r => entails_pand_l fun hr => entails_pand_r (entails_refl _) (by rw [hr, List.drop_zero]; exact h)

theorem Bytes.lit {l : Text} : Bytes emp (.str l) l where
  storage := by
    unfold Verif.storage
    exact Triple.pure (entails_pand_r (entails_refl _) ⟨bytesV [0], by simp [bytesV]⟩)

theorem Bytes.data {s : CharPtr} {bs : Text} (h : s ≠ .null) : Bytes (Data s bs) s bs where
  storage := by
    intro rel
    cases s with
    | null => exact absurd rfl h
    | lit l =>
      unfold Data Verif.storage; hoist; intro h1 h2
      refine Triple.pure (entails_pand_r (entails_pand_r (entails_refl _) ⟨h1, h2⟩) ?_)
      obtain ⟨t, rfl⟩ := h1
      exact ⟨bytesV t, by simp [bytesV]⟩
    | heap p off =>
      unfold Data; hoist; intro vs h1 h2
      refine (storage_pts h1).conseq (entails_refl _) fun r => entails_pand_l fun hr => entails_pand_r ?_ (by rw [hr]; exact h2)
      exact entails_ex_r vs (entails_pand_r (entails_refl _) ⟨h1, h2⟩)

/-! ## Handles -/

/-- the certificate of a handle -/
def CertR (p : Ptr) : Option Text → HProp
  | none => (p = 0) ⋏ emp
  | some t => (p ≠ 0 ∧ NoNul t) ⋏ p ↦ bytesV (t ++ [0])

/-- a handle -/
def HandleR (Con : Nat → Option Wire → HProp) (h : Ptr) (o : Obj) : HProp :=
  ∃∃ (b : Block) (q : Ptr), (b.length = 66 ∧ cstrV b = some o.host ∧ o.host.length < 64 ∧ b[64]? = some (.ptr q) ∧ b[65]? = some (.ptr o.con)) ⋏ h ↦ b ∗ CertR q o.cert ∗ Con o.con o.wire
theorem HandleR_eq {h : Ptr} {o : Obj} : HandleR Con h o =
  ∃∃ (b : Block) (q : Ptr), (b.length = 66 ∧ cstrV b = some o.host ∧ o.host.length < 64 ∧ b[64]? = some (.ptr q) ∧ b[65]? = some (.ptr o.con)) ⋏ h ↦ b ∗ CertR q o.cert ∗ Con o.con o.wire := rfl

/-- the memory of a handle, without the connection -/
def Rest (h : Ptr) (o : Obj) : HProp :=
  ∃∃ (b : Block) (q : Ptr), (b.length = 66 ∧ cstrV b = some o.host ∧ o.host.length < 64 ∧ b[64]? = some (.ptr q) ∧ b[65]? = some (.ptr o.con)) ⋏ h ↦ b ∗ CertR q o.cert
theorem Rest_eq {h : Ptr} {o : Obj} : Rest h o =
  ∃∃ (b : Block) (q : Ptr), (b.length = 66 ∧ cstrV b = some o.host ∧ o.host.length < 64 ∧ b[64]? = some (.ptr q) ∧ b[65]? = some (.ptr o.con)) ⋏ h ↦ b ∗ CertR q o.cert := rfl

theorem HandleR_rest {h : Ptr} {o : Obj} : HandleR Con h o = (Rest h o ∗ Con o.con o.wire) := by
  rw [HandleR_eq, Rest_eq]; simp only [hex_sep, pand_sep, sep_assoc]

theorem cert_reads {q : Ptr} {t : Text} (hn : NoNul t) : Reads (q ↦ bytesV (t ++ [0])) (.heap q 0) t :=
  pts_reads (by omega) (by
    have := (At_of hn []).cstr
    rw [List.append_nil] at this; exact this)

section
variable (H : Honours rel lib Net Con Peer W)
include H

theorem ensureConnected_spec {h : Ptr} {o : Obj} {tr : List Ev} :
    Triple rel (Net tr ∗ HandleR Con h o) (ensureConnected lib h o.con)
      (fun r => ∃∃ (w' : Option Wire) (evs : List Ev), (ConnectE Peer o.con o r w' evs) ⋏ Net (tr ++ evs) ∗ HandleR Con h { o with wire := w' }) := by
  unfold ensureConnected
  have e : ∀ w', HandleR Con h { o with wire := w' } = (Rest h o ∗ Con o.con w') := fun w' => HandleR_rest
  simp only [e]
  step (H.isConnected o.con o.wire) into b
  intro hb
  unfold ConnectE
  cases hw : o.wire with
  | some w =>
    rw [hw] at hb
    rw [if_pos (by simpa using hb)]
    exact Triple.pure (entails_ex_r (some w) (entails_ex_r [] (entails_pand_r (by rw [List.append_nil]; sep_cancel) ⟨rfl, rfl, rfl⟩)))
  | none =>
    rw [hw] at hb
    rw [if_neg (by simp [hb])]
    conv => arg 2; rw [Rest_eq]
    hoist; intro blk q hl hc hh64 hq hcon
    step (loadPtr_spec (p := h) hq)
    dsimp only
    have hrd : Reads (h ↦ blk) (.heap h 0) o.host := pts_reads (by omega) (by simpa using hc)
    have back : ∀ {w : Option Wire} {tr' : List Ev}, Net tr' ∗ Con o.con w ∗ h ↦ blk ∗ CertR q o.cert ⊢ₕ Net tr' ∗ Rest h o ∗ Con o.con w := by
      intro w tr'
      refine entails_trans (?_ : _ ⊢ₕ Net tr' ∗ (h ↦ blk ∗ CertR q o.cert) ∗ Con o.con w)
        (sep_mono (entails_refl _) (sep_mono (entails_ex_r blk (entails_ex_r q (entails_pand_r (entails_refl _) ⟨hl, hc, hh64, hq, hcon⟩))) (entails_refl _)))
      sep_cancel
    have fin : ∀ {tr' l : List Ev}, tr' = tr ++ l →
        l = (match o.cert with | none => [] | some t => [Ev.cert o.con t true]) →
        Triple rel (Net tr' ∗ Con o.con none ∗ h ↦ blk ∗ CertR q o.cert)
        (do
          let r ← lib.connect o.con (.heap h 0) 443
          if r ≠ 0 then pure Curl.Res.error else pure Curl.Res.ok)
        (fun r => ∃∃ (w' : Option Wire) (evs : List Ev), (
            (∃ t, o.cert = some t ∧ r = Curl.Res.error ∧ w' = none ∧ evs = [Ev.cert o.con t false]) ∨
            (∃ e, e ≠ 0 ∧ r = Curl.Res.error ∧ w' = none ∧ evs = (match o.cert with | none => [] | some t => [Ev.cert o.con t true]) ++ [.connect o.con o.host 443 e]) ∨
            (∃ w, r = Curl.Res.ok ∧ w' = some w ∧ Peer o.host w ∧ w.out = [] ∧ w.pos = 0 ∧
              evs = (match o.cert with | none => [] | some t => [Ev.cert o.con t true]) ++ [.connect o.con o.host 443 0])) ⋏ Net (tr ++ evs) ∗ Rest h o ∗ Con o.con w') := by
      intro tr' l e1 e2
      subst e1
      rw [← e2]
      step (H.connect o.con _ _ _ 443 (tr ++ l) hrd) into r
      intro w' hr
      rcases hr with ⟨h1, rfl⟩ | ⟨rfl, w, rfl, hp, ho, hpos⟩
      · rw [if_pos h1]
        refine Triple.pure (entails_ex_r none (entails_ex_r _ (entails_pand_r ?_ (.inr (.inl ⟨r, h1, rfl, rfl, rfl⟩)))))
        rw [← List.append_assoc]
        exact entails_trans (by sep_cancel) back
      · rw [if_neg (by simp)]
        refine Triple.pure (entails_ex_r (some w) (entails_ex_r _ (entails_pand_r ?_ (.inr (.inr ⟨w, rfl, rfl, hp, ho, hpos, rfl⟩)))))
        rw [← List.append_assoc]
        exact entails_trans (by sep_cancel) back
    cases hct : o.cert with
    | none =>
      rw [hct] at fin back
      rw [show CertR q none = ((q = 0) ⋏ emp) from rfl]
      hoist; intro hq0
      rw [if_neg (by simp [hq0])]
      refine Triple.bind_pure ?_
      rw [if_neg (by simp)]
      refine Triple.pre (fin (tr' := tr) (l := []) (by simp) rfl) ?_
      rw [show CertR q none = ((q = 0) ⋏ emp) from rfl]
      simp only [sep_pand, sep_emp, hq0, eq_self, true_pand]
      sep_cancel
    | some t =>
      rw [hct] at fin back
      rw [show CertR q (some t) = ((q ≠ 0 ∧ NoNul t) ⋏ q ↦ bytesV (t ++ [0])) from rfl]
      hoist; intro hq0 hn
      rw [if_pos hq0]
      step (cert_reads hn).strlen
      step (H.loadCertificate o.con _ _ _ tr (cert_reads hn)) into g
      have cb : q ↦ bytesV (t ++ [0]) ⊢ₕ CertR q (some t) := entails_pand_r (entails_refl _) ⟨hq0, hn⟩
      cases g with
      | false =>
        rw [if_pos rfl]
        refine Triple.pure (entails_ex_r none (entails_ex_r _ (entails_pand_r (entails_trans (entails_trans (?_ : _ ⊢ₕ q ↦ bytesV (t ++ [0]) ∗ _)
          (sep_mono cb (entails_refl (Net (tr ++ [.cert o.con t false]) ∗ Con o.con none ∗ h ↦ blk)))) (entails_trans (by sep_cancel) back)) (.inl ⟨t, rfl, rfl, rfl, rfl⟩))))
        sep_cancel
      | true =>
        rw [if_neg (by simp)]
        refine Triple.pre (fin (tr' := tr ++ [.cert o.con t true]) rfl rfl) (entails_trans (entails_trans (?_ : _ ⊢ₕ q ↦ bytesV (t ++ [0]) ∗ _)
          (sep_mono cb (entails_refl (Net (tr ++ [.cert o.con t true]) ∗ Con o.con none ∗ h ↦ blk)))) (by sep_cancel))
        sep_cancel

/-! ## Sending -/

end

section
variable (H : Stream rel lib Con W)
include H

theorem sendAll_c {c : Nat} {w : Wire} {V : HProp} {p : CharPtr} {bs : Text} {n : Int} (hn : n = bs.length) (hl : bs.length < 2 ^ 31) (hb : Bytes V p bs) :
    Triple rel (Con c (some w) ∗ V) (lib.sendAll c p n)
      (fun r => ∃∃ w' : Wire, (Put W w bs (0 ≤ r) w') ⋏ Con c (some w') ∗ V) := by
  subst hn; exact H.sendAll c w V p bs hl hb

omit H in
theorem Put.good {w w' : Wire} {bs : Text} {r : Int} (h : Put W w bs (0 ≤ r) w') (hr : ¬ r < 0) : Put W w bs True w' := by
  obtain ⟨n, h1, h2, h3⟩ := h
  exact ⟨n, h1, h2, fun _ => h3 (by omega)⟩
omit H in
theorem Put.any {w w' : Wire} {bs : Text} {p : Prop} (h : Put W w bs p w') : Put W w bs False w' := by
  obtain ⟨n, h1, h2, h3⟩ := h
  exact ⟨n, h1, h2, False.elim⟩

theorem sendHeaders_spec {c : Nat} {hd : Ptr} {hs : Hdrs} (hl : ∀ p ∈ hs, (headerLine p).length < 2 ^ 31) : ∀ (n i : Nat) (w : Wire), i + n = hs.length →
    Triple rel (Con c (some w) ∗ HdrR hd hs) (sendHeaders lib c hd i n)
      (fun r => ∃∃ w' : Wire, (Sends rel W (headerPieces (hs.drop i)) w r w') ⋏ Con c (some w') ∗ HdrR hd hs) := by
  intro n
  induction n with
  | zero =>
    intro i w hi
    unfold sendHeaders
    refine Triple.pure (entails_ex_r w (entails_pand_r (entails_refl _) ?_))
    rw [List.drop_of_length_le (by omega)]; exact .nil
  | succ n ih =>
    intro i w hi
    unfold sendHeaders
    have hlt : i < hs.length := by omega
    have ht : Headers.line hs i = some (headerLine hs[i]) := by
      unfold Headers.line; rw [List.getElem?_eq_getElem hlt]; rfl
    obtain ⟨t, et⟩ : ∃ t, t = headerLine hs[i] := ⟨_, rfl⟩
    have hlt' : t.length < 2 ^ 31 := by rw [et]; exact hl _ (List.getElem_mem hlt)
    have ed : headerPieces (hs.drop i) = .header t :: .raw crlf :: headerPieces (hs.drop (i + 1)) := by
      rw [List.drop_eq_getElem_cons hlt]; unfold headerPieces; rw [List.flatMap_cons, et]; rfl
    rw [← et] at ht
    rw [ed]
    have hg := HTTPHeaders_GetHeader_spec (rel := rel) (h := hd) (a := some hs) (i := i) (out := true)
    simp only [OHdr, ORep_some] at hg
    step hg into x
    have eg : GotHeader rel (some hs) i true x = if x = (.error, some 0) then ((¬ rel ∨ maxObj < t.length + 1) ⋏ emp)
      else ∃∃ p : Nat, (p ≠ 0 ∧ x = (.ok, some p) ∧ NoNul t) ⋏ p ↦ bytesV (t ++ [0]) := by
      unfold GotHeader; dsimp only; rw [ht]
    rw [eg]
    by_cases hx : x = (.error, some 0)
    · rw [if_pos hx]; hoist; intro hr
      subst hx
      exact Triple.pure (entails_ex_r w (entails_pand_r (by sep_cancel) (.noMem hr)))
    · rw [if_neg hx]; hoist; intro p hp hx2 hn
      subst hx2
      dsimp only
      step (cert_reads (q := p) hn).strlen
      rw [toI32_small hlt']
      step (sendAll_c H (c := c) (w := w) rfl hlt' (Bytes.pts (p := p) (b := bytesV (t ++ [0])) ⟨bytesV [0], by simp [bytesV]⟩)) into r1
      intro w1 h1
      refine Triple.ite (fun hr1 => ?_) fun hr1 => ?_
      · step (free_spec (p := p))
        exact Triple.pure (entails_ex_r w1 (entails_pand_r (by sep_cancel) (.fail h1.any)))
      have t2 := sendAll_c H (c := c) (w := w1) (n := 2) (bs := [13, 10]) rfl (by decide) (Bytes.lit (l := [13, 10]))
      simp only [sep_emp] at t2
      step t2 into r2
      intro w2 h2
      refine Triple.ite (fun hr2 => ?_) fun hr2 => ?_
      · step (free_spec (p := p))
        exact Triple.pure (entails_ex_r w2 (entails_pand_r (by sep_cancel) (.next (h1.good hr1) (.fail h2.any))))
      step (free_spec (p := p))
      refine (ih (i + 1) w2 (by omega)).conseq (by sep_cancel) fun r => entails_ex_l fun w' => entails_pand_l fun hS => entails_ex_r w' (entails_pand_r (entails_refl _) ?_)
      exact .next (h1.good hr1) (.next (h2.good hr2) hS)

omit H in
theorem Sends.append {l1 l2 : List Piece} {w w1 w2 : Wire} {r : Res} (h1 : Sends rel W l1 w .ok w1) (h2 : Sends rel W l2 w1 r w2) : Sends rel W (l1 ++ l2) w r w2 := by
  generalize hr : Curl.Res.ok = r0 at h1
  induction h1 with
  | nil => exact h2
  | noMem _ => cases hr
  | fail _ => cases hr
  | next hp _ ih => exact .next hp (ih h2 hr)

omit H in
theorem Sends.stop {l1 l2 : List Piece} {w w1 : Wire} {r : Res} (h1 : Sends rel W l1 w r w1) (hr : r ≠ .ok) : Sends rel W (l1 ++ l2) w r w1 := by
  induction h1 with
  | nil => exact absurd rfl hr
  | noMem h => exact .noMem h
  | fail h => exact .fail h
  | next hp _ ih => exact .next hp (ih hr)

omit H in
theorem method_lit {type : Nat} (h : type < 5) : methodName type = .str (verbOf type) ∧ CStr (.str (verbOf type)) (verbOf type) = emp := by
  rcases type with _ | _ | _ | _ | _ | type
  · exact ⟨rfl, CStr_lit (by decide) (by decide)⟩
  · exact ⟨rfl, CStr_lit (by decide) (by decide)⟩
  · exact ⟨rfl, CStr_lit (by decide) (by decide)⟩
  · exact ⟨rfl, CStr_lit (by decide) (by decide)⟩
  · exact ⟨rfl, CStr_lit (by decide) (by decide)⟩
  · omega

/-- the outcome of sending -/
def SendE (rel W : Prop) (x : Args) (path : Text) (hs : Hdrs) (w : Wire) (r : Res) (w' : Wire) : Prop :=
  (4096 ≤ (requestLine x path).length ∧ r = .stringProcessingError ∧ w' = w) ∨ ((requestLine x path).length < 4096 ∧ Sends rel W (pieces x path hs) w r w')

theorem send_spec {c : Nat} {w : Wire} {buf : Ptr} {x : Args} {rp : CharPtr} {path : Text} {hd : Ptr} {hs : Hdrs} {p : CharPtr} {len : Nat}
    (ht : x.type < 5) (hl : ∀ p ∈ hs, (headerLine p).length < 2 ^ 31) (hbl : x.body.length < 2 ^ 31) (hlen : p ≠ .null → len = x.body.length) :
    Triple rel (Con c (some w) ∗ Arr buf ∗ CStr rp path ∗ HdrR hd hs ∗ ContentR p x.content) (send lib c buf (methodName x.type) rp hd hs.length p len)
      (fun r => ∃∃ w' : Wire, (SendE rel W x path hs w r w') ⋏ Con c (some w') ∗ Arr buf ∗ CStr rp path ∗ HdrR hd hs ∗ ContentR p x.content) := by
  unfold send
  refine Triple.know (know_Content (p := p) (c := x.content) (by pick)) fun hp => ?_
  refine Triple.know (know_CStr (s := rp) (t := path) (by pick)) fun hnp => ?_
  obtain ⟨e1, e3⟩ := method_lit ht
  rw [e1]
  have h1 := cstr_spec (rel := rel) (s := .str (verbOf x.type)) (t := verbOf x.type)
  simp only [e3] at h1
  refine Triple.pre (?_ : Triple rel (emp ∗ (Con c (some w) ∗ Arr buf ∗ CStr rp path ∗ HdrR hd hs ∗ ContentR p x.content)) _ _) (by rw [emp_sep]; exact entails_refl _)
  step h1
  step (cstr_spec (s := rp) (t := path))
  have et : verbOf x.type ++ [32] ++ path ++ text " HTTP/1.1" ++ [13, 10] = requestLine x path := rfl
  rw [et]
  dsimp only
  conv => arg 2; rw [Arr_eq]
  hoist; intro b hb
  step (storeN_spec' (p := buf) (b := b) (off := 0) (vs := bytesV ((requestLine x path).take (TEMP_BUFFER_SIZE - 1) ++ [0])) (by simp [bytesV]; omega))
  have hlen' : ∀ b', b'.length = 4096 → ∀ {w' : Wire}, Con c (some w') ∗ (buf ↦ b') ∗ CStr rp path ∗ HdrR hd hs ∗ ContentR p x.content ⊢ₕ
      Con c (some w') ∗ Arr buf ∗ CStr rp path ∗ HdrR hd hs ∗ ContentR p x.content := fun b' h w' => sep_mono (entails_refl _) (sep_mono (Arr_intro h) (entails_refl _))
  refine Triple.ite (fun h => ?_) fun h => ?_
  · exact Triple.pure (entails_ex_r w (entails_pand_r (entails_trans (by sep_cancel) (hlen' _ (by rw [patch_length (by simp [bytesV]; omega)]; exact hb))) (.inl ⟨h, rfl, rfl⟩)))
  have h : (requestLine x path).length < 4096 := Nat.lt_of_not_le h
  rw [List.take_of_length_le (by omega)]
  have hnul : NoNul (requestLine x path) := by
    have := hnp.2.1
    unfold requestLine NoNul
    intro hm
    simp only [List.mem_append] at hm
    rcases hm with (((hm | hm) | hm) | hm) | hm
    · have : NoNul (verbOf x.type) := by
        unfold verbOf; split <;> decide
      exact this hm
    · revert hm; decide
    · exact this hm
    · revert hm; decide
    · revert hm; decide
  have hpt : patch b 0 (bytesV (requestLine x path ++ [0])) = bytesV (requestLine x path ++ [0]) ++ b.drop ((requestLine x path).length + 1) := by
    unfold patch; simp [bytesV]
  have hpl : (bytesV (requestLine x path ++ [0]) ++ b.drop ((requestLine x path).length + 1)).length = 4096 := by
    simp [bytesV]; omega
  rw [hpt]
  step (pts_reads (p := buf) (off := 0) (vs := bytesV (requestLine x path ++ [0]) ++ b.drop ((requestLine x path).length + 1)) (by omega) (At_of hnul _).cstr).strlen
  rw [toI32_small (by omega)]
  step (sendAll_c H (c := c) (w := w) (bs := requestLine x path) rfl (by omega) (Bytes.pts (p := buf) (b := bytesV (requestLine x path ++ [0]) ++ b.drop ((requestLine x path).length + 1)) (by
    simp [bytesV, List.append_assoc]))) into r1
  intro w1 hp1
  refine Triple.ite (fun hr1 => ?_) fun hr1 => ?_
  · exact Triple.pure (entails_ex_r w1 (entails_pand_r (entails_trans (by sep_cancel) (hlen' _ hpl)) (.inr ⟨h, .fail hp1.any⟩)))
  have hS := sendHeaders_spec H (c := c) (hd := hd) (hs := hs) hl hs.length 0 w1 (by omega)
  rw [List.drop_zero] at hS
  step hS into r2
  intro w2 hs2
  refine Triple.ite (fun hr2 => ?_) fun hr2 => ?_
  · exact Triple.pure (entails_ex_r w2 (entails_pand_r (entails_trans (by sep_cancel) (hlen' _ hpl)) (.inr ⟨h, .next (hp1.good hr1) (hs2.stop hr2)⟩)))
  have hr2 : r2 = .ok := Decidable.not_not.1 hr2
  subst hr2
  have t2 := sendAll_c H (c := c) (w := w2) (n := 2) (bs := [13, 10]) rfl (by decide) (Bytes.lit (l := [13, 10]))
  simp only [sep_emp] at t2
  step t2 into r3
  intro w3 hp3
  have done : ∀ {r : Res} {w' : Wire}, Sends rel W (tailPieces x.body) w2 r w' → SendE rel W x path hs w r w' :=
    fun hT => .inr ⟨h, .next (hp1.good hr1) (hs2.append hT)⟩
  refine Triple.ite (fun hr3 => ?_) fun hr3 => ?_
  · exact Triple.pure (entails_ex_r w3 (entails_pand_r (entails_trans (by sep_cancel) (hlen' _ hpl)) (done (.fail hp3.any))))
  have hiff : (p ≠ .null ∧ len > 0) ↔ x.body ≠ [] := by
    constructor
    · rintro ⟨h1, h2⟩ h3
      rw [hlen h1, h3] at h2; exact absurd h2 (by simp)
    · intro h
      have : p ≠ .null := by
        intro hn
        unfold Args.body at h
        rw [hp.1.1 hn] at h; exact h rfl
      refine ⟨this, ?_⟩
      rw [hlen this]
      exact List.length_pos_iff.2 h
  by_cases hbd : x.body = []
  · rw [if_neg (by rw [hiff]; simpa using hbd)]
    exact Triple.pure (entails_ex_r w3 (entails_pand_r (entails_trans (by sep_cancel) (hlen' _ hpl)) (done (by
      unfold tailPieces; rw [if_pos hbd]; exact .next (hp3.good hr3) .nil))))
  · rw [if_pos (hiff.2 hbd), hlen (hiff.2 hbd).1, toI32_small hbl]
    obtain ⟨bs, hbs⟩ : ∃ bs, x.content = some bs := by
      cases hc : x.content with
      | none => unfold Args.body at hbd; rw [hc] at hbd; exact absurd rfl hbd
      | some bs => exact ⟨bs, rfl⟩
    have hxb : x.body = bs := by unfold Args.body; rw [hbs]; rfl
    have eC : ContentR p x.content = Data p bs := by
      rw [hbs, show ContentR p (some bs) = ((p ≠ .null) ⋏ Data p bs) from rfl, eq_true (hiff.2 hbd).1, true_pand]
    rw [eC] at hlen' ⊢
    step (sendAll_c H (c := c) (w := w3) (bs := x.body) rfl hbl (by rw [hxb]; exact Bytes.data (hiff.2 hbd).1)) into r4
    intro w4 hp4
    refine Triple.ite (fun hr4 => ?_) fun hr4 => ?_
    · exact Triple.pure (entails_ex_r w4 (entails_pand_r (entails_trans (by sep_cancel) (hlen' _ hpl)) (done (by
        unfold tailPieces; rw [if_neg hbd]; exact .next (hp3.good hr3) (.fail hp4.any)))))
    · exact Triple.pure (entails_ex_r w4 (entails_pand_r (entails_trans (by sep_cancel) (hlen' _ hpl)) (done (by
        unfold tailPieces; rw [if_neg hbd]; exact .next (hp3.good hr3) (.next (hp4.good hr4) .nil)))))
end
end Verif.Mb
