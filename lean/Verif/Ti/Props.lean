import Verif.Ti.Spec
import Verif.Curl.Request
/-! # Connections and requests of `httpapi_tirtos.c` -/
set_option linter.unusedSimpArgs false
set_option linter.unusedVariables false
namespace Verif.Ti
open Verif.Headers (Hdrs HdrR OHdr Pair StoreE HTTPHeaders_GetHeader_spec HTTPHeaders_GetHeaderCount_spec GotHeader line know_OHdr store_header_pair)
open Verif.Buffer (Content Buf OBuf)
open Verif.Curl (Args At strchr_spec StatR ContentR OutX OutX_eq ArgsR ArgsR_eq know_Content CS_of split_colon CStr_lit)
open Verif.Map (CS free_CS know_Arg)
open Verif.Sas (text)
variable {rel : Prop} {lib : Lib} {Net : List Ev → HProp} {Cli : Nat → Nat → HProp}

/-- a client in any state -/
def Conn (Cli : Nat → Nat → HProp) (c : Nat) : HProp := ∃∃ n, Cli c n
theorem Conn_eq {c : Nat} : Conn Cli c = ∃∃ n, Cli c n := rfl

/-- a connection handle is the client -/
def ConnR (Cli : Nat → Nat → HProp) (p : Ptr) (c : Nat) : HProp := (p = c ∧ c ≠ 0) ⋏ Conn Cli c
abbrev OConn (Cli : Nat → Nat → HProp) (h : Ptr) (a : Option Nat) : HProp := ORep (ConnR Cli) h a

/-! The contract, for clients in any state -/
section
variable (H : Honours rel lib Net Cli) {c : Nat} {tr : List Ev}
include H

theorem connect_c {a p : Nat} : Triple rel (Net tr ∗ Conn Cli c) (lib.connect c a p) (fun r => Net (tr ++ [.connect c a p r]) ∗ Conn Cli c) := by
  conv => arg 2; rw [Conn_eq]
  hoist; intro n; exact H.connect c n a p tr
theorem disconnect_c : Triple rel (Net tr ∗ Conn Cli c) (lib.disconnect c) (fun _ => Net (tr ++ [.disconnect c]) ∗ Conn Cli c) := by
  conv => arg 2; rw [Conn_eq]
  hoist; intro n; exact H.disconnect c n tr
theorem delete_c : Triple rel (Net tr ∗ Conn Cli c) (lib.delete c) (fun _ => Net (tr ++ [.delete c])) := by
  conv => arg 2; rw [Conn_eq]
  hoist; intro n; exact H.delete c n tr
theorem sendRequest_c {s t s' t'} : Triple rel (Net tr ∗ Conn Cli c ∗ CStr s t ∗ CStr s' t') (lib.sendRequest c s s')
    (fun r => Net (tr ++ [.request c t t' r]) ∗ Conn Cli c ∗ CStr s t ∗ CStr s' t') := by
  conv => arg 2; rw [Conn_eq]
  hoist; intro n; exact H.sendRequest c n s t s' t' tr
theorem sendField_c {V s t s' t'} (h : Pair V s t s' t') : Triple rel (Net tr ∗ Conn Cli c ∗ V) (lib.sendField c s s' false)
    (fun r => Net (tr ++ [.field c t t' r]) ∗ Conn Cli c ∗ V) := by
  conv => arg 2; rw [Conn_eq]
  hoist; intro n; exact H.sendField c n V s t s' t' tr h
theorem sendLast_c : Triple rel (Net tr ∗ Conn Cli c) (lib.sendField c .null .null true) (fun r => Net (tr ++ [.endFields c r]) ∗ Conn Cli c) := by
  conv => arg 2; rw [Conn_eq]
  hoist; intro n; exact H.sendLast c n tr
theorem sendRequestBody_c {p bs} : Triple rel (Net tr ∗ Conn Cli c ∗ Data p bs) (lib.sendRequestBody c p bs.length)
    (fun r => Net (tr ++ [.body c bs r]) ∗ Conn Cli c ∗ Data p bs) := by
  conv => arg 2; rw [Conn_eq]
  hoist; intro n; exact H.sendRequestBody c n p bs tr
theorem getResponseStatus_c : Triple rel (Net tr ∗ Conn Cli c) (lib.getResponseStatus c) (fun r => Net (tr ++ [.status c r]) ∗ Conn Cli c) := by
  conv => arg 2; rw [Conn_eq]
  hoist; intro n; exact H.getResponseStatus c n tr
end

/-! ## Connections -/

theorem HTTPAPI_CreateConnection_spec (H : Honours rel lib Net Cli) {s : CharPtr} {host : Text} {tr : List Ev} :
    Triple rel (Net tr ∗ CStr s host) (HTTPAPI_CreateConnection lib s)
      (fun p => ∃∃ (a : Option Nat) (evs : List Ev), (CreateE host a evs) ⋏ OConn Cli p a ∗ Net (tr ++ evs) ∗ CStr s host) := by
  unfold HTTPAPI_CreateConnection
  step (H.initSockAddr s host tr) into x
  refine Triple.ite (fun h => ?_) fun h => ?_
  · refine Triple.pure (entails_ex_r none (entails_ex_r _ (entails_pand_r ?_ (.inl ⟨x.1, x.2, h, rfl, rfl⟩))))
    rw [OConn, ORep_null, emp_sep]; exact entails_refl _
  step (H.create _) into c
  by_cases hc : c = 0
  · subst hc
    rw [if_pos rfl, if_pos rfl]
    refine Triple.pure (entails_ex_r none (entails_ex_r _ (entails_pand_r ?_ (.inr ⟨x.1, x.2, by omega, .inl ⟨rfl, rfl⟩⟩))))
    rw [OConn, ORep_null, emp_sep]; simp only [List.append_assoc, List.cons_append, List.nil_append, emp_sep]
    sep_cancel
  rw [if_neg hc, if_neg hc]
  hoist; intro m
  step (H.connect c m x.2 SECURE_PORT _) into e
  intro m2
  refine Triple.ite (fun h2 => ?_) fun h2 => ?_
  · step (H.delete c m2 _)
    refine Triple.pure (entails_ex_r none (entails_ex_r _ (entails_pand_r ?_ (.inr ⟨x.1, x.2, by omega, .inr ⟨c, hc, .inl ⟨e, h2, rfl, rfl⟩⟩⟩))))
    rw [OConn, ORep_null, emp_sep]; simp only [List.append_assoc, List.cons_append, List.nil_append]
    sep_cancel
  · refine Triple.pure (entails_ex_r (some c) (entails_ex_r _ (entails_pand_r ?_ (.inr ⟨x.1, x.2, by omega, .inr ⟨c, hc, .inr ⟨e, by omega, rfl, rfl⟩⟩⟩))))
    rw [OConn, ORep_some]; simp only [List.append_assoc, List.cons_append, List.nil_append]
    refine entails_trans (?_ : _ ⊢ₕ Cli c m2 ∗ _) (sep_mono (entails_pand_r (entails_ex_r m2 (entails_refl _)) ⟨rfl, hc⟩) (entails_refl _))
    sep_cancel

theorem know_OConn {p : Ptr} {a : Option Nat} {P F : HProp} (pk : Pick P (OConn Cli p a) F) : ∀ h, P h → (p = 0 ↔ a = none) := by
  intro h hp
  unfold Pick at pk; rw [pk] at hp
  cases a with
  | none => simp only [OConn, ORep_none, pand_sep] at hp; simp [hp.1]
  | some c =>
    simp only [OConn, ORep_some, ConnR, pand_sep] at hp
    simp [hp.1.1, hp.1.2]

theorem HTTPAPI_CloseConnection_spec (H : Honours rel lib Net Cli) {h : Ptr} {a : Option Nat} {tr : List Ev} :
    Triple rel (OConn Cli h a ∗ Net tr) (HTTPAPI_CloseConnection lib h)
      (fun _ => ∃∃ evs : List Ev, (CloseE a evs) ⋏ Net (tr ++ evs)) := by
  unfold HTTPAPI_CloseConnection
  cases a with
  | none =>
    simp only [OConn, ORep_none]; hoist; rintro rfl
    rw [if_neg (by simp)]
    exact Triple.pure (entails_ex_r [] (entails_pand_r (by rw [List.append_nil]; exact entails_refl _) rfl))
  | some c =>
    simp only [OConn, ORep_some, ConnR, Conn_eq]; hoist; rintro rfl h0 n
    rw [if_pos h0]
    step (H.disconnect h n tr)
    intro m
    last (H.delete h m _)
    refine entails_ex_r [.disconnect h, .delete h] (entails_pand_r ?_ rfl)
    simp only [List.append_assoc, List.cons_append, List.nil_append]
    sep_cancel

/-! ## Splitting a header -/

theorem skipSpaces_spec {p : Ptr} {b : Block} : ∀ (w : Text) (i : Nat), At b i w →
    Triple rel (p ↦ b) (skipSpaces p i) (fun r => (r = i + (w.takeWhile (· = 32)).length) ⋏ p ↦ b) := by
  intro w
  induction w with
  | nil =>
    intro i h
    unfold skipSpaces
    step (loadByte_spec (p := p) h.nul)
    rw [if_neg (by decide)]
    exact Triple.pure (entails_pand_r (entails_refl _) (by simp))
  | cons c w ih =>
    intro i h
    unfold skipSpaces
    step (loadByte_spec (p := p) h.byte)
    by_cases hc : c = 32
    · subst hc
      rw [if_pos rfl]
      refine (ih (i + 1) h.next).conseq (entails_refl _) fun r => entails_pand_l fun hr => entails_pand_r (entails_refl _) ?_
      rw [hr, List.takeWhile_cons_of_pos (by simp), List.length_cons]; omega
    · rw [if_neg hc]
      exact Triple.pure (entails_pand_r (entails_refl _) (by rw [List.takeWhile_cons_of_neg (by simpa using hc)]; rfl))

theorem splitHeader_spec {p : Ptr} {b : Block} {l : Text} (hl : At b 0 l) :
    Triple rel (p ↦ b) (splitHeader p) (fun r => if 58 ∈ l then
      (∃∃ (v : Nat) (b' : Block), (r = some v ∧ b'.length = b.length ∧ At b' 0 (split l).1 ∧ At b' v (split l).2) ⋏ p ↦ b')
      else ((r = none) ⋏ p ↦ b)) := by
  unfold splitHeader
  step (strchr_spec (p := p) (ch := 58) (by decide) l 0 hl)
  by_cases hc : 58 ∈ l
  · simp only [if_pos hc]
    have e := split_colon hc
    obtain ⟨n, hn⟩ : ∃ n, n = l.takeWhile (· ≠ 58) := ⟨_, rfl⟩
    obtain ⟨v, hv⟩ : ∃ v, v = (l.dropWhile (· ≠ 58)).drop 1 := ⟨_, rfl⟩
    rw [← hn, ← hv] at e
    have es : split l = (n, v.dropWhile (· = 32)) := by unfold split; rw [← hn, ← hv]
    rw [es, ← hn]
    have h1 := hl
    rw [e] at h1
    dsimp only
    step (store_spec (p := p) (b := b) (v := .byte 0) (by have := h1.lt; simp at this; omega))
    have hv1 : At (b.set (0 + n.length) (.byte 0)) (0 + n.length + 1) v := h1.skip.next.set_lt (by omega)
    step (skipSpaces_spec v _ hv1)
    refine Triple.pure (entails_ex_r (0 + n.length + 1 + (v.takeWhile (· = 32)).length) (entails_ex_r _ (entails_pand_r (entails_refl _) ?_)))
    refine ⟨rfl, by simp, h1.cut, ?_⟩
    have e2 := (List.takeWhile_append_dropWhile (p := (· = 32)) (l := v)).symm
    have h2 := hv1
    rw [e2] at h2
    exact h2.skip
  · simp only [if_neg hc]
    exact Triple.pure (entails_pand_r (entails_refl _) rfl)

/-! ## Sending -/

theorem At_of {t : Text} (h : NoNul t) (tail : List Val) : At (bytesV (t ++ [0]) ++ tail) 0 t := by
  refine ⟨h, tail, ?_⟩
  simp [bytesV]

theorem At.pair {p : Ptr} {b : Block} {v : Nat} {n w : Text} (h1 : At b 0 n) (h2 : At b v w) : Pair (p ↦ b) (.heap p 0) n (.heap p v) w :=
  Pair.pts (by omega) h1.cstr (by have := h2.lt; omega) h2.cstr

theorem sendHeader_spec (H : Honours rel lib Net Cli) {c : Nat} {p : Ptr} {t : Text} {tr : List Ev} (hn : NoNul t) (hc : 58 ∈ t) :
    Triple rel (Net tr ∗ Conn Cli c ∗ p ↦ bytesV (t ++ [0])) (sendHeader lib c p)
      (fun r => Net (tr ++ [.field c (split t).1 (split t).2 r]) ∗ Conn Cli c) := by
  unfold sendHeader
  have ha : At (bytesV (t ++ [0])) 0 t := by have := At_of hn []; rwa [List.append_nil] at this
  have hs := splitHeader_spec (rel := rel) (p := p) ha
  simp only [if_pos hc] at hs
  step hs
  intro v b' hr hl h1 h2
  subst hr
  dsimp only
  step (sendField_c H (At.pair h1 h2)) into r
  step (free_spec (p := p))
  exact Triple.pure (by sep_cancel)

theorem linesOf_take {hs : Hdrs} {i : Nat} {t : Text} (h : line hs i = some t) : linesOf (hs.take (i + 1)) = t :: linesOf (hs.take i) := by
  unfold line at h
  obtain ⟨p, hp, rfl⟩ := Option.map_eq_some_iff.1 h
  unfold linesOf
  rw [List.take_add_one, hp]
  simp

theorem sendHeaders_spec (H : Honours rel lib Net Cli) {c : Nat} {hd : Ptr} {hs : Hdrs} : ∀ (n : Nat) (tr : List Ev), n ≤ hs.length →
    Triple rel (Net tr ∗ Conn Cli c ∗ HdrR hd hs) (sendHeaders lib c hd n)
      (fun r => ∃∃ evs : List Ev, (FieldsE rel c (linesOf (hs.take n)) r evs) ⋏ Net (tr ++ evs) ∗ Conn Cli c ∗ HdrR hd hs) := by
  intro n
  induction n with
  | zero =>
    intro tr _
    unfold sendHeaders
    exact Triple.pure (entails_ex_r [] (entails_pand_r (by rw [List.append_nil]; exact entails_refl _) ⟨rfl, rfl⟩))
  | succ n ih =>
    intro tr hle
    unfold sendHeaders
    have hlt : n < hs.length := hle
    obtain ⟨t, ht⟩ : ∃ t, line hs n = some t := by
      unfold line; rw [List.getElem?_eq_getElem hlt]; exact ⟨_, rfl⟩
    rw [linesOf_take ht]
    have hc58 : 58 ∈ t := by
      unfold line at ht
      obtain ⟨p, hp, rfl⟩ := Option.map_eq_some_iff.1 ht
      simp
    have hg := HTTPHeaders_GetHeader_spec (rel := rel) (h := hd) (a := some hs) (i := n) (out := true)
    simp only [OHdr, ORep_some] at hg
    step hg into x
    have eg : GotHeader rel (some hs) n true x = if x = (.error, some 0) then ((¬ rel ∨ maxObj < t.length + 1) ⋏ emp)
      else ∃∃ p : Nat, (p ≠ 0 ∧ x = (.ok, some p) ∧ NoNul t) ⋏ p ↦ bytesV (t ++ [0]) := by
      unfold GotHeader; dsimp only; rw [ht]
    rw [eg]
    by_cases hx : x = (.error, some 0)
    · rw [if_pos hx]; hoist; intro hr
      subst hx
      exact Triple.pure (entails_ex_r [] (entails_pand_r (by rw [List.append_nil]; sep_cancel) (.inl ⟨rfl, rfl, hr⟩)))
    · rw [if_neg hx]; hoist; intro p hp hx2 hn
      subst hx2
      dsimp only
      step (sendHeader_spec H hn hc58) into e
      refine Triple.ite (fun he => ?_) fun he => ?_
      · exact Triple.pure (entails_ex_r _ (entails_pand_r (by sep_cancel) (.inr (.inl ⟨e, he, rfl, rfl⟩))))
      · refine (ih (tr ++ [.field c (split t).1 (split t).2 e]) (by omega)).conseq (by sep_cancel) fun r => ?_
        refine entails_ex_l fun evs => entails_pand_l fun hE => entails_ex_r (.field c (split t).1 (split t).2 e :: evs) (entails_pand_r ?_
          (.inr (.inr ⟨e, evs, by omega, rfl, hE⟩)))
        rw [List.append_assoc]; exact entails_refl _

theorem method_lit {type : Nat} (h : type < 5) : ∃ l, getHttpMethod type = .str l ∧ l = verbOf type ∧ CStr (.str l) (verbOf type) = emp := by
  rcases type with _ | _ | _ | _ | _ | type
  · exact ⟨_, rfl, rfl, CStr_lit (by decide) (by decide)⟩
  · exact ⟨_, rfl, rfl, CStr_lit (by decide) (by decide)⟩
  · exact ⟨_, rfl, rfl, CStr_lit (by decide) (by decide)⟩
  · exact ⟨_, rfl, rfl, CStr_lit (by decide) (by decide)⟩
  · exact ⟨_, rfl, rfl, CStr_lit (by decide) (by decide)⟩
  · omega

theorem send_spec (H : Honours rel lib Net Cli) {c type : Nat} {rp : CharPtr} {path : Text} {hd : Ptr} {hs : Hdrs} {p : CharPtr} {o : Option Text} {len : Nat}
    {tr : List Ev} (ht : type < 5) (hlen : p ≠ .null → len = (o.getD []).length) :
    Triple rel (Net tr ∗ Conn Cli c ∗ CStr rp path ∗ HdrR hd hs ∗ ContentR p o) (send lib c type rp hd hs.length p len)
      (fun r => ∃∃ evs : List Ev, (SendE rel c (verbOf type) path (linesOf hs) (o.getD []) r evs) ⋏
        Net (tr ++ evs) ∗ Conn Cli c ∗ CStr rp path ∗ HdrR hd hs ∗ ContentR p o) := by
  unfold send
  refine Triple.know (know_Content (p := p) (c := o) (by pick)) fun hp => ?_
  obtain ⟨l, e1, e2, e3⟩ := method_lit ht
  rw [e1]
  have h1 := sendRequest_c H (c := c) (s := .str l) (t := verbOf type) (s' := rp) (t' := path) (tr := tr)
  simp only [e3, emp_sep] at h1
  step h1 into e
  refine Triple.ite (fun he => ?_) fun he => ?_
  · exact Triple.pure (entails_ex_r _ (entails_pand_r (by sep_cancel) (.inl ⟨e, he, rfl, rfl⟩)))
  have h2 := sendHeaders_spec H (c := c) (hd := hd) (hs := hs) hs.length (tr ++ [.request c (verbOf type) path e]) (Nat.le_refl _)
  rw [List.take_length] at h2
  step h2 into r1
  intro evs1 hF
  refine Triple.ite (fun hr => ?_) fun hr => ?_
  · refine Triple.pure (entails_ex_r _ (entails_pand_r ?_ (.inr ⟨e, r1, evs1, by omega, hF, .inl ⟨hr, rfl, rfl⟩⟩)))
    simp only [List.append_assoc, List.cons_append, List.nil_append]
    sep_cancel
  have hr : r1 = .ok := Decidable.not_not.1 hr
  subst hr
  have fin : ∀ {r evs2}, TailE c (o.getD []) r evs2 → Net (tr ++ [Ev.request c (verbOf type) path e] ++ evs1 ++ evs2) ∗ Conn Cli c ∗ CStr rp path ∗ HdrR hd hs ∗ ContentR p o ⊢ₕ
      ∃∃ evs : List Ev, (SendE rel c (verbOf type) path (linesOf hs) (o.getD []) r evs) ⋏
        Net (tr ++ evs) ∗ Conn Cli c ∗ CStr rp path ∗ HdrR hd hs ∗ ContentR p o := by
    intro r evs2 hT
    refine entails_ex_r _ (entails_pand_r ?_ (.inr ⟨e, .ok, evs1, by omega, hF, .inr ⟨rfl, evs2, hT, rfl⟩⟩))
    simp only [List.append_assoc, List.cons_append, List.nil_append]
    exact entails_refl _
  step (sendLast_c H (c := c)) into e2
  refine Triple.ite (fun he2 => ?_) fun he2 => ?_
  · exact Triple.pure (entails_trans (by sep_cancel) (fin (.inl ⟨e2, he2, rfl, rfl⟩)))
  have hiff : (p ≠ .null ∧ len ≠ 0) ↔ o.getD [] ≠ [] := by
    constructor
    · rintro ⟨h1, h2⟩ h3
      rw [hlen h1, h3] at h2; exact h2 rfl
    · intro h
      have : p ≠ .null := by
        intro hn
        rw [hp.1.1 hn] at h; exact h rfl
      refine ⟨this, ?_⟩
      rw [hlen this]
      simpa using h
  by_cases hb : o.getD [] = []
  · rw [if_neg (by rw [hiff]; simpa using hb)]
    exact Triple.pure (entails_trans (by sep_cancel) (fin (.inr ⟨e2, by omega, .inl ⟨hb, rfl, rfl⟩⟩)))
  · rw [if_pos (hiff.2 hb), hlen (hiff.2 hb).1]
    obtain ⟨bs, hbs⟩ : ∃ bs, o = some bs := by
      cases o with
      | none => exact absurd rfl hb
      | some bs => exact ⟨bs, rfl⟩
    subst hbs
    rw [Option.getD_some] at hb fin ⊢
    refine Triple.pre (?_ : Triple rel (Net (tr ++ [Ev.request c (verbOf type) path e] ++ evs1 ++ [.endFields c e2]) ∗ Conn Cli c ∗ Data p bs ∗ CStr rp path ∗ HdrR hd hs) _ _) (by
      rw [ContentR]; simp only [sep_pand]; exact entails_pand_l fun _ => by sep_cancel)
    have hd : ∀ {r evs2}, TailE c bs r evs2 → Net (tr ++ [Ev.request c (verbOf type) path e] ++ evs1 ++ evs2) ∗ Conn Cli c ∗ Data p bs ∗ CStr rp path ∗ HdrR hd hs ⊢ₕ
        ∃∃ evs : List Ev, (SendE rel c (verbOf type) path (linesOf hs) bs r evs) ⋏
        Net (tr ++ evs) ∗ Conn Cli c ∗ CStr rp path ∗ HdrR hd hs ∗ ContentR p (some bs) := fun hT => by
      refine entails_trans ?_ (fin hT)
      rw [ContentR]; simp only [sep_pand]; exact entails_pand_r (by sep_cancel) (hiff.2 hb).1
    step (sendRequestBody_c H (c := c) (bs := bs)) into e3
    have hT : TailE c bs (if e3 < 0 then .sendRequestFailed else .ok) [.endFields c e2, .body c bs e3] := .inr ⟨e2, by omega, .inr ⟨hb, e3, rfl, rfl⟩⟩
    refine Triple.ite (fun h3 => ?_) fun h3 => ?_
    · rw [if_pos h3] at hT
      refine Triple.pure (entails_trans ?_ (hd hT))
      simp only [List.append_assoc, List.cons_append, List.nil_append]; sep_cancel
    · rw [if_neg h3] at hT
      refine Triple.pure (entails_trans ?_ (hd hT))
      simp only [List.append_assoc, List.cons_append, List.nil_append]; sep_cancel

end Verif.Ti
