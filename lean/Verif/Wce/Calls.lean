import Verif.Wce.Spec
import Verif.Mb.Calls
/-! # The calls of `httpapi_wince.c` -/
set_option linter.unusedSimpArgs false
set_option linter.unusedVariables false
namespace Verif.Wce
open Verif.Headers (Hdrs HdrR OHdr HTTPHeaders_GetHeaderCount_spec know_OHdr)
open Verif.Buffer (Content OBuf)
open Verif.Curl (Args StatR ContentR OutX OutX_eq ArgsR ArgsR_eq know_Content CStr_lit)
open Verif.Map (know_Arg)
open Verif.Ti (know_Stat At_of)
open Verif.Sas (text)
open Verif.Crt (strcpy_s_spec_partial Within)
open Verif.Mb (Wire Bytes Stream requestLine headerLine pieces Sends Says Filled Reply Arr Arr_eq Arr_intro Cell SendE send_spec receive_spec cstrV_set new_step Sendable verbOf method_lit methodName toI32_small)
variable {rel : Prop} {lib : Lib} {g : Ptr} {Net : List Ev → HProp} {Sk : Nat → Option Wire → HProp} {At : Nat → Text → Prop} {Peer : Text → Wire → Prop} {W : Prop} {J : Res → Prop}

/-- the number in a handle -/
def fdOf : Option (Nat × Option Wire) → Nat
  | none => INVALID
  | some (fd, _) => fd

/-- the socket of a handle -/
def SockR (Sk : Nat → Option Wire → HProp) : Option (Nat × Option Wire) → HProp
  | none => emp
  | some (fd, w) => (fd ≠ INVALID) ⋏ Sk fd w

/-- the memory of a handle -/
def Mem (h : Ptr) (host : Text) (fd : Nat) : HProp :=
  ∃∃ b : Block, (b.length = 66 ∧ cstrV b = some host ∧ host.length < 64 ∧ b[64]? = some (.int fd)) ⋏ h ↦ b
theorem Mem_eq {h : Ptr} {host : Text} {fd : Nat} : Mem h host fd =
  ∃∃ b : Block, (b.length = 66 ∧ cstrV b = some host ∧ host.length < 64 ∧ b[64]? = some (.int fd)) ⋏ h ↦ b := rfl

/-- a handle -/
def HandleR (Sk : Nat → Option Wire → HProp) (h : Ptr) (o : Obj) : HProp := Mem h o.host (fdOf o.sock) ∗ SockR Sk o.sock
theorem HandleR_eq {h : Ptr} {o : Obj} : HandleR Sk h o = (Mem h o.host (fdOf o.sock) ∗ SockR Sk o.sock) := rfl

/-- `g_SslOptions`: strict validation -/
def Opt (g : Ptr) : HProp := g ↦ [.int 2]

abbrev OHandle (Sk : Nat → Option Wire → HProp) (h : Ptr) (a : Option Obj) : HProp := ORep (HandleR Sk) h a

/-- what `socket` gives -/
def NewS (Net : List Ev → HProp) (Sk : Nat → Option Wire → HProp) (tr : List Ev) (s : Nat) : HProp := if s = INVALID then Net tr else Net (tr ++ [.socket s]) ∗ Sk s none

theorem know_OHandle {p : Ptr} {a : Option Obj} {P F : HProp} (pk : Pick P (OHandle Sk p a) F) : ∀ h, P h → (p = 0 ↔ a = none) := by
  intro h hp
  unfold Pick at pk; rw [pk] at hp
  cases a with
  | none => simp only [OHandle, ORep_none, pand_sep] at hp; simp [hp.1]
  | some c =>
    rw [OHandle, ORep_some, HandleR_eq, Mem_eq] at hp
    simp only [hex_sep, pand_sep, sep_assoc] at hp
    obtain ⟨b, _, hp⟩ := hp
    have := know_pts (p := p) (φ := p ≠ 0) (P := (p ↦ b) ∗ (SockR Sk c.sock ∗ F)) (by pick) (fun h1 _ => h1) h hp
    simp [this]

theorem fd_spec {h : Ptr} {t : Text} {fd : Nat} : Triple rel (Mem h t fd) (loadInt h fFd) (fun r => (r = fd) ⋏ Mem h t fd) := by
  conv => arg 2; rw [Mem_eq]
  hoist; intro b hl hc hlen hfd
  last (loadInt_spec (p := h) hfd)
  rw [sep_emp]
  refine entails_pand_l fun e => entails_pand_r ?_ e
  exact entails_ex_r b (entails_pand_r (entails_refl _) ⟨hl, hc, hlen, hfd⟩)

theorem set_fd {h : Ptr} {t : Text} {fd fd' : Nat} : Triple rel (Mem h t fd) (store h fFd (.int fd')) (fun _ => Mem h t fd') := by
  rw [Mem_eq]
  hoist; intro b hl hc hlen hfd
  last (store_spec (p := h) (b := b) (off := fFd) (v := .int fd') (by simp [fFd, hl]))
  rw [sep_emp]
  exact entails_ex_r (b.set fFd (.int fd')) (entails_pand_r (entails_refl _) ⟨by simp [hl], cstrV_set hc (by simp only [fFd]; omega), hlen, by simp [fFd, hl]⟩)

theorem set_addr {h : Ptr} {t : Text} {fd a : Nat} : Triple rel (Mem h t fd) (store h fAddr (.int a)) (fun _ => Mem h t fd) := by
  conv => arg 2; rw [Mem_eq]
  hoist; intro b hl hc hlen hfd
  last (store_spec (p := h) (b := b) (off := fAddr) (v := .int a) (by simp [fAddr, hl]))
  rw [sep_emp]
  exact entails_ex_r (b.set fAddr (.int a)) (entails_pand_r (entails_refl _) ⟨by simp [hl], cstrV_set hc (by simp only [fAddr]; omega), hlen, by
    rw [List.getElem?_set_ne (by simp [fAddr])]; exact hfd⟩)

theorem cstr_host {h : Ptr} {t : Text} {fd : Nat} : Triple rel (Mem h t fd) (cstr (.heap h 0)) (fun r => (r = t) ⋏ Mem h t fd) := by
  conv => arg 2; rw [Mem_eq]
  hoist; intro b hl hc hlen hfd
  have hrd : Reads (h ↦ b) (.heap h 0) t := pts_reads (by omega) (by simpa using hc)
  last hrd.cstr
  rw [sep_emp]
  refine entails_pand_l fun e => entails_pand_r ?_ e
  exact entails_ex_r b (entails_pand_r (entails_refl _) ⟨hl, hc, hlen, hfd⟩)

section
variable (H : Honours rel lib g Net Sk At Peer W J)
include H

theorem resolve_spec {h : Ptr} {t : Text} {fd : Nat} : Triple rel (Mem h t fd) (lib.resolve (.heap h 0)) (fun a => (∀ x, a = some x → At x t) ⋏ Mem h t fd) := by
  conv => arg 2; rw [Mem_eq]
  hoist; intro b hl hc hlen hfd
  have hrd : Reads (h ↦ b) (.heap h 0) t := pts_reads (by omega) (by simpa using hc)
  last (H.resolve _ _ _ hrd)
  rw [sep_emp]
  refine entails_pand_l fun e => entails_pand_r ?_ e
  exact entails_ex_r b (entails_pand_r (entails_refl _) ⟨hl, hc, hlen, hfd⟩)

/-- `SSLInit` on a socket: success with all three, or the calls up to the one that failed -/
theorem SSLInit_spec {fd v : Nat} {tr : List Ev} :
    Triple rel (Net tr ∗ Sk fd none ∗ g ↦ [.int v]) (SSLInit lib g fd SSL_OPT_DEFAULT)
      (fun e => ∃∃ evs : List Ev, ((e = 0 ∧ evs = ready fd) ∨
        (e ≠ 0 ∧ evs ∈ [[.secure fd false], [.secure fd true, .hook fd false], [.secure fd true, .hook fd true, .tls fd false]])) ⋏ Net (tr ++ evs) ∗ Sk fd none ∗ Opt g) := by
  unfold SSLInit
  step (store_spec (p := g) (b := [.int v]) (off := 0) (v := .int SSL_OPT_DEFAULT) (by simp))
  rw [show (g ↦ [Val.int SSL_OPT_DEFAULT]) = Opt g from rfl]
  step (H.secure fd tr) into r1
  refine Triple.ite (fun h1 => ?_) fun h1 => ?_
  · subst h1
    refine Triple.last H.lastError (by fr) fun e => ?_
    simp only [pand_sep]
    refine entails_pand_l fun he => entails_ex_r [.secure fd false] (entails_pand_r ?_ (.inr ⟨he, by simp⟩))
    rw [emp_sep]
    simp
    sep_cancel
  simp only [show decide (r1 ≠ -1) = true by simpa using h1]
  step (H.hook fd (tr ++ [.secure fd true])) into r2
  refine Triple.ite (fun h2 => ?_) fun h2 => ?_
  · subst h2
    refine Triple.last H.lastError (by fr) fun e => ?_
    simp only [pand_sep]
    refine entails_pand_l fun he => entails_ex_r [.secure fd true, .hook fd false] (entails_pand_r ?_ (.inr ⟨he, by simp⟩))
    rw [emp_sep]
    simp
    sep_cancel
  simp only [show decide (r2 ≠ -1) = true by simpa using h2]
  step (H.tls fd (tr ++ [.secure fd true] ++ [.hook fd true])) into r3
  refine Triple.ite (fun h3 => ?_) fun h3 => ?_
  · subst h3
    refine Triple.last H.lastError (by fr) fun e => ?_
    simp only [pand_sep]
    refine entails_pand_l fun he => entails_ex_r [.secure fd true, .hook fd true, .tls fd false] (entails_pand_r ?_ (.inr ⟨he, by simp⟩))
    rw [emp_sep]
    simp
    sep_cancel
  simp only [show decide (r3 ≠ -1) = true by simpa using h3]
  refine Triple.pure (entails_ex_r (ready fd) (entails_pand_r ?_ (.inl ⟨rfl, rfl⟩)))
  simp [ready]
  sep_cancel

/-- `SSLInit` without a socket -/
theorem SSLInit_none {v : Nat} : Triple rel (g ↦ [.int v]) (SSLInit lib g INVALID SSL_OPT_DEFAULT) (fun e => (e ≠ 0) ⋏ Opt g) := by
  unfold SSLInit
  step (store_spec (p := g) (b := [.int v]) (off := 0) (v := .int SSL_OPT_DEFAULT) (by simp))
  rw [show (g ↦ [Val.int SSL_OPT_DEFAULT]) = Opt g from rfl]
  step (H.notSocket)
  rw [if_pos rfl]
  refine Triple.last H.lastError (by fr) fun e => ?_
  simp only [pand_sep]
  refine entails_pand_l fun he => entails_pand_r ?_ he
  rw [emp_sep]; sep_cancel

theorem ensureConnected_spec {h : Ptr} {o : Obj} {tr : List Ev} (hd : o.sock = none → conversions o.host < 3) :
    Triple rel (Net tr ∗ Opt g ∗ HandleR Sk h o) (ensureConnected lib g h)
      (fun r => ∃∃ (s : Option (Nat × Option Wire)) (evs : List Ev), (ConnectE J Peer o r s evs) ⋏ Net (tr ++ evs) ∗ Opt g ∗ HandleR Sk h ⟨o.host, s⟩) := by
  unfold ensureConnected
  simp only [HandleR_eq]
  step (fd_spec (h := h) (t := o.host) (fd := fdOf o.sock))
  cases hs : o.sock with
  | some s =>
    obtain ⟨fd, w⟩ := s
    rw [show SockR Sk (some (fd, w)) = ((fd ≠ INVALID) ⋏ Sk fd w) from rfl]
    hoist; intro hf
    rw [show fdOf (some (fd, w)) = fd from rfl, if_pos hf]
    refine Triple.pure (entails_ex_r (some (fd, w)) (entails_ex_r [] (entails_pand_r ?_ (.kept hs))))
    rw [List.append_nil, show SockR Sk (some (fd, w)) = ((fd ≠ INVALID) ⋏ Sk fd w) from rfl, eq_true hf, true_pand, show fdOf (some (fd, w)) = fd from rfl]; sep_cancel
  | none =>
    rw [if_neg (by simp [fdOf]), show SockR Sk none = emp from rfl, sep_emp]
    have hd := hd hs
    step (show Triple rel (Net tr) lib.socket (NewS Net Sk tr) from H.socket tr) into s
    step (set_fd (h := h) (t := o.host) (fd := fdOf none) (fd' := s))
    step (set_addr (h := h) (t := o.host) (fd := s) (a := 0))
    step (cstr_host (h := h) (t := o.host) (fd := s))
    rw [if_neg (by omega)]
    step (resolve_spec H (h := h) (t := o.host) (fd := s)) into a
    intro ha
    by_cases hsi : s = INVALID
    · subst hsi
      rw [show NewS Net Sk tr INVALID = Net tr from if_pos rfl]
      have fin : ∀ {r}, J r → (Net tr ∗ Opt g ∗ Mem h o.host INVALID ⊢ₕ
          ∃∃ (s : Option (Nat × Option Wire)) (evs : List Ev), (ConnectE J Peer o (some r) s evs) ⋏ Net (tr ++ evs) ∗ Opt g ∗ Mem h o.host (fdOf s) ∗ SockR Sk s) := by
        intro r hr
        refine entails_ex_r none (entails_ex_r [] (entails_pand_r ?_ (.noSocket hs hr)))
        rw [List.append_nil, show SockR Sk none = emp from rfl, sep_emp]
        exact entails_refl _
      cases a with
      | none =>
        dsimp only
        step (H.junk) into r
        intro hr
        exact Triple.pure (entails_trans (by sep_cancel) (fin hr))
      | some a =>
        dsimp only
        step (set_addr (h := h) (t := o.host) (fd := INVALID) (a := a))
        rw [show Opt g = (g ↦ [Val.int 2]) from rfl]
        step (SSLInit_none H (v := 2)) into e
        intro he
        rw [if_pos he]
        step (H.junk) into r
        intro hr
        refine Triple.pure (entails_trans ?_ (fin hr))
        sep_cancel
    · rw [show NewS Net Sk tr s = (Net (tr ++ [.socket s]) ∗ Sk s none) from if_neg hsi]
      cases a with
      | none =>
        dsimp only
        step (H.junk) into r
        intro hr
        refine Triple.pure (entails_ex_r (some (s, none)) (entails_ex_r [.socket s] (entails_pand_r ?_ (.noName hs hr))))
        rw [show SockR Sk (some (s, none)) = ((s ≠ INVALID) ⋏ Sk s none) from rfl, eq_true (show s ≠ INVALID from hsi), true_pand, show fdOf (some (s, none)) = s from rfl]; sep_cancel
      | some a =>
        dsimp only
        step (set_addr (h := h) (t := o.host) (fd := s) (a := a))
        rw [show Opt g = (g ↦ [Val.int 2]) from rfl]
        step (SSLInit_spec H (fd := s) (v := 2) (tr := tr ++ [.socket s])) into e
        intro evs he
        rcases he with ⟨rfl, rfl⟩ | ⟨he, hev⟩
        · rw [if_neg (by simp)]
          rw [show Opt g = (g ↦ [Val.int 2]) from rfl]
          step (H.connect s a o.host 443 2 (tr ++ [.socket s] ++ ready s) (ha a rfl)) into r
          intro ow hw
          rcases hw with ⟨hr, rfl⟩ | ⟨hr, w, rfl, hp, ho, hpos⟩
          · rw [if_pos hr, show decide (0 ≤ r) = false by simpa using hr]
            step (H.close s none (tr ++ [.socket s] ++ ready s ++ [.connect s o.host 443 2 false]))
            step (set_fd (h := h) (t := o.host) (fd := s) (fd' := INVALID))
            step (H.junk) into j
            intro hj
            refine Triple.pure (entails_ex_r none (entails_ex_r (.socket s :: ready s ++ [.connect s o.host 443 2 false, .close s]) (entails_pand_r ?_ (.refused hs hj))))
            rw [show SockR Sk none = emp from rfl, sep_emp, show fdOf none = INVALID from rfl]
            simp only [List.append_assoc, List.cons_append, List.nil_append]
            sep_cancel
          · rw [if_neg (by omega), show decide (0 ≤ r) = true by simpa using hr]
            refine Triple.pure (entails_ex_r (some (s, some w)) (entails_ex_r (.socket s :: ready s ++ [.connect s o.host 443 2 true]) (entails_pand_r ?_ (.done hs hp ho hpos))))
            rw [show SockR Sk (some (s, some w)) = ((s ≠ INVALID) ⋏ Sk s (some w)) from rfl, eq_true (show s ≠ INVALID from hsi), true_pand, show fdOf (some (s, some w)) = s from rfl]
            simp only [List.append_assoc, List.cons_append, List.nil_append]
            sep_cancel
        · rw [if_pos he]
          step (H.junk) into r
          intro hr
          refine Triple.pure (entails_ex_r (some (s, none)) (entails_ex_r (.socket s :: evs) (entails_pand_r ?_ (.noTls hs hr hev))))
          rw [show SockR Sk (some (s, none)) = ((s ≠ INVALID) ⋏ Sk s none) from rfl, eq_true (show s ≠ INVALID from hsi), true_pand, show fdOf (some (s, none)) = s from rfl]
          simp only [List.append_assoc, List.cons_append, List.nil_append]
          sep_cancel

/-- sending on a socket that is not connected -/
theorem send_dead {c : Nat} {buf : Ptr} {x : Args} {rp : CharPtr} {path : Text} {hd : Ptr} {n : Nat} {p : CharPtr} {len : Nat} (ht : x.type < 5) :
    Triple rel (Sk c none ∗ Arr buf ∗ CStr rp path) (Mb.send lib.stream c buf (methodName x.type) rp hd n p len)
      (fun r => (r = (if 4096 ≤ (requestLine x path).length then Curl.Res.stringProcessingError else .sendRequestFailed)) ⋏ Sk c none ∗ Arr buf ∗ CStr rp path) := by
  unfold Mb.send
  refine Triple.know (know_CStr (s := rp) (t := path) (by pick)) fun hnp => ?_
  obtain ⟨e1, e3⟩ := method_lit ht
  rw [e1]
  have h1 := cstr_spec (rel := rel) (s := .str (verbOf x.type)) (t := verbOf x.type)
  simp only [e3] at h1
  refine Triple.pre (?_ : Triple rel (emp ∗ (Sk c none ∗ Arr buf ∗ CStr rp path)) _ _) (by rw [emp_sep]; exact entails_refl _)
  step h1
  step (cstr_spec (s := rp) (t := path))
  have et : verbOf x.type ++ [32] ++ path ++ text " HTTP/1.1" ++ [13, 10] = requestLine x path := rfl
  rw [et]
  dsimp only
  conv => arg 2; rw [Arr_eq]
  hoist; intro b hb
  step (storeN_spec' (p := buf) (b := b) (off := 0) (vs := bytesV ((requestLine x path).take (Mb.TEMP_BUFFER_SIZE - 1) ++ [0])) (by simp [bytesV]; omega))
  have hlen' : ∀ b', b'.length = 4096 → Sk c none ∗ (buf ↦ b') ∗ CStr rp path ⊢ₕ
      Sk c none ∗ Arr buf ∗ CStr rp path := fun b' h => sep_mono (entails_refl _) (sep_mono (Arr_intro h) (entails_refl _))
  refine Triple.ite (fun h => ?_) fun h => ?_
  · exact Triple.pure (entails_pand_r (entails_trans (by sep_cancel) (hlen' _ (by rw [patch_length (by simp [bytesV]; omega)]; exact hb))) (by rw [if_pos h]))
  have h : (requestLine x path).length < 4096 := Nat.lt_of_not_le h
  rw [List.take_of_length_le (by omega)]
  have hnul : NoNul (requestLine x path) := by
    have := hnp.2.1
    unfold requestLine NoNul
    intro hm
    simp only [List.mem_append] at hm
    rcases hm with (((hm | hm) | hm) | hm) | hm
    · have : NoNul (verbOf x.type) := by
        unfold verbOf; split <;> decide
      exact this hm
    · revert hm; decide
    · exact this hm
    · revert hm; decide
    · revert hm; decide
  have hpt : patch b 0 (bytesV (requestLine x path ++ [0])) = bytesV (requestLine x path ++ [0]) ++ b.drop ((requestLine x path).length + 1) := by
    unfold patch; simp [bytesV]
  have hpl : (bytesV (requestLine x path ++ [0]) ++ b.drop ((requestLine x path).length + 1)).length = 4096 := by
    simp [bytesV]; omega
  rw [hpt]
  step (pts_reads (p := buf) (off := 0) (vs := bytesV (requestLine x path ++ [0]) ++ b.drop ((requestLine x path).length + 1)) (by omega) (At_of hnul _).cstr).strlen
  rw [toI32_small (by omega)]
  step (H.dead c _ _ (requestLine x path) (by omega) (Bytes.pts (p := buf) (b := bytesV (requestLine x path ++ [0]) ++ b.drop ((requestLine x path).length + 1)) (by
    simp [bytesV, List.append_assoc]))) into r1
  intro hr1
  rw [if_pos hr1]
  exact Triple.pure (entails_pand_r (entails_trans (by sep_cancel) (hlen' _ hpl)) (by rw [if_neg (by omega)]))

/-- a request and its response -/
theorem exchange_spec {fd : Nat} {w : Wire} {buf cp hd st rh rc : Ptr} {rp p : CharPtr} {x : Args} {path : Text} {hs : Hdrs} {len : Nat}
    (hpath : x.path = some path) (hhs : x.hdrs = some hs) (h5 : x.type < 5) (hlen : p ≠ .null → len = x.body.length) (hr : x.rcontent ≠ none → rel) (hS : Sendable x)
    (hA : ∀ w', Sends rel W (pieces x path hs) w .ok w' → ∃ y, Says w'.fin x.rcontent w'.ins y) :
    Triple rel (Sk fd (some w) ∗ Arr buf ∗ Cell cp ∗ ArgsR rp hd p st rh rc x) (exchange lib fd buf cp x.type rp hd hs.length p len st rh rc)
      (fun r => ∃∃ (x' : Args) (w' : Wire), (Exchange rel W x path hs w r x' w') ⋏ Sk fd (some w') ∗ Arr buf ∗ Cell cp ∗ ArgsR rp hd p st rh rc x') := by
  unfold exchange
  conv => arg 2; rw [ArgsR_eq]
  simp only [hpath, hhs, Arg_some, OHdr, ORep_some]
  step (send_spec H.toStream (c := fd) (w := w) (buf := buf) (x := x) (rp := rp) (path := path) (hd := hd) (hs := hs) (p := p) (len := len) h5 (hS.1 hs hhs) hS.2 hlen) into r2
  intro w2 hSE
  refine Triple.ite (fun hr2 => ?_) fun hr2 => ?_
  · refine Triple.pure (entails_ex_r x (entails_ex_r w2 (entails_pand_r ?_ ?_)))
    · simp only [ArgsR_eq, hhs, hpath, ORep_some, Arg_some, OHdr, sep_assoc]; sep_cancel
    · rcases hSE with ⟨h1, h2, h3⟩ | ⟨h1, h2⟩
      · exact .inl ⟨h1, h2, rfl, h3⟩
      · exact .inr ⟨h1, r2, w2, h2, .inl ⟨hr2, rfl, rfl, rfl⟩⟩
  have hr2 : r2 = .ok := Decidable.not_not.1 hr2
  subst hr2
  rcases hSE with ⟨_, h2, _⟩ | ⟨hll, hSE⟩
  · cases h2
  obtain ⟨y, hy⟩ := hA w2 hSE
  last (receive_spec H.toStream (c := fd) (w := w2) (buf := buf) (cp := cp) (st := st) (rh := rh) (rc := rc) hy hr)
  rename_i r
  simp only [hex_sep, pand_sep, sep_assoc]
  refine entails_ex_l fun x' => entails_pand_l fun hx => ?_
  refine entails_ex_r x' (entails_ex_r (w2.to y.body.rest) (entails_pand_r ?_ (.inr ⟨hll, .ok, w2, hSE, .inr ⟨rfl, y, hy, hx.1, hx.2, rfl⟩⟩)))
  obtain ⟨hs', _, ex⟩ := hx.2
  have e1 : x'.path = x.path := by rw [ex]
  have e2 : x'.hdrs = x.hdrs := by rw [ex]
  have e3 : x'.content = x.content := by rw [ex]
  simp only [ArgsR_eq, e1, e2, e3, hhs, hpath, ORep_some, Arg_some, OHdr, sep_assoc]
  sep_cancel

/-- C112–C114: `HTTPAPI_ExecuteRequest` -/
theorem HTTPAPI_ExecuteRequest_spec {buf cp handle hd st rh rc : Ptr} {rp p : CharPtr} {a : Option Obj} {x : Args} {tr : List Ev} {len : Nat}
    (hlen : len = match x.content with | some bs => bs.length | none => x.len) (hr : x.rcontent ≠ none → rel) (hS : Sendable x)
    (hdt : ∀ o, a = some o → o.sock = none → conversions o.host < 3) (hA : ∀ o, a = some o → Answered rel W Peer o x) :
    Triple rel (Net tr ∗ Opt g ∗ OHandle Sk handle a ∗ Arr buf ∗ Cell cp ∗ ArgsR rp hd p st rh rc x)
      (HTTPAPI_ExecuteRequest lib g buf cp handle x.type rp hd p len st rh rc)
      (fun r => ∃∃ (x' : Args) (a' : Option Obj) (evs : List Ev), (ExecE rel W J Peer a x r x' a' evs) ⋏
        Net (tr ++ evs) ∗ Opt g ∗ OHandle Sk handle a' ∗ Arr buf ∗ Cell cp ∗ ArgsR rp hd p st rh rc x') := by
  unfold HTTPAPI_ExecuteRequest
  conv => arg 2; rw [ArgsR_eq]
  refine Triple.know (know_OHandle (Sk := Sk) (p := handle) (a := a) (by pick)) fun k1 => ?_
  refine Triple.know (know_Arg (s := rp) (o := x.path) (by pick)) fun k2 => ?_
  refine Triple.know (know_OHdr (h := hd) (a := x.hdrs) (by pick)) fun k3 => ?_
  refine Triple.know (know_Content (p := p) (c := x.content) (by pick)) fun k4 => ?_
  have km : methodName x.type = .null ↔ 5 ≤ x.type := by
    generalize x.type = t
    match t with
    | 0 | 1 | 2 | 3 | 4 => simp [methodName, CharPtr.str]
    | k + 5 => simp [methodName]
  refine Triple.ite (fun hb => ?_) (fun hb => ?_)
  · rw [k1, k2, k3, km] at hb
    refine Triple.pure (entails_ex_r x (entails_ex_r a (entails_ex_r [] (entails_pand_r (by rw [List.append_nil, ArgsR_eq]; sep_cancel) ?_))))
    unfold ExecE
    split
    · rename_i h2 h3
      rw [if_pos (by simpa [h2, h3] using hb)]; exact ⟨rfl, rfl, rfl, rfl⟩
    · exact ⟨rfl, rfl, rfl, rfl⟩
  rw [k1, k2, k3, km] at hb
  simp only [not_or] at hb
  obtain ⟨h1, h2, h3, h5⟩ := hb
  obtain ⟨o, rfl⟩ := Option.ne_none_iff_exists'.1 h1
  obtain ⟨path, hpath⟩ := Option.ne_none_iff_exists'.1 h2
  obtain ⟨hs, hhs⟩ := Option.ne_none_iff_exists'.1 h3
  have hA := hA o rfl path hs
  have hE : ∀ {r x' a' evs}, (∃ r1 s1, ConnectE J Peer o r1 s1 evs ∧
      ((r1 = some r ∧ x' = x ∧ a' = some ⟨o.host, s1⟩) ∨
       (r1 = none ∧ ∃ fd, s1 = some (fd, none) ∧ r = (if 4096 ≤ (requestLine x path).length then .stringProcessingError else .sendRequestFailed) ∧ x' = x ∧
         a' = some ⟨o.host, some (fd, none)⟩) ∨
       (r1 = none ∧ ∃ fd w w', s1 = some (fd, some w) ∧ Exchange rel W x path hs w r x' w' ∧ a' = some ⟨o.host, some (fd, some w')⟩))) →
      ExecE rel W J Peer (some o) x r x' a' evs := by
    intro r x' a' evs h
    unfold ExecE; rw [hpath, hhs]; dsimp only; rw [if_neg h5]; exact h
  have hgc := HTTPHeaders_GetHeaderCount_spec (rel := rel) (h := hd) (a := x.hdrs) (out := true)
  simp only [hhs] at hgc
  rw [hhs]
  step hgc
  dsimp only
  simp only [OHandle, ORep_some]
  step (ensureConnected_spec H (h := handle) (o := o) (tr := tr) (hdt o rfl)) into r1
  intro s1 evs hC
  cases r1 with
  | some r1 =>
    dsimp only
    refine Triple.pure (entails_ex_r x (entails_ex_r (some ⟨o.host, s1⟩) (entails_ex_r evs (entails_pand_r ?_ (hE ⟨some r1, s1, hC, .inl ⟨rfl, rfl, rfl⟩⟩)))))
    simp only [ArgsR_eq, hhs, ORep_some, OHdr]; sep_cancel
  | none =>
    dsimp only
    obtain ⟨fd, ow, rfl⟩ : ∃ fd ow, s1 = some (fd, ow) := by
      cases hC with
      | @kept s _ => exact ⟨s.1, s.2, rfl⟩
      | done => exact ⟨_, _, rfl⟩
    simp only [HandleR_eq]
    rw [show SockR Sk (some (fd, ow)) = ((fd ≠ INVALID) ⋏ Sk fd ow) from rfl, show fdOf (some (fd, ow)) = fd from rfl]
    hoist; intro hfd
    step (fd_spec (h := handle) (t := o.host) (fd := fd))
    have eh : ∀ ow', ORep (HandleR Sk) handle (some ⟨o.host, some (fd, ow')⟩) = (Mem handle o.host fd ∗ Sk fd ow') := by
      intro ow'
      rw [ORep_some, HandleR_eq, show SockR Sk (some (fd, ow')) = ((fd ≠ INVALID) ⋏ Sk fd ow') from rfl, eq_true hfd, true_pand]; rfl
    cases ow with
    | none =>
      unfold exchange
      simp only [hpath, Arg_some]
      step (send_dead H (c := fd) (buf := buf) (x := x) (rp := rp) (path := path) (hd := hd) (n := hs.length) (p := p) (len := len) (by omega))
      rw [if_pos (by split <;> simp)]
      refine Triple.pure (entails_ex_r x (entails_ex_r (some ⟨o.host, some (fd, none)⟩) (entails_ex_r evs (entails_pand_r ?_ (hE ⟨none, _, hC, .inr (.inl ⟨rfl, fd, rfl, rfl, rfl, rfl⟩)⟩)))))
      simp only [eh, ArgsR_eq, hhs, hpath, Arg_some, ORep_some, OHdr, sep_assoc]
      sep_cancel
    | some w =>
      have hA' : ∀ w', Sends rel W (pieces x path hs) w .ok w' → ∃ y, Says w'.fin x.rcontent w'.ins y := by
        intro w' hw'
        refine hA w w' hpath hhs ?_ hw'
        cases hC with
        | kept h => exact .inl ⟨fd, h⟩
        | done h1 h2 h3 h4 => exact .inr ⟨h1, h2, h3, h4⟩
      have hX := exchange_spec H (fd := fd) (w := w) (buf := buf) (cp := cp) (hd := hd) (st := st) (rh := rh) (rc := rc) (rp := rp) (p := p) (len := len) hpath hhs (by omega) (by
        intro hpn
        obtain ⟨bs, hbs⟩ := Option.ne_none_iff_exists'.1 (fun h => hpn (k4.1.2 h))
        rw [hlen]; unfold Args.body; rw [hbs]; rfl) hr hS hA'
      simp only [ArgsR_eq, hhs] at hX
      last hX
      rename_i r
      simp only [hex_sep, pand_sep, sep_assoc]
      refine entails_ex_l fun x' => entails_ex_l fun w' => entails_pand_l fun hx => ?_
      refine entails_ex_r x' (entails_ex_r (some ⟨o.host, some (fd, some w')⟩) (entails_ex_r evs (entails_pand_r ?_
        (hE ⟨none, _, hC, .inr (.inr ⟨rfl, fd, w, w', rfl, hx, rfl⟩)⟩))))
      simp only [eh, ArgsR_eq, sep_assoc]
      sep_cancel
end

/-- C115: `HTTPAPI_CreateConnection` -/
theorem HTTPAPI_CreateConnection_spec (hr : rel) {s : CharPtr} {host : Option Text} :
    Triple rel (Arg s host) (HTTPAPI_CreateConnection s) (fun p => ∃∃ a : Option Obj, (CreateE host a) ⋏ OHandle Sk p a ∗ Arg s host) := by
  unfold HTTPAPI_CreateConnection
  refine Triple.know (know_Arg (s := s) (o := host) (by pick)) fun k => ?_
  cases host with
  | none =>
    rw [if_neg (by simp [k])]
    refine Triple.pure (entails_ex_r none (entails_pand_r ?_ rfl))
    rw [OHandle, ORep_null, emp_sep]; exact entails_refl _
  | some t =>
    rw [if_pos (by simp [k])]
    refine new_step hr (by decide) (by decide) fun p hp => ?_
    step (storeN_spec' (p := p) (b := List.replicate 66 .undef) (off := 0) (vs := List.replicate 64 (Val.byte 0) ++ [Val.int 0, Val.int 0]) (by simp))
    rw [show patch (List.replicate 66 Val.undef) 0 (List.replicate 64 (.byte 0) ++ [.int 0, .int 0]) = List.replicate 64 (.byte 0) ++ [.int 0, .int 0] from patch_full (by simp)]
    have hs := strcpy_s_spec_partial (rel := rel) (dst := p) (size := Mb.MAX_HOSTNAME) (src := s) (b := List.replicate 64 (.byte 0) ++ [.int 0, .int 0]) (o := some t) (by decide) (by simp [Mb.MAX_HOSTNAME])
    have h64 : Mb.MAX_HOSTNAME = 64 := rfl
    have hfc : fFd = 64 := rfl
    step hs into r
    intro b' hw hc
    have hl : b'.length = 66 := by rw [hw.1]; simp
    rcases hc with ⟨h, _⟩ | ⟨t', h, hlen, rfl, _⟩ | ⟨t', h, hlen, rfl, hc⟩
    · cases h
    · cases h
      rw [if_pos (by decide)]
      step (free_spec (p := p))
      refine Triple.pure (entails_ex_r none (entails_pand_r ?_ ?_))
      · rw [OHandle, ORep_null, emp_sep]; sep_cancel
      · unfold CreateE; dsimp only; rw [if_neg (by omega)]
    · cases h
      rw [if_neg (by simp)]
      step (store_spec (p := p) (b := b') (off := fFd) (v := .int INVALID) (by rw [hl]; decide))
      refine Triple.pure (entails_ex_r (some ⟨t, none⟩) (entails_pand_r ?_ ?_))
      · rw [OHandle, ORep_some, HandleR_eq, Mem_eq]
        simp only [hex_sep, pand_sep]
        refine entails_ex_r (b'.set fFd (.int INVALID)) (entails_pand_r ?_ ⟨by simp [hl], cstrV_set hc (by omega), by omega, by simp [fFd, hl, fdOf]⟩)
        rw [show SockR Sk none = emp from rfl, sep_emp]
        sep_cancel
      · unfold CreateE; dsimp only; rw [if_pos (by omega)]

section
variable (H : Honours rel lib g Net Sk At Peer W J)
include H

/-- C115: `HTTPAPI_CloseConnection` -/
theorem HTTPAPI_CloseConnection_spec {h : Ptr} {a : Option Obj} {tr : List Ev} :
    Triple rel (OHandle Sk h a ∗ Net tr) (HTTPAPI_CloseConnection lib h) (fun _ => Net (tr ++ closing a)) := by
  unfold HTTPAPI_CloseConnection
  refine Triple.know (know_OHandle (Sk := Sk) (p := h) (a := a) (by pick)) fun k => ?_
  cases a with
  | none =>
    rw [if_neg (by simp [k]), OHandle, ORep_none]; hoist; intro
    exact Triple.pure (by rw [show closing none = [] from rfl, List.append_nil]; exact entails_refl _)
  | some o =>
    rw [if_pos (by simp [k]), OHandle, ORep_some, HandleR_eq]
    simp only [sep_assoc]
    step (fd_spec (h := h) (t := o.host) (fd := fdOf o.sock))
    obtain ⟨host, sock⟩ := o
    cases sock with
    | none =>
      rw [if_neg (by simp [fdOf]), Mem_eq]
      hoist; intro b hl hc hlen hfd
      last (free_spec (p := h))
      rw [show closing (some ⟨host, none⟩) = [] from rfl, show SockR Sk none = emp from rfl, List.append_nil]
      simp only [emp_sep]; exact entails_refl _
    | some s =>
      obtain ⟨fd, w⟩ := s
      dsimp only
      rw [show SockR Sk (some (fd, w)) = ((fd ≠ INVALID) ⋏ Sk fd w) from rfl, show fdOf (some (fd, w)) = fd from rfl]
      hoist; intro hf
      rw [if_pos hf]
      step (H.close fd w tr)
      step (set_fd (h := h) (t := host) (fd := fd) (fd' := INVALID))
      rw [Mem_eq]; hoist; intro b hl hc hlen hfd
      last (free_spec (p := h))
      rw [emp_sep]; exact entails_refl _

/-- `HTTPAPI_Init`: WSAStartup, and WSACleanup if the version is another -/
theorem HTTPAPI_Init_spec {tr : List Ev} :
    Triple rel (Net tr) (HTTPAPI_Init lib) (fun r => ∃∃ evs : List Ev, ((r = .ok ∧ evs = [.startup]) ∨ (r = .initFailed ∧ (evs = [] ∨ evs = [.startup, .cleanup]))) ⋏ Net (tr ++ evs)) := by
  unfold HTTPAPI_Init
  step (H.startup tr) into x
  refine Triple.ite (fun h => ?_) fun h => ?_
  · rw [if_neg h]
    exact Triple.pure (entails_ex_r [] (entails_pand_r (by rw [List.append_nil]; exact entails_refl _) (.inr ⟨rfl, .inl rfl⟩)))
  · rw [if_pos (by simpa using h)]
    refine Triple.ite (fun h2 => ?_) fun h2 => ?_
    · step (H.cleanup (tr ++ [.startup]))
      exact Triple.pure (entails_ex_r [.startup, .cleanup] (entails_pand_r (by rw [List.append_assoc]; exact entails_refl _) (.inr ⟨rfl, .inr rfl⟩)))
    · exact Triple.pure (entails_ex_r [.startup] (entails_pand_r (entails_refl _) (.inl ⟨rfl, rfl⟩)))

/-- `HTTPAPI_Deinit` -/
theorem HTTPAPI_Deinit_spec {tr : List Ev} : Triple rel (Net tr) (HTTPAPI_Deinit lib) (fun _ => Net (tr ++ [.cleanup])) := H.cleanup tr
end

/-- C115: `HTTPAPI_CloneOption`: always a failure; NULL is stored -/
theorem HTTPAPI_CloneOption_spec {sn sv : CharPtr} {p : Ptr} {name value : Option Text} {cell : Option Val} :
    Triple rel (StatR p cell ∗ Arg sn name ∗ Arg sv value) (HTTPAPI_CloneOption sn sv p)
      (fun r => (r = .invalidArg) ⋏ StatR p (if name = none ∨ value = none then cell else cell.map fun _ => .ptr 0) ∗ Arg sn name ∗ Arg sv value) := by
  unfold HTTPAPI_CloneOption
  refine Triple.know (know_Arg (s := sn) (o := name) (by pick)) fun k1 => ?_
  refine Triple.know (know_Arg (s := sv) (o := value) (by pick)) fun k2 => ?_
  refine Triple.know (know_Stat (p := p) (v := cell) (by pick)) fun k3 => ?_
  refine Triple.ite (fun hb => ?_) fun hb => ?_
  · rw [k1, k2, k3] at hb
    refine Triple.pure (entails_pand_r ?_ rfl)
    by_cases h : name = none ∨ value = none
    · rw [if_pos h]; exact entails_refl _
    · have : cell = none := by
        simp only [not_or] at h
        rcases hb with h1 | h1 | h1
        · exact absurd h1 h.1
        · exact absurd h1 h.2
        · exact h1
      rw [if_neg h, this]; exact entails_refl _
  · rw [k1, k2, k3] at hb
    simp only [not_or] at hb
    obtain ⟨u, rfl⟩ := Option.ne_none_iff_exists'.1 hb.2.2
    rw [if_neg (by simp [hb.1, hb.2.1]), show StatR p (some u) = (p ↦ [u]) from rfl]
    step (store_spec (p := p) (b := [u]) (off := 0) (v := .ptr 0) (by simp))
    exact Triple.pure (entails_pand_r (entails_refl _) rfl)
end Verif.Wce
