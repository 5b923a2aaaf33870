import Verif.Wce.HookProps
import Verif.Curl.Demo
set_option linter.unusedSimpArgs false
set_option linter.unusedVariables false
/-! # C110, C111: the certificate of a server -/
namespace Verif.Wce
open Verif.Sas (text)
open Verif.Mb (Bytes)

variable {rel : Prop} {api : Crypto} {R : CReps} {Decodes : Text → Cert → Prop}

/-- the memory around a call: the options, the certificate of the server -/
def Around (R : CReps) (opt g chain d : Nat) (bs : Text) (tr : List CEv) : HProp :=
  R.Net tr ∗ g ↦ [.int opt] ∗ chain ↦ [.int bs.length, .ptr d] ∗ d ↦ bytesV bs

/-- A call: it was made in a state that meets what is assumed of the memory, it returned `r`, and these were its calls of the CryptoAPI. -/
structure HookRun (rel : Prop) (api : Crypto) (R : CReps) (opt type : Nat) (bs : Text) (s : St) (r : Verdict) (evs : List CEv) : Prop where
  run : ∃ g chain d tr F s', d ≠ 0 ∧ Heap.fin s.heap ∧ (rel → Reliable s.alloc) ∧ (Around R opt g chain d bs tr ∗ F) s.heap ∧
    SSLValidateCertHook api g type chain s = some (.ok (r, s')) ∧ Heap.fin s'.heap ∧ (Around R opt g chain d bs (tr ++ evs) ∗ F) s'.heap

section
variable (H : CHonours rel api R Decodes)
include H

/-- Every call returns, and what it says and does is `HookE`. -/
theorem hook_returns {opt g type chain d : Nat} {bs : Text} {tr : List CEv} {F : HProp} {s : St} (hd : d ≠ 0) (hf : Heap.fin s.heap) (hr : rel → Reliable s.alloc)
    (hp : (Around R opt g chain d bs tr ∗ F) s.heap) : ∃ r evs, HookRun rel api R opt type bs s r evs ∧ HookE rel Decodes opt type bs r evs := by
  obtain ⟨r, s', e, h1, h2, h3⟩ := SSLValidateCertHook_spec H (opt := opt) (type := type) hd s F hf hr hp
  rw [hex_sep] at h3
  obtain ⟨evs, h3⟩ := h3
  rw [pand_sep] at h3
  obtain ⟨h4, h5⟩ := h3
  exact ⟨r, evs, ⟨g, chain, d, tr, F, s', hd, hf, hr, hp, e, h1, h5⟩, h4⟩

/-- With the strict check, that is the default, a certificate is accepted only if a store has a certificate with its issuer and serial number.
(The full property, that a store has this very certificate, is false: `forged`.) -/
theorem strict_partial {type chain g d : Nat} {bs : Text} {tr : List CEv} {F : HProp} {s : St} (hd : d ≠ 0) (hf : Heap.fin s.heap) (hr : rel → Reliable s.alloc)
    (hp : (Around R 2 g chain d bs tr ∗ F) s.heap) : ∃ r evs, HookRun rel api R 2 type bs s r evs ∧
      (r = .okay → ∃ c, Decodes bs c ∧ ∃ e ∈ known evs, e.issuer = c.issuer ∧ e.serial = c.serial) := by
  obtain ⟨r, evs, h1, h2⟩ := hook_returns H (type := type) hd hf hr hp
  refine ⟨r, evs, h1, ?_⟩
  rintro rfl
  unfold HookE at h2
  by_cases ht : type = 1
  · rw [if_neg (by simp [ht]), if_neg (by decide)] at h2
    rcases h2 with ⟨h, _⟩ | ⟨c, hc, _, _, ⟨_, e, he, hv⟩ | ⟨h, _⟩⟩
    · cases h
    · rcases hv with ⟨h, _⟩ | ⟨_, h⟩
      · cases h
      · exact ⟨c, hc, e, he, h⟩
    · cases h
  · rw [if_pos ht] at h2; cases h2.1

/-- Nothing is accepted without a look at the stores unless checks are switched off: with any other option a certificate that is accepted has the issuer of one in a store. -/
theorem checked {opt type chain g d : Nat} {bs : Text} {tr : List CEv} {F : HProp} {s : St} (ho : opt ≠ 0) (hd : d ≠ 0) (hf : Heap.fin s.heap) (hr : rel → Reliable s.alloc)
    (hp : (Around R opt g chain d bs tr ∗ F) s.heap) : ∃ r evs, HookRun rel api R opt type bs s r evs ∧
      (r = .okay → type = 1 ∧ ∃ c, Decodes bs c ∧ ∃ e ∈ known evs, e.issuer = c.issuer) := by
  obtain ⟨r, evs, h1, h2⟩ := hook_returns H (type := type) hd hf hr hp
  refine ⟨r, evs, h1, ?_⟩
  rintro rfl
  unfold HookE at h2
  by_cases ht : type = 1
  · rw [if_neg (by simp [ht]), if_neg ho] at h2
    rcases h2 with ⟨h, _⟩ | ⟨c, hc, _, _, ⟨_, e, he, hv⟩ | ⟨h, _⟩⟩
    · cases h
    · exact ⟨ht, c, hc, e, he, hv.issuer⟩
    · cases h
  · rw [if_pos ht] at h2; cases h2.1

/-- A certificate that is in a store that can be opened is accepted by the strict check: if it is not, all three stores were tried, and none of those that could be opened has it. -/
theorem refused (hrel : rel) {chain g d : Nat} {bs : Text} {tr : List CEv} {F : HProp} {s : St} (hd : d ≠ 0) (hf : Heap.fin s.heap) (hr : Reliable s.alloc)
    (hp : (Around R 2 g chain d bs tr ∗ F) s.heap) : ∃ r evs, HookRun rel api R 2 1 bs s r evs ∧
      (r ≠ .okay → (∀ c, ¬ Decodes bs c) ∨ (tried evs = [text "CA", text "ROOT", text "MY"] ∧ ∃ c, Decodes bs c ∧ c ∉ known evs)) := by
  obtain ⟨r, evs, h1, h2⟩ := hook_returns H (type := 1) hd hf (fun _ => hr) hp
  refine ⟨r, evs, h1, fun hn => ?_⟩
  unfold HookE at h2
  rw [if_neg (by decide), if_neg (by decide)] at h2
  rcases h2 with ⟨_, _, h⟩ | ⟨c, hc, _, _, ⟨h, _⟩ | ⟨_, ht, h⟩⟩
  · exact Or.inl (h hrel)
  · exact absurd h hn
  · exact Or.inr ⟨ht, c, hc, fun hk => h hrel c hk (Or.inr ⟨rfl, rfl, rfl⟩)⟩

/-- Whatever happens, every context and every store that was obtained is released, once, and nothing is used that is not held. -/
theorem hook_tidy {opt g type chain d : Nat} {bs : Text} {tr : List CEv} {F : HProp} {s : St} (hd : d ≠ 0) (hf : Heap.fin s.heap) (hr : rel → Reliable s.alloc)
    (hp : (Around R opt g chain d bs tr ∗ F) s.heap) : ∃ r evs, HookRun rel api R opt type bs s r evs ∧ holdAll [] evs = some [] := by
  obtain ⟨r, evs, h1, h2⟩ := hook_returns H (type := type) hd hf hr hp
  refine ⟨r, evs, h1, ?_⟩
  unfold HookE at h2
  by_cases ht : type = 1
  · rw [if_neg (by simp [ht])] at h2
    by_cases ho : opt = 0
    · rw [if_pos ho] at h2; rw [h2.2]; rfl
    · rw [if_neg ho] at h2
      rcases h2 with ⟨_, h, _⟩ | ⟨c, hc, h, _⟩
      · rw [h]; rfl
      · exact h
  · rw [if_pos ht] at h2; rw [h2.2]; rfl
end

/-! ## A CryptoAPI that meets the contract -/

/-- the certificate of a context of `demoCrypto` -/
def demoCert (L : List Cert) (c : Cert) (p : Nat) : Cert := if p = 5 then c else (L[p - 10]?).getD c

/-- A device with the store `MY`, that has the certificates `L`; every server has the certificate `c`, whose context is 5; the context of the certificate at `i` is `10 + i`. -/
def demoCrypto (L : List Cert) (c : Cert) : Crypto where
  create _ _ := pure 5
  openStore name := pure (if name = text "MY" then 1 else 0)
  find _ q prev :=
    let start := if prev = 0 then 0 else prev - 10 + 1
    let k := (L.drop start).findIdx (fun d => decide (d.issuer = (demoCert L c q).issuer))
    pure (if k < (L.drop start).length then 10 + (start + k) else 0)
  compare p q := pure (decide ((demoCert L c p).issuer = (demoCert L c q).issuer ∧ (demoCert L c p).serial = (demoCert L c q).serial))
  close _ := pure ()
  free _ := pure ()

/-- what a context of `demoCrypto` is -/
def IsCtx (L : List Cert) (c : Cert) (p : Nat) (d : Cert) : Option (Nat × List Cert) → Prop
  | none => p = 5 ∧ d = c
  | some (h, l) => h = 1 ∧ ∃ i, p = 10 + i ∧ L[i]? = some d ∧ l = L.drop (i + 1)

/-- what a store of `demoCrypto` is -/
def IsStore (L : List Cert) (h : Nat) (l : List Cert) : Prop := h = 1 ∧ l = L

/-- contexts and stores of `demoCrypto` -/
def demoCReps (L : List Cert) (c : Cert) : CReps where
  Net _ := emp
  Ctx p d o := (IsCtx L c p d o) ⋏ emp
  Store h l := (IsStore L h l) ⋏ emp

theorem demo_Net {L : List Cert} {c : Cert} {tr : List CEv} : (demoCReps L c).Net tr = emp := rfl
theorem demo_Ctx {L : List Cert} {c d : Cert} {p : Nat} {o : Option (Nat × List Cert)} : (demoCReps L c).Ctx p d o = ((IsCtx L c p d o) ⋏ emp) := rfl
theorem demo_Store {L l : List Cert} {c : Cert} {h : Nat} : (demoCReps L c).Store h l = ((IsStore L h l) ⋏ emp) := rfl

theorem IsCtx.cert {L : List Cert} {c d : Cert} {p : Nat} {o : Option (Nat × List Cert)} (h : IsCtx L c p d o) : demoCert L c p = d := by
  unfold demoCert
  cases o with
  | none => obtain ⟨rfl, rfl⟩ := h; simp
  | some x =>
    obtain ⟨h, l⟩ := x
    obtain ⟨_, i, rfl, hi, _⟩ := h
    rw [if_neg (by omega), show 10 + i - 10 = i by omega, hi]; rfl

theorem demo_find {L : List Cert} {c e : Cert} {q prev start : Nat} {o : Option (Nat × List Cert)} {tr : List CEv} {l : List Cert} (hq : IsCtx L c q e o)
    (hs : start = if prev = 0 then 0 else prev - 10 + 1) (hl : l = L.drop start) :
    emp ⊢ₕ Found rel (demoCReps L c) 1 q prev e L l o tr
      (if (L.drop start).findIdx (fun d => decide (d.issuer = (demoCert L c q).issuer)) < (L.drop start).length
        then 10 + (start + (L.drop start).findIdx (fun d => decide (d.issuer = (demoCert L c q).issuer))) else 0) := by
  rw [hq.cert, ← hl]
  generalize hk : l.findIdx (fun d => decide (d.issuer = e.issuer)) = k
  unfold Found
  by_cases h : k < l.length
  · rw [if_pos h, if_neg (by omega)]
    have hg : l[k]? = some l[k] := List.getElem?_eq_getElem h
    have hi : (l[k]).issuer = e.issuer := by
      have := List.findIdx_getElem (p := fun d : Cert => decide (d.issuer = e.issuer)) (xs := l) (w := by rw [hk]; exact h)
      simpa [hk] using this
    refine entails_ex_r l[k] (entails_ex_r (l.take k) (entails_ex_r (l.drop (k + 1)) (entails_pand_r ?_ ⟨?_, hi, ?_⟩)))
    · simp only [demo_Net, demo_Ctx, demo_Store, sep_pand, pand_sep, emp_sep]
      refine entails_pand_r (entails_pand_r (entails_pand_r (entails_refl _) ?_) ?_) ?_
      all_goals first
        | exact ⟨rfl, rfl⟩
        | exact hq
        | (refine ⟨rfl, start + k, rfl, ?_, ?_⟩
           · rw [← hg, hl, List.getElem?_drop]
           · rw [hl, List.drop_drop]; congr 1)
    · rw [← List.drop_eq_getElem_cons h, List.take_append_drop]
    · intro d hd hde
      obtain ⟨j, hj, rfl⟩ := List.mem_iff_getElem.1 hd
      rw [List.getElem_take] at hde
      have hjk : j < k := by rw [List.length_take] at hj; omega
      have := List.not_of_lt_findIdx (p := fun d : Cert => decide (d.issuer = e.issuer)) (xs := l) (i := j) (by rw [hk]; exact hjk)
      simp [hde] at this
  · rw [if_neg h, if_pos rfl]
    refine entails_pand_r ?_ fun _ d hd hde => h ?_
    · simp only [demo_Net, demo_Ctx, demo_Store, sep_pand, pand_sep, emp_sep]
      refine entails_pand_r (entails_pand_r (entails_refl _) ?_) ?_
      all_goals first
        | exact ⟨rfl, rfl⟩
        | exact hq
    · rw [← hk]
      exact List.findIdx_lt_length_of_exists ⟨d, hd, by simp [hde]⟩

theorem demo_chonours (L : List Cert) (c : Cert) : CHonours rel (demoCrypto L c) (demoCReps L c) (fun _ d => d = c) where
  create V s bs tr _ := by
    refine Triple.pure ?_
    rw [if_neg (by decide)]
    refine entails_ex_r c (entails_pand_r ?_ rfl)
    simp only [demo_Net, demo_Ctx, demo_Store, sep_pand, pand_sep, emp_sep]
    exact entails_pand_r (entails_refl _) ⟨rfl, rfl⟩
  openStore name tr := by
    refine Triple.pure ?_
    by_cases h : name = text "MY"
    · rw [if_pos h, if_neg (by decide)]
      refine entails_ex_r L ?_
      simp only [demo_Net, demo_Ctx, demo_Store, sep_pand, pand_sep, emp_sep]
      exact entails_pand_r (entails_refl _) ⟨rfl, rfl⟩
    · rw [if_neg h, if_pos rfl]; exact entails_refl _
  first h l q e o tr := by
    simp only [demo_Net, demo_Ctx, demo_Store, sep_pand, pand_sep, emp_sep]
    hoist
    intro hq hs
    obtain ⟨rfl, rfl⟩ := hs
    exact Triple.pure (demo_find (start := 0) hq (if_pos rfl).symm rfl)
  next h all q e o p d l tr hp := by
    simp only [demo_Net, demo_Ctx, demo_Store, sep_pand, pand_sep, emp_sep]
    hoist
    intro hp' hq hs
    obtain ⟨rfl, rfl⟩ := hs
    obtain ⟨_, i, rfl, hi, rfl⟩ := hp'
    have e1 : (if 10 + i = 0 then 0 else 10 + i - 10 + 1) = i + 1 := by rw [if_neg (by omega)]; omega
    have := demo_find (rel := rel) (prev := 10 + i) (start := i + 1) (tr := tr) hq e1.symm rfl
    refine Triple.pure ?_
    simp only [e1]
    exact this
  compare p d o q e o' tr := by
    simp only [demo_Net, demo_Ctx, demo_Store, sep_pand, pand_sep, emp_sep]
    hoist
    intro hp hq
    refine Triple.pure (entails_pand_r (entails_pand_r (entails_pand_r (entails_refl _) ?_) ?_) ?_)
    all_goals first
      | exact hp
      | exact hq
      | (rw [hp.cert, hq.cert]; simp)
  close h l tr := by
    simp only [demo_Net, demo_Ctx, demo_Store, sep_pand, pand_sep, emp_sep]
    hoist
    intros
    exact Triple.pure (entails_refl _)
  free p d o tr := by
    simp only [demo_Net, demo_Ctx, demo_Store, sep_pand, pand_sep, emp_sep]
    hoist
    intros
    exact Triple.pure (entails_refl _)

/-! ## Runs -/

/-- one round of `hookFind` -/
def findBody (api : Crypto) (rec : Ptr → Ptr → Ptr → Ptr → M (Bool × Ptr)) (g h q prev : Ptr) : M (Bool × Ptr) := do
  let p ← api.find h q prev
  if p ≠ 0 then do
    let o ← loadInt g 0
    if o = 1 then pure (true, p) else
    if o = 2 then do
      let b ← api.compare p q
      if b then pure (true, p) else rec g h q p
    else rec g h q p
  else pure (false, p)
theorem findBody_eq (api : Crypto) : hookFind api = findBody api (hookFind api) := by
  funext g h q prev
  rw [hookFind]; rfl

/-- `hookStores` on top of a search -/
def storesF (api : Crypto) (find : Ptr → Ptr → Ptr → Ptr → M (Bool × Ptr)) (g q : Ptr) : List Text → Ptr → M (Bool × Ptr)
  | [], p => pure (false, p)
  | name :: names, p => do
    let h ← api.openStore name
    if h = 0 then storesF api find g q names p else do
    let x ← find g h q 0
    api.close h
    if x.1 then pure x else storesF api find g q names x.2
theorem storesF_eq (api : Crypto) (g q : Ptr) : ∀ names p, hookStores api g q names p = storesF api (hookFind api) g q names p := by
  intro names
  induction names with
  | nil => intro p; rfl
  | cons n names ih =>
    intro p
    unfold hookStores storesF
    simp only [ih]

/-- a state with the options, and a certificate of one byte -/
noncomputable def hookSt (opt : Nat) : St :=
  { heap := fun p => if p = 1000 then some [.int opt] else if p = 1001 then some [.int 1, .ptr 1002] else if p = 1002 then some [.byte 48] else none,
    alloc := fun t h _ => Curl.freshAt t h, tick := 0 }

theorem hookSt_fin {opt : Nat} : (hookSt opt).heap.fin := ⟨1003, fun p hp => by
  have h1 : p ≠ 1000 := by omega
  have h2 : p ≠ 1001 := by omega
  have h3 : p ≠ 1002 := by omega
  simp [hookSt, h1, h2, h3]⟩

theorem hookSt_around {opt : Nat} {L : List Cert} {c : Cert} : (Around (demoCReps L c) opt 1000 1001 1002 [48] [] ∗ emp) (hookSt opt).heap := by
  have key : (1000 ↦ [.int opt] ∗ 1001 ↦ [.int 1, .ptr 1002] ∗ 1002 ↦ [.byte 48] ∗ emp) (hookSt opt).heap := by
    refine Curl.peel rfl ⟨by decide, (by show 1 ≤ maxObj; decide), rfl⟩ (Curl.peel rfl ⟨by decide, by decide, rfl⟩ (Curl.peel rfl ⟨by decide, by decide, rfl⟩ ?_))
    funext p
    simp only [hookSt]
    by_cases h1 : p = 1000
    · subst h1; rfl
    by_cases h2 : p = 1001
    · subst h2; rfl
    by_cases h3 : p = 1002
    · subst h3; rfl
    simp [h1, h2, h3, Heap.empty]
  have e : (Around (demoCReps L c) opt 1000 1001 1002 [48] [] ∗ emp) = (1000 ↦ [.int opt] ∗ 1001 ↦ [.int 1, .ptr 1002] ∗ 1002 ↦ [.byte 48] ∗ emp) := by
    unfold Around
    rw [demo_Net, emp_sep]; simp only [sep_assoc]; rfl
  rw [e]; exact key

/-- certificates: of a device, and one made by somebody else -/
def mine : Cert := ⟨text "CA1", [1], text "key 1"⟩
def other : Cert := ⟨text "CA1", [2], text "key 2"⟩
def fake : Cert := ⟨text "CA1", [2], text "key of a thief"⟩

/-- the run: two rounds of the search -/
theorem hook_at (L : List Cert) (c : Cert) (type : Nat) (opt : Nat) : outcome (SSLValidateCertHook (demoCrypto L c) 1000 type 1001) (hookSt opt) =
    outcome (do
      if type ≠ 1 then pure Verdict.certUnknown else do
      let o ← loadInt 1000 0
      if o = 0 then pure .okay else do
      let d ← loadPtr 1001 1
      let n ← loadInt 1001 0
      let q ← (demoCrypto L c).create (.ofPtr d) n
      if q = 0 then pure .failed else do
      let x ← storesF (demoCrypto L c) (findBody (demoCrypto L c) (findBody (demoCrypto L c) (findBody (demoCrypto L c) (hookFind (demoCrypto L c))))) 1000 q systemStores 0
      if x.2 ≠ 0 then do
        (demoCrypto L c).free x.2
        (demoCrypto L c).free q
        pure (if x.1 then .okay else .noCert)
      else do
        (demoCrypto L c).free q
        pure (if x.1 then .okay else .noCert)) (hookSt opt) := by
  unfold SSLValidateCertHook
  rw [← findBody_eq, ← findBody_eq, ← findBody_eq]
  simp only [storesF_eq]

/-- a certificate that is in the store, after another of the same issuer, is accepted -/
theorem hook_accepts : outcome (SSLValidateCertHook (demoCrypto [mine, other] other) 1000 1 1001) (hookSt 2) = some (.ok .okay) := by
  rw [hook_at]; decide +kernel
/-- one that is not is not -/
theorem hook_refuses : outcome (SSLValidateCertHook (demoCrypto [mine] other) 1000 1 1001) (hookSt 2) = some (.ok .noCert) := by
  rw [hook_at]; decide +kernel
/-- but it is with the check of the issuer only -/
theorem hook_issuer : outcome (SSLValidateCertHook (demoCrypto [mine] other) 1000 1 1001) (hookSt 1) = some (.ok .okay) := by
  rw [hook_at]; decide +kernel

/-- The full property of `strict_partial` is false: a certificate with another key, that no store has, is accepted by the strict check, as it has the issuer and the serial number of one in a store. -/
theorem forged : ∃ (L : List Cert) (c : Cert), c ∉ L ∧ CHonours True (demoCrypto L c) (demoCReps L c) (fun _ d => d = c) ∧
    (Around (demoCReps L c) 2 1000 1001 1002 [48] [] ∗ emp) (hookSt 2).heap ∧
    outcome (SSLValidateCertHook (demoCrypto L c) 1000 1 1001) (hookSt 2) = some (.ok .okay) :=
  ⟨[mine, other], fake, by decide, demo_chonours _ _, hookSt_around, by rw [hook_at]; decide +kernel⟩

/-- what the theorems assume is met -/
theorem hook_demo : ∃ r evs, HookRun False (demoCrypto [mine, other] other) (demoCReps [mine, other] other) 2 1 [48] (hookSt 2) r evs ∧
    HookE False (fun _ d => d = other) 2 1 [48] r evs :=
  hook_returns (demo_chonours _ _) (by decide) hookSt_fin (fun h => h.elim) hookSt_around

end Verif.Wce
