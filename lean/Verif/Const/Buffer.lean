import Verif.Hist
import Verif.Buffer.Props
/-!
# Model of `/repo/src/constbuffer.c` and `/repo/inc/azure_c_shared_utility/refcount.h`, and C14 for one thread

A `CONSTBUFFER_HANDLE` is the address of a block with three slots: `alias.buffer`, `alias.size` (constbuffer.c:17-20) and the
reference count (refcount.h:44-49).  The count is a `uint32_t`, updated modulo `2^32` by the gcc intrinsics (refcount.h:96-99).
-/
set_option linter.unusedSimpArgs false
set_option linter.unusedVariables false
namespace Verif.Const
open Verif Verif.Buffer
variable {rel : Prop}

/-- `UINT32_MAX + 1` -/
abbrev u32 : Nat := 4294967296

/-- refcount.h:98 `INC_REF` (`__sync_add_and_fetch`): one atomic action -/
def incRef (h off : Nat) : M Nat := do
  let n ← loadInt h off
  store h off (.int ((n + 1) % u32))
  pure ((n + 1) % u32)

/-- refcount.h:99 `DEC_REF` (`__sync_sub_and_fetch`): one atomic action -/
def decRef (h off : Nat) : M Nat := do
  let n ← loadInt h off
  store h off (.int ((n + u32 - 1) % u32))
  pure ((n + u32 - 1) % u32)

abbrev cBuffer : Nat := 0
abbrev cSize : Nat := 1
abbrev cCount : Nat := 2

/-- constbuffer.c:24-68 (refcount.h:50-58 inlined) -/
def CONSTBUFFER_Create_Internal (source : CharPtr) (size : Nat) : M Ptr := do
  let result ← mallocS 3
  if result = 0 then pure 0
  else
    store result cCount (.int 1)
    store result cSize (.int size)
    if size = 0 then
      store result cBuffer (.ptr 0)
      pure result
    else
      let temp ← malloc size
      if temp = 0 then
        free result
        pure 0
      else
        memcpy temp 0 source size
        store result cBuffer (.ptr temp)
        pure result

/-- constbuffer.c:70-87 -/
def CONSTBUFFER_Create (source : CharPtr) (size : Nat) : M Ptr :=
  if source = .null ∧ size ≠ 0 then pure 0
  else CONSTBUFFER_Create_Internal source size

/-- constbuffer.c:90-104 -/
def CONSTBUFFER_CreateFromBuffer (buffer : Ptr) : M Ptr := do
  if buffer = 0 then pure 0
  else
    let p ← BUFFER_u_char buffer
    let n ← BUFFER_length buffer
    CONSTBUFFER_Create_Internal (.ofPtr p) n

/-- constbuffer.c:106-119 -/
def CONSTBUFFER_Clone (handle : Ptr) : M Ptr := do
  if handle = 0 then pure handle
  else
    let _ ← incRef handle cCount
    pure handle

/-- constbuffer.c:121-136: the address of the `alias` field, which is that of the handle -/
def CONSTBUFFER_GetContent (handle : Ptr) : M Ptr :=
  if handle = 0 then pure 0 else pure handle

/-- constbuffer.c:138-152 -/
def CONSTBUFFER_Destroy (handle : Ptr) : M Unit := do
  if handle ≠ 0 then
    let n ← decRef handle cCount
    if n = 0 then
      let b ← loadPtr handle cBuffer
      free b
      free handle
    else pure ()
  else pure ()

/-- what a client reads through the returned `const CONSTBUFFER*`: `size` and the bytes at `buffer` (not part of the library) -/
def readContent (alias : Ptr) : M (List Val) := do
  let n ← loadInt alias cSize
  let b ← loadPtr alias cBuffer
  if n = 0 then pure [] else loadN b 0 n

/-! ## Representation and contracts -/

/-- storage of the contents: none if empty -/
def Store (p : Ptr) (vs : Block) : HProp := if vs = [] then ((p = 0) ⋏ emp) else p ↦ vs

/-- handle `h` with contents `vs` and `n` references -/
def CB (h : Ptr) (n : Nat) (vs : Block) : HProp :=
  ∃∃ p : Nat, (n < u32) ⋏ h ↦ [.ptr p, .int vs.length, .int n] ∗ Store p vs

theorem know_CB {h n : Nat} {vs : Block} {P F : HProp} (pk : Pick P (CB h n vs) F) : ∀ hp, P hp → h ≠ 0 ∧ n < u32 := by
  intro hp hP; unfold Pick at pk; rw [pk, CB, hex_sep] at hP
  obtain ⟨p, hP⟩ := hP
  rw [pand_sep, sep_assoc] at hP
  obtain ⟨hn, x, y, _, _, h1, _⟩ := hP
  exact ⟨h1.1, hn⟩

theorem incRef_spec {h off n : Nat} {b : Block} (hb : b[off]? = some (.int n)) (hn : n + 1 < u32) :
    Triple rel (h ↦ b) (incRef h off) (fun r => (r = n + 1) ⋏ h ↦ b.set off (.int (n + 1))) := by
  unfold incRef
  have hl : off < b.length := by obtain ⟨h1, _⟩ := List.getElem?_eq_some_iff.1 hb; exact h1
  step (loadInt_spec (p := h) (b := b) hb)
  step (store_spec (p := h) (b := b) hl)
  rw [Nat.mod_eq_of_lt hn]
  exact Triple.pure (entails_pand_r (entails_refl _) rfl)

theorem decRef_spec {h off n : Nat} {b : Block} (hb : b[off]? = some (.int (n + 1))) (hn : n + 1 < u32) :
    Triple rel (h ↦ b) (decRef h off) (fun r => (r = n) ⋏ h ↦ b.set off (.int n)) := by
  unfold decRef
  have hl : off < b.length := by obtain ⟨h1, _⟩ := List.getElem?_eq_some_iff.1 hb; exact h1
  have e : (n + 1 + u32 - 1) % u32 = n := by simp only [u32] at *; omega
  step (loadInt_spec (p := h) (b := b) hb)
  step (store_spec (p := h) (b := b) hl)
  rw [e]
  exact Triple.pure (entails_pand_r (entails_refl _) rfl)

/-- creation from any readable storage `C` from which `memcpy` reads the slots `vs` -/
theorem create_internal {source : CharPtr} {vs : Block} {C : HProp} (hl : vs.length ≤ maxObj)
    (cp : ∀ (dst : Nat) (b : Block), b.length = vs.length → vs ≠ [] → Triple rel (dst ↦ b ∗ C) (memcpy dst 0 source vs.length) (fun _ => dst ↦ vs ∗ C)) :
    Triple rel C (CONSTBUFFER_Create_Internal source vs.length) (fun r => Made (fun h v => CB h 1 v) (¬ rel) (· = vs) r ∗ C) := by
  unfold CONSTBUFFER_Create_Internal
  refine Triple.mallocS (by omega) (fun hr => ?_) (fun r hr => ?_)
  · rw [if_pos rfl]; exact Triple.pure (Made_fail_sep hr (entails_refl _))
  rw [if_neg hr]; hoist
  step (store_spec (p := r) ?_)
  step (store_spec (p := r) ?_)
  by_cases h0 : vs.length = 0
  · have : vs = [] := List.eq_nil_of_length_eq_zero h0
    subst this
    rw [if_pos h0]
    step (store_spec (p := r) ?_)
    refine Triple.pure (Made_ok_sep [] hr rfl (sep_mono ?_ (entails_refl _)))
    refine entails_ex_r 0 (entails_pand_r ?_ (by decide))
    simp only [Store, if_true, true_pand, eq_self, sep_emp]
    exact entails_refl _
  · rw [if_neg h0]
    have hne : vs ≠ [] := fun h => h0 (by simp [h])
    refine Triple.malloc (fun hr' => ?_) (fun b hb _ => ?_)
    · rw [if_pos rfl]
      step (free_spec (p := r))
      exact Triple.pure (Made_fail_sep (hr'.resolve_right (by omega)) (entails_refl _))
    · rw [if_neg hb]
      step (cp b (List.replicate vs.length .undef) (by simp) hne)
      step (store_spec (p := r) ?_)
      refine Triple.pure (Made_ok_sep vs hr rfl ?_)
      unfold CB
      rw [hex_sep]
      refine entails_ex_r b ?_
      rw [pand_sep]
      refine entails_pand_r ?_ (by decide)
      rw [Store, if_neg hne]
      sep_cancel

/-- C14: `CONSTBUFFER_Create` copies the source into a buffer with one reference, or returns NULL (allocation refused). -/
theorem CONSTBUFFER_Create_spec {source : CharPtr} {bs : List UInt8} :
    Triple rel (Data source bs) (CONSTBUFFER_Create source bs.length)
      (fun r => Made (fun h v => CB h 1 v) (¬ rel) (· = bytesV bs) r ∗ Data source bs) := by
  unfold CONSTBUFFER_Create
  refine Triple.know (know_Data (by pick)) fun hlen => ?_
  by_cases hs : source = .null
  · subst hs
    refine Triple.know (φ := bs = []) (fun hp hP => ?_) fun hb => ?_
    · exact hP.1
    subst hb
    rw [if_neg (by simp)]
    exact create_internal (vs := bytesV []) (by simp [bytesV]) (fun _ _ _ h => absurd rfl h)
  rw [if_neg (by simp [hs])]
  have := create_internal (rel := rel) (source := source) (vs := bytesV bs) (C := Data source bs) (by simpa [bytesV] using hlen) (by
    intro dst b hb _
    have := memcpy_data (rel := rel) (dst := dst) (off := 0) (n := (bytesV bs).length) (src := source) (b := b) (bs := bs) (by simp [bytesV]) (by omega)
    rw [List.take_of_length_le (by simp [bytesV]), patch_full hb.symm] at this
    exact this)
  simpa [bytesV] using this

/-- a NULL source with a nonzero size is refused -/
theorem CONSTBUFFER_Create_null {n : Nat} (h : n ≠ 0) : Triple rel emp (CONSTBUFFER_Create .null n) (fun r => (r = 0) ⋏ emp) := by
  unfold CONSTBUFFER_Create
  rw [if_pos ⟨rfl, h⟩]
  exact Triple.pure (entails_pand_r (entails_refl _) rfl)

/-- the contents of a BUFFER as slots -/
def slots : Content → Block
  | none => []
  | some vs => vs

/-- C14: `CONSTBUFFER_CreateFromBuffer` copies the contents of the buffer. -/
theorem CONSTBUFFER_CreateFromBuffer_spec {g : Ptr} {a : Option Content} :
    Triple rel (OBuf g a) (CONSTBUFFER_CreateFromBuffer g)
      (fun r => Made (fun h v => CB h 1 v) (a = none ∨ ¬ rel) (fun v => ∃ c, a = some c ∧ v = slots c) r ∗ OBuf g a) := by
  unfold CONSTBUFFER_CreateFromBuffer
  have mono : ∀ {r : Nat} {c : Content}, Made (fun h v => CB h 1 v) (¬ rel) (· = slots c) r ⊢ₕ
      Made (fun h v => CB h 1 v) (some c = none ∨ ¬ rel) (fun v => ∃ c', some c = some c' ∧ v = slots c') r := by
    intro r c
    by_cases h : r = 0
    · subst h; rw [Made_zero, Made_zero]; exact entails_pand_l fun hb => entails_pand_r (entails_refl _) (Or.inr hb)
    · rw [Made_ne h, Made_ne h]
      exact entails_ex_l fun x => entails_pand_l fun hx => entails_ex_r x (entails_pand_r (entails_refl _) ⟨c, rfl, hx⟩)
  cases a with
  | none =>
    simp only [OBuf_none]; hoist; rintro rfl
    rw [if_pos rfl]
    exact Triple.pure (Made_fail_sep (Or.inl (by simp)) (entails_pand_r (entails_refl _) rfl))
  | some c =>
    refine Triple.know (OBuf_some_ne (by pick)) fun hne => ?_
    rw [if_neg hne]
    cases c with
    | none =>
      step (BUFFER_u_char_spec (h := g)) into p
      simp only [BufAt]; hoist; rintro rfl
      have := BUFFER_length_spec (rel := rel) (h := g) (a := some none)
      simp only [OBuf_some, Buf_none] at this
      step this
      have hc := create_internal (rel := rel) (source := .null) (vs := []) (C := g ↦ [.ptr 0, .int 0]) (by simp) (fun _ _ _ h => absurd rfl h)
      refine hc.conseq (entails_refl _) fun r => ?_
      simp only [OBuf_some, Buf_none]
      exact sep_mono (mono (c := none)) (entails_refl _)
    | some vs =>
      step (BUFFER_u_char_spec (h := g)) into p
      simp only [BufAt]
      refine Triple.know (know_pts (p := p) (φ := p ≠ 0 ∧ vs.length ≤ maxObj) (by pick) fun h1 h2 => ⟨h1, h2⟩) fun hp => ?_
      have hlen : Triple rel (g ↦ [.ptr p, .int vs.length] ∗ p ↦ vs) (BUFFER_length g) (fun r => (r = vs.length) ⋏ g ↦ [.ptr p, .int vs.length] ∗ p ↦ vs) := by
        unfold BUFFER_length
        rw [if_neg hne]
        last (loadInt_spec (p := g) ?_)
        rename_i r
        rw [pand_sep]; exact entails_refl _
      step hlen
      rw [ofPtr_ne hp.1]
      have hc := create_internal (rel := rel) (source := .heap p 0) (vs := vs) (C := g ↦ [.ptr p, .int vs.length] ∗ p ↦ vs) hp.2 (by
        intro dst b hb _
        have := memcpy_heap (rel := rel) (dst := dst) (p := p) (off := 0) (o := 0) (n := vs.length) (b := b) (vs := vs) (by simp) (by omega)
        rw [List.drop_zero, List.take_length, patch_full hb.symm] at this
        refine (this.frame (g ↦ [.ptr p, .int vs.length])).conseq (by sep_cancel) fun _ => by rw [sep_assoc]; sep_cancel)
      refine hc.conseq (entails_refl _) fun r => ?_
      refine sep_mono (mono (c := some vs)) ?_
      simp only [OBuf_some, Buf_some]
      exact entails_ex_r p (entails_refl _)

/-- C14: `CONSTBUFFER_Clone` returns the same handle with one more reference. -/
theorem CONSTBUFFER_Clone_spec {h n : Nat} {vs : Block} (hn : n + 1 < u32) :
    Triple rel (CB h n vs) (CONSTBUFFER_Clone h) (fun r => (r = h) ⋏ CB h (n + 1) vs) := by
  unfold CONSTBUFFER_Clone
  refine Triple.know (know_CB (h := h) (by pick)) fun hk => ?_
  rw [if_neg hk.1]; simp only [CB]; hoist; intro p _
  step (incRef_spec (h := h) (off := cCount) (n := n) (b := [.ptr p, .int vs.length, .int n]) rfl hn)
  refine Triple.pure (entails_pand_r (entails_ex_r p (entails_pand_r ?_ hn)) rfl)
  exact entails_refl _

/-- C14: `CONSTBUFFER_Destroy` gives back one reference; the memory is returned with the last one, not earlier. -/
theorem CONSTBUFFER_Destroy_spec {h n : Nat} {vs : Block} :
    Triple rel (CB h (n + 1) vs) (CONSTBUFFER_Destroy h) (fun _ => Sh CB h (n, vs)) := by
  unfold CONSTBUFFER_Destroy
  refine Triple.know (know_CB (h := h) (by pick)) fun hk => ?_
  rw [if_pos hk.1]; simp only [CB]; hoist; intro p hn
  step (decRef_spec (h := h) (off := cCount) (n := n) (b := [.ptr p, .int vs.length, .int (n + 1)]) rfl hn)
  refine Triple.ite (fun h0 => ?_) (fun h0 => ?_)
  · subst h0
    step (loadPtr_spec (p := h) ?_)
    simp only [Sh, if_true]
    by_cases hv : vs = []
    · rw [Store, if_pos hv]; hoist; rintro rfl
      step free_null_spec
      last (free_spec (p := h))
      rw [sep_emp]; exact entails_refl _
    · rw [Store, if_neg hv]
      step (free_spec (p := p))
      last (free_spec (p := h))
      rw [sep_emp]; exact entails_refl _
  · refine Triple.pure ?_
    rw [Sh, if_neg h0]
    refine entails_ex_r p (entails_pand_r (entails_refl _) (by simp only [u32] at *; omega))

/-- NULL handles are ignored / refused. -/
theorem CONSTBUFFER_null : CONSTBUFFER_Destroy 0 = pure () ∧ CONSTBUFFER_Clone 0 = pure 0 ∧ CONSTBUFFER_GetContent 0 = pure 0 := by
  refine ⟨?_, ?_, ?_⟩ <;> simp [CONSTBUFFER_Destroy, CONSTBUFFER_Clone, CONSTBUFFER_GetContent]

/-- C14: what a client reads through `CONSTBUFFER_GetContent` is the original contents. -/
theorem GetContent_spec {h n : Nat} {vs : Block} :
    Triple rel (CB h n vs) (do readContent (← CONSTBUFFER_GetContent h)) (fun r => (r = vs) ⋏ CB h n vs) := by
  unfold CONSTBUFFER_GetContent
  refine Triple.know (know_CB (h := h) (by pick)) fun hk => ?_
  rw [if_neg hk.1]
  refine Triple.bind_pure ?_
  unfold readContent
  simp only [CB]; hoist; intro p hn
  step (loadInt_spec (p := h) ?_)
  step (loadPtr_spec (p := h) ?_)
  by_cases hv : vs = []
  · subst hv
    rw [if_pos (by simp)]
    exact Triple.pure (entails_pand_r (entails_ex_r p (entails_pand_r (entails_refl _) hn)) rfl)
  · rw [if_neg (by simpa using hv), Store, if_neg hv]
    last (loadN_spec (p := p) (b := vs) (by simp))
    rename_i r
    rw [pand_sep]
    refine entails_pand_l fun hr => entails_pand_r (entails_ex_r p (entails_pand_r (by rw [Store, if_neg hv]; sep_cancel) hn)) (by simpa using hr)

/-! ## Histories of one client holding many references -/

inductive BOp where
  | create (bs : List UInt8)
  | clone (i : Nat)
  | destroy (i : Nat)
  | get (i : Nat)

inductive BOut where
  | handle (nonNull : Bool)
  | same (eq : Bool)
  | done
  | content (vs : List Val)
  deriving DecidableEq

/-- a client; a failed creation yields no object -/
def bexec : BOp → RefEnv → M (Option BOut × RefEnv)
  | .create bs, env => do
    let h ← CONSTBUFFER_Create (.lit bs) bs.length
    if h = 0 then pure (some (.handle false), env) else pure (some (.handle true), env ++ [(h, 1)])
  | .clone i, env => onRef env i fun h n => do
    if n + 2 < u32 then
      let h' ← CONSTBUFFER_Clone h
      pure (some (.same (h' == h)), env.set i (h, n + 2))
    else pure (some .done, env.set i (h, n + 1))
  | .destroy i, env => onRef env i fun h n => do
    CONSTBUFFER_Destroy h
    pure (some .done, env.set i (h, n))
  | .get i, env => onRef env i fun h n => do
    let vs ← (do readContent (← CONSTBUFFER_GetContent h))
    pure (some (.content vs), env.set i (h, n + 1))

def BOp.good : BOp → Prop
  | .create bs => bs.length ≤ maxObj
  | _ => True

/-- meaning: objects are (references, bytes); a client stops cloning at 2^32 - 1 references -/
def BStep (rel : Prop) (as : List (Nat × Block)) : BOp → Option BOut → List (Nat × Block) → Prop
  | .create bs, o, as' => (o = some (.handle false) ∧ ¬ rel ∧ as' = as) ∨ (o = some (.handle true) ∧ as' = as ++ [(1, bytesV bs)])
  | .clone i, o, as' => OnRef as i (fun n _ o n' => if n + 2 < u32 then o = .same true ∧ n' = n + 2 else o = .done ∧ n' = n + 1) o as'
  | .destroy i, o, as' => OnRef as i (fun n _ o n' => o = .done ∧ n' = n) o as'
  | .get i, o, as' => OnRef as i (fun n vs o n' => o = .content vs ∧ n' = n + 1) o as'

theorem bexec_spec (op : BOp) (hop : op.good) (env : RefEnv) (as : List (Nat × Block)) :
    Triple rel (Shared CB env as) (bexec op env) (fun r => ∃∃ as', (BStep rel as op r.1 as') ⋏ Shared CB r.2 as') := by
  cases op with
  | create bs =>
    unfold bexec
    have mk := CONSTBUFFER_Create_spec (rel := rel) (source := .lit bs) (bs := bs)
    rw [show Data (.lit bs) bs = emp from by show ((bs <+: bs ∧ bs.length ≤ maxObj) ⋏ emp) = emp; rw [eq_true (⟨List.prefix_refl _, hop⟩ : bs <+: bs ∧ bs.length ≤ maxObj), true_pand]] at mk
    simp only [sep_emp] at mk
    step mk into h
    refine Triple.ite (fun h0 => ?_) (fun h0 => ?_)
    · subst h0; rw [Made_zero]; hoist; intro hb
      exact Triple.pure (entails_ex_r as (entails_pand_r (entails_refl _) (Or.inl ⟨rfl, hb, rfl⟩)))
    · rw [Made_ne h0]; hoist; rintro vs rfl
      refine Triple.pure (entails_ex_r _ (entails_pand_r ?_ (Or.inr ⟨rfl, rfl⟩)))
      refine entails_trans ?_ Shared_snoc
      rw [Sh, if_neg (by simp)]; exact entails_refl _
  | clone i =>
    refine onRef_spec fun h n a he ha => ?_
    refine Triple.ite (fun hn => ?_) (fun hn => ?_)
    · step (CONSTBUFFER_Clone_spec (h := h) (n := n + 1) (vs := a) (by omega))
      refine Triple.pure (entails_ex_r _ (entails_ex_r (n + 2) (entails_pand_r ?_ ⟨rfl, ?_⟩)))
      · rw [Sh, if_neg (by simp)]; exact entails_refl _
      · rw [if_pos hn]; simp
    · refine Triple.pure (entails_ex_r _ (entails_ex_r (n + 1) (entails_pand_r ?_ ⟨rfl, ?_⟩)))
      · rw [Sh, if_neg (by simp)]; exact entails_refl _
      · rw [if_neg hn]; simp
  | destroy i =>
    refine onRef_spec fun h n a he ha => ?_
    step (CONSTBUFFER_Destroy_spec (h := h) (n := n) (vs := a))
    exact Triple.pure (entails_ex_r _ (entails_ex_r n (entails_pand_r (entails_refl _) ⟨rfl, by simp⟩)))
  | get i =>
    refine onRef_spec fun h n a he ha => ?_
    step (GetContent_spec (h := h) (n := n + 1) (vs := a))
    refine Triple.pure (entails_ex_r _ (entails_ex_r (n + 1) (entails_pand_r ?_ ⟨rfl, by simp⟩)))
    rw [Sh, if_neg (by simp)]; exact entails_refl _

/-- C14 over histories: any sequence of creations, clones, destroys and reads on any number of buffers is free of undefined
behaviour, every read returns the original bytes while a reference is held, and memory in use is exactly that of the buffers to
which references remain. -/
theorem CONSTBUFFER_history (ops : List BOp) (hops : ∀ op ∈ ops, op.good) (env : RefEnv) (as : List (Nat × Block)) :
    Triple rel (Shared CB env as) (runOps bexec ops env) (fun r => ∃∃ as', (Runs (BStep rel) as ops r.1 as') ⋏ Shared CB r.2 as') :=
  runOps_spec (Inv := Shared CB) (step := BStep rel) bexec_spec ops hops env as

/-- C14: when the client has given back every reference (its own count says so), nothing is left allocated. -/
theorem CONSTBUFFER_no_leak (ops : List BOp) (hops : ∀ op ∈ ops, op.good) (al : Nat → Heap → Nat → Nat) :
    ∃ os env s', runOps bexec ops [] (St.start al) = some (.ok ((os, env), s')) ∧ ((∀ e ∈ env, e.2 = 0) → s'.heap = Heap.empty) := by
  have h := CONSTBUFFER_history (rel := False) ops hops [] []
  have e : Shared CB [] [] = emp := by unfold Shared; simp [Pool, true_pand]
  rw [e] at h
  obtain ⟨⟨os, env⟩, s', h1, as', hs, h2⟩ := h.run (St.start al) Heap.fin_empty (by simp) rfl
  refine ⟨os, env, s', h1, fun hz => ?_⟩
  refine Shared_done (R := CB) (env := env) (as := as') (fun a ha => ?_) s'.heap h2
  have hc : env.map Prod.snd = as'.map Prod.fst := h2.1
  have : a.1 ∈ as'.map Prod.fst := List.mem_map.2 ⟨a, ha, rfl⟩
  rw [← hc] at this
  obtain ⟨e, he, h3⟩ := List.mem_map.1 this
  rw [← h3]; exact hz e he

/-- Non-vacuity. -/
example : outcome (do
    let r ← runOps bexec [.create [1, 2, 3], .create [], .clone 0, .get 0, .destroy 0, .get 0, .destroy 0, .get 0, .get 1, .destroy 1] []
    pure r.1) (St.start bump) =
    some (.ok [some (.handle true), some (.handle true), some (.same true), some (.content [.byte 1, .byte 2, .byte 3]), some .done,
      some (.content [.byte 1, .byte 2, .byte 3]), some .done, none, some (.content []), some .done]) := by decide +kernel

end Verif.Const
