import Verif.Sep
/-! # Contracts of the memory primitives (each proved from the definitions in `Verif.Mem`) -/

namespace Verif
variable {α β : Type} {rel : Prop}

/-! ## Facts about points-to -/

theorem pts_ne {p : Ptr} {b : Block} {h : Heap} (hp : (p ↦ b) h) : p ≠ 0 := hp.1
theorem pts_len {p : Ptr} {b : Block} {h : Heap} (hp : (p ↦ b) h) : b.length ≤ maxObj := hp.2.1

theorem sep_pts_get {p : Ptr} {b : Block} {F : HProp} {h : Heap} (hp : (p ↦ b ∗ F) h) : h p = some b := by
  obtain ⟨x, y, hd, rfl, ⟨_, _, rfl⟩, _⟩ := hp
  simp [Heap.union, Heap.single]

theorem sep_pts_ne {p q : Ptr} {b c : Block} {F : HProp} {h : Heap}
    (hp : (p ↦ b ∗ q ↦ c ∗ F) h) : p ≠ q := by
  obtain ⟨x, y, hd, rfl, ⟨_, _, rfl⟩, z, w, hd', rfl, ⟨_, _, rfl⟩, _⟩ := hp
  rintro rfl
  have := hd p
  simp [Heap.union, Heap.single] at this

theorem know_pts {p : Ptr} {b : Block} {P R : HProp} {φ : Prop} (pk : Pick P (p ↦ b) R)
    (hφ : p ≠ 0 → b.length ≤ maxObj → φ) : ∀ h, P h → φ := by
  intro h hp; unfold Pick at pk; rw [pk] at hp
  obtain ⟨x, y, hd, rfl, ⟨h1, h2, rfl⟩, _⟩ := hp
  exact hφ h1 h2

theorem know_pts2 {p q : Ptr} {b c : Block} {P R R' : HProp} (pk : Pick P (p ↦ b) R)
    (pk' : Pick R (q ↦ c) R') : ∀ h, P h → p ≠ q := by
  intro h hp; unfold Pick at pk pk'; rw [pk, pk'] at hp
  exact sep_pts_ne hp

/-- replacing the content of an owned block -/
theorem sep_pts_upd {p : Ptr} {b c : Block} {F : HProp} {h : Heap} (hp : (p ↦ b ∗ F) h)
    (hc : c.length ≤ maxObj) : (p ↦ c ∗ F) (fun q => if q = p then some c else h q) := by
  obtain ⟨x, y, hd, rfl, ⟨h1, h2, rfl⟩, hF⟩ := hp
  refine ⟨Heap.single p c, y, ?_, ?_, ⟨h1, hc, rfl⟩, hF⟩
  · intro q; have := hd q; simp only [Heap.single] at *; split <;> simp_all
  · funext q; simp only [Heap.union, Heap.single]; split <;> simp

theorem sep_pts_del {p : Ptr} {b : Block} {F : HProp} {h : Heap} (hp : (p ↦ b ∗ F) h) :
    F (fun q => if q = p then none else h q) := by
  obtain ⟨x, y, hd, rfl, ⟨h1, h2, rfl⟩, hF⟩ := hp
  have : (fun q => if q = p then none else Heap.union (Heap.single p b) y q) = y := by
    funext q
    by_cases h : q = p
    · subst h; have := hd q; simp [Heap.single] at this; simp [this]
    · simp [h, Heap.union, Heap.single]
  rwa [this]

theorem sep_pts_new {p : Ptr} {b : Block} {F : HProp} {h : Heap} (hF : F h) (h0 : p ≠ 0) (hn : h p = none)
    (hb : b.length ≤ maxObj) : (p ↦ b ∗ F) (fun q => if q = p then some b else h q) := by
  refine ⟨Heap.single p b, h, ?_, ?_, ⟨h0, hb, rfl⟩, hF⟩
  · intro q; simp only [Heap.single]; by_cases h : q = p <;> simp_all
  · funext q; simp only [Heap.union, Heap.single]; split <;> simp

theorem Heap.fin_upd {h : Heap} (hf : h.fin) (p : Ptr) (b : Option Block) :
    Heap.fin (fun q => if q = p then b else h q) := by
  obtain ⟨n, hn⟩ := hf
  refine ⟨max n (p + 1), fun q hq => ?_⟩
  have h1 : n ≤ q := by omega
  have h2 : q ≠ p := by omega
  simp [h2, hn q h1]

/-! ## Allocation -/

/-- What a successful or refused `malloc` leaves behind. -/
def Malloced (rel : Prop) (bytes slots : Nat) (r : Ptr) : HProp :=
  if r = 0 then ((¬ rel ∨ maxObj < bytes) ⋏ emp)
  else ((bytes ≤ maxObj) ⋏ r ↦ List.replicate slots .undef)

theorem Malloced_zero {bytes slots : Nat} : Malloced rel bytes slots 0 = ((¬ rel ∨ maxObj < bytes) ⋏ emp) := if_pos rfl
theorem Malloced_ne {bytes slots : Nat} {r : Ptr} (h : ¬ r = 0) :
    Malloced rel bytes slots r = ((bytes ≤ maxObj) ⋏ r ↦ List.replicate slots .undef) := if_neg h

theorem mallocW_spec {bytes slots : Nat} (hs : slots ≤ bytes) :
    Triple rel emp (mallocW bytes slots) (Malloced rel bytes slots) := by
  intro s F hf hr hP
  rw [emp_sep] at hP
  unfold mallocW
  by_cases hc : bytes ≤ maxObj ∧ s.alloc s.tick s.heap bytes ≠ 0 ∧ s.heap (s.alloc s.tick s.heap bytes) = none
  · refine ⟨s.alloc s.tick s.heap bytes, _, if_pos hc, Heap.fin_upd hf _ _, rfl, ?_⟩
    rw [Malloced_ne hc.2.1, pand_sep]
    exact ⟨hc.1, sep_pts_new hP hc.2.1 hc.2.2 (by simp; omega)⟩
  · refine ⟨0, { s with tick := s.tick + 1 }, if_neg hc, hf, rfl, ?_⟩
    rw [Malloced_zero, pand_sep, emp_sep]
    refine ⟨?_, hP⟩
    by_cases hb : bytes ≤ maxObj
    · left; intro hrel
      have := hr hrel s.tick s.heap bytes hf hb
      exact hc ⟨hb, this.1, this.2⟩
    · right; omega

theorem malloc_spec {n : Nat} : Triple rel emp (malloc n) (Malloced rel n n) := mallocW_spec (Nat.le_refl _)
theorem mallocS_spec {n : Nat} : Triple rel emp (mallocS n) (Malloced rel (8 * n) n) := mallocW_spec (by omega)

theorem free_spec {p : Ptr} {b : Block} : Triple rel (p ↦ b) (free p) (fun _ => emp) := by
  intro s F hf hr hP
  have h0 : p ≠ 0 := by obtain ⟨x, y, hd, he, hp, _⟩ := hP; exact hp.1
  have hg := sep_pts_get hP
  refine ⟨(), s.upd p none, by simp [free, h0, hg], Heap.fin_upd hf _ _, rfl, ?_⟩
  rw [emp_sep]; exact sep_pts_del hP

theorem free_null_spec : Triple rel emp (free 0) (fun _ => emp) := by
  intro s F hf hr hP
  exact ⟨(), s, by simp [free], hf, rfl, hP⟩

/-- What `realloc` of a live block leaves behind. -/
def Realloced (rel : Prop) (p : Ptr) (b : Block) (bytes slots : Nat) (r : Ptr) : HProp :=
  if r = 0 then ((¬ rel ∨ maxObj < bytes) ⋏ p ↦ b)
  else ((bytes ≤ maxObj) ⋏ r ↦ (b.take slots ++ List.replicate (slots - b.length) .undef))

theorem Realloced_zero {p : Ptr} {b : Block} {bytes slots : Nat} :
    Realloced rel p b bytes slots 0 = ((¬ rel ∨ maxObj < bytes) ⋏ p ↦ b) := if_pos rfl
theorem Realloced_ne {p : Ptr} {b : Block} {bytes slots : Nat} {r : Ptr} (h : ¬ r = 0) :
    Realloced rel p b bytes slots r =
      ((bytes ≤ maxObj) ⋏ r ↦ (b.take slots ++ List.replicate (slots - b.length) .undef)) := if_neg h

theorem reallocW_spec {p : Ptr} {b : Block} {bytes slots : Nat} (hs : slots ≤ bytes) (h0 : bytes ≠ 0) :
    Triple rel (p ↦ b) (reallocW p bytes slots) (Realloced rel p b bytes slots) := by
  intro s F hf hr hP
  have hp0 : p ≠ 0 := by obtain ⟨x, y, hd, he, hp, _⟩ := hP; exact hp.1
  have hg := sep_pts_get hP
  unfold reallocW
  simp only [if_neg hp0, hg, if_neg h0]
  generalize hq : s.alloc s.tick s.heap bytes = q
  by_cases hc : bytes ≤ maxObj ∧ q ≠ 0 ∧ (q = p ∨ s.heap q = none)
  · refine ⟨q, _, if_pos hc, Heap.fin_upd (Heap.fin_upd hf _ _) _ _, rfl, ?_⟩
    rw [Realloced_ne hc.2.1, pand_sep]
    refine ⟨hc.1, sep_pts_new (sep_pts_del hP) hc.2.1 ?_ (by simp; omega)⟩
    rcases hc.2.2 with h | h
    · simp [h, St.upd]
    · simp [h, St.upd]
  · refine ⟨0, { s with tick := s.tick + 1 }, if_neg hc, hf, rfl, ?_⟩
    rw [Realloced_zero, pand_sep]
    refine ⟨?_, hP⟩
    by_cases hb : bytes ≤ maxObj
    · left; intro hrel
      have := hr hrel s.tick s.heap bytes hf hb
      rw [hq] at this
      exact hc ⟨hb, this.1, Or.inr this.2⟩
    · right; omega

theorem realloc_spec {p : Ptr} {b : Block} {n : Nat} (h0 : n ≠ 0) :
    Triple rel (p ↦ b) (realloc p n) (Realloced rel p b n n) := reallocW_spec (Nat.le_refl _) h0
theorem reallocS_spec {p : Ptr} {b : Block} {n : Nat} (h0 : n ≠ 0) :
    Triple rel (p ↦ b) (reallocS p n) (Realloced rel p b (8 * n) n) := reallocW_spec (by omega) (by omega)
theorem realloc_null_spec {n : Nat} : Triple rel emp (realloc 0 n) (Malloced rel n n) := by
  unfold realloc reallocW; rw [if_pos rfl]; exact malloc_spec
theorem reallocS_null_spec {n : Nat} : Triple rel emp (reallocS 0 n) (Malloced rel (8 * n) n) := by
  unfold reallocS reallocW; rw [if_pos rfl]; exact mallocS_spec

/-- `malloc` followed by anything: the two outcomes. -/
theorem Triple.mallocW {bytes slots : Nat} (hs : slots ≤ bytes) {P : HProp} {k : Nat → M β} {Q : β → HProp}
    (h0 : (¬ rel ∨ maxObj < bytes) → Triple rel P (k 0) Q)
    (h1 : ∀ r, r ≠ 0 → bytes ≤ maxObj → Triple rel (r ↦ List.replicate slots .undef ∗ P) (k r) Q) :
    Triple rel P (Verif.mallocW bytes slots >>= k) Q := by
  refine Triple.step (mallocW_spec hs) (F := P) Frame.emp fun r => ?_
  by_cases h : r = 0
  · subst h; rw [Malloced_zero]; hoist; exact h0
  · rw [Malloced_ne h]; hoist; exact h1 r h

theorem Triple.malloc {n : Nat} {P : HProp} {k : Nat → M β} {Q : β → HProp}
    (h0 : (¬ rel ∨ maxObj < n) → Triple rel P (k 0) Q)
    (h1 : ∀ r, r ≠ 0 → n ≤ maxObj → Triple rel (r ↦ List.replicate n .undef ∗ P) (k r) Q) :
    Triple rel P (Verif.malloc n >>= k) Q := Triple.mallocW (Nat.le_refl _) h0 h1

/-- `malloc(sizeof(struct))` (a struct has few fields, so only the allocator can refuse). -/
theorem Triple.mallocS {n : Nat} (hn : n < 1000) {P : HProp} {k : Nat → M β} {Q : β → HProp}
    (h0 : ¬ rel → Triple rel P (k 0) Q)
    (h1 : ∀ r, r ≠ 0 → Triple rel (r ↦ List.replicate n .undef ∗ P) (k r) Q) :
    Triple rel P (Verif.mallocS n >>= k) Q :=
  Triple.mallocW (by omega) (fun h => h0 (h.resolve_right (by simp only [maxObj]; omega))) (fun r h _ => h1 r h)

theorem Triple.reallocW {p : Ptr} {b : Block} {bytes slots : Nat} (hs : slots ≤ bytes) (hb : bytes ≠ 0)
    {P F : HProp} {k : Nat → M β} {Q : β → HProp} (pk : Pick P (p ↦ b) F)
    (h0 : (¬ rel ∨ maxObj < bytes) → Triple rel (p ↦ b ∗ F) (k 0) Q)
    (h1 : ∀ r, r ≠ 0 → bytes ≤ maxObj →
      Triple rel (r ↦ (b.take slots ++ List.replicate (slots - b.length) .undef) ∗ F) (k r) Q) :
    Triple rel P (Verif.reallocW p bytes slots >>= k) Q := by
  refine Triple.step (reallocW_spec hs hb) (F := F) (Frame.one pk) fun r => ?_
  by_cases h : r = 0
  · subst h; rw [Realloced_zero]; hoist; exact h0
  · rw [Realloced_ne h]; hoist; exact h1 r h

theorem Triple.realloc {p : Ptr} {b : Block} {n : Nat} (hb : n ≠ 0)
    {P F : HProp} {k : Nat → M β} {Q : β → HProp} (pk : Pick P (p ↦ b) F)
    (h0 : (¬ rel ∨ maxObj < n) → Triple rel (p ↦ b ∗ F) (k 0) Q)
    (h1 : ∀ r, r ≠ 0 → n ≤ maxObj →
      Triple rel (r ↦ (b.take n ++ List.replicate (n - b.length) .undef) ∗ F) (k r) Q) :
    Triple rel P (Verif.realloc p n >>= k) Q := Triple.reallocW (Nat.le_refl _) hb pk h0 h1

theorem Triple.reallocS {p : Ptr} {b : Block} {n : Nat} (hb : n ≠ 0)
    {P F : HProp} {k : Nat → M β} {Q : β → HProp} (pk : Pick P (p ↦ b) F)
    (h0 : (¬ rel ∨ maxObj < 8 * n) → Triple rel (p ↦ b ∗ F) (k 0) Q)
    (h1 : ∀ r, r ≠ 0 → 8 * n ≤ maxObj →
      Triple rel (r ↦ (b.take n ++ List.replicate (n - b.length) .undef) ∗ F) (k r) Q) :
    Triple rel P (Verif.reallocS p n >>= k) Q := Triple.reallocW (by omega) (by omega) pk h0 h1

theorem Triple.realloc_null {n : Nat} {P : HProp} {k : Nat → M β} {Q : β → HProp}
    (h0 : (¬ rel ∨ maxObj < n) → Triple rel P (k 0) Q)
    (h1 : ∀ r, r ≠ 0 → n ≤ maxObj → Triple rel (r ↦ List.replicate n .undef ∗ P) (k r) Q) :
    Triple rel P (Verif.realloc 0 n >>= k) Q := by
  have : Verif.realloc 0 n = Verif.malloc n := by unfold Verif.realloc Verif.reallocW; rw [if_pos rfl]; rfl
  rw [this]; exact Triple.malloc h0 h1

theorem Triple.reallocS_null {n : Nat} {P : HProp} {k : Nat → M β} {Q : β → HProp}
    (h0 : (¬ rel ∨ maxObj < 8 * n) → Triple rel P (k 0) Q)
    (h1 : ∀ r, r ≠ 0 → 8 * n ≤ maxObj → Triple rel (r ↦ List.replicate n .undef ∗ P) (k r) Q) :
    Triple rel P (Verif.reallocS 0 n >>= k) Q := by
  have : Verif.reallocS 0 n = Verif.mallocS n := by unfold Verif.reallocS Verif.reallocW; rw [if_pos rfl]; rfl
  rw [this]; exact Triple.mallocW (by omega) h0 h1

/-! ## Loads and stores -/

theorem loadN_spec {p : Ptr} {b : Block} {off n : Nat} (h : off + n ≤ b.length) :
    Triple rel (p ↦ b) (loadN p off n) (fun r => (r = (b.drop off).take n) ⋏ p ↦ b) := by
  intro s F hf hr hP
  have hg := sep_pts_get hP
  refine ⟨_, s, by simp [loadN, hg, h]; rfl, hf, rfl, ?_⟩
  rw [pand_sep]; exact ⟨rfl, hP⟩

theorem storeN_spec {p : Ptr} {b : Block} {off : Nat} {vs : List Val} (h : off + vs.length ≤ b.length) :
    Triple rel (p ↦ b) (storeN p off vs)
      (fun _ => p ↦ (b.take off ++ vs ++ b.drop (off + vs.length))) := by
  intro s F hf hr hP
  have hg := sep_pts_get hP
  have hl : b.length ≤ maxObj := by obtain ⟨x, y, hd, he, hp, _⟩ := hP; exact hp.2.1
  refine ⟨(), s.upd p _, by simp only [storeN, hg]; exact if_pos h, Heap.fin_upd hf _ _, rfl, ?_⟩
  exact sep_pts_upd hP (by simp; omega)

theorem load_spec {p : Ptr} {b : Block} {off : Nat} {v : Val} (h : b[off]? = some v) :
    Triple rel (p ↦ b) (load p off) (fun r => (r = v) ⋏ p ↦ b) := by
  intro s F hf hr hP
  have hg := sep_pts_get hP
  refine ⟨v, s, by simp only [load, hg, h], hf, rfl, ?_⟩
  rw [pand_sep]; exact ⟨rfl, hP⟩

theorem store_spec {p : Ptr} {b : Block} {off : Nat} {v : Val} (h : off < b.length) :
    Triple rel (p ↦ b) (store p off v) (fun _ => p ↦ b.set off v) := by
  intro s F hf hr hP
  have hg := sep_pts_get hP
  have hl : b.length ≤ maxObj := by obtain ⟨x, y, hd, he, hp, _⟩ := hP; exact hp.2.1
  refine ⟨(), s.upd p _, by simp only [store, hg]; exact if_pos h, Heap.fin_upd hf _ _, rfl, ?_⟩
  exact sep_pts_upd hP (by simp; omega)

theorem loadPtr_spec {p : Ptr} {b : Block} {off : Nat} {q : Ptr} (h : b[off]? = some (.ptr q)) :
    Triple rel (p ↦ b) (loadPtr p off) (fun r => (r = q) ⋏ p ↦ b) := by
  unfold loadPtr
  step (load_spec h)
  exact Triple.pure (entails_pand_r (entails_refl _) rfl)

theorem loadInt_spec {p : Ptr} {b : Block} {off n : Nat} (h : b[off]? = some (.int n)) :
    Triple rel (p ↦ b) (loadInt p off) (fun r => (r = n) ⋏ p ↦ b) := by
  unfold loadInt
  step (load_spec h)
  exact Triple.pure (entails_pand_r (entails_refl _) rfl)

theorem loadByte_spec {p : Ptr} {b : Block} {off : Nat} {x : UInt8} (h : b[off]? = some (.byte x)) :
    Triple rel (p ↦ b) (loadByte p off) (fun r => (r = x) ⋏ p ↦ b) := by
  unfold loadByte
  step (load_spec h)
  exact Triple.pure (entails_pand_r (entails_refl _) rfl)

/-! ## Strings and data arguments -/

/-- `s` designates readable storage beginning with the bytes `bs` (the caller's obligation for a
`(pointer, size)` argument). -/
def Data (s : CharPtr) (bs : List UInt8) : HProp :=
  match s with
  | .null => (bs = []) ⋏ emp
  | .lit l => (bs <+: l ∧ l.length ≤ maxObj) ⋏ emp
  | .heap p off => ∃∃ vs : List Val, (off ≤ vs.length ∧ bytesV bs <+: vs.drop off) ⋏ p ↦ vs

/-- `s` designates a NUL-terminated string with text `t` (the caller's obligation for a C string argument). -/
def CStr (s : CharPtr) (t : List UInt8) : HProp :=
  match s with
  | .null => False ⋏ emp
  | .lit l => (cstrV (bytesV l) = some t ∧ l.length ≤ maxObj) ⋏ emp
  | .heap p off => ∃∃ vs : List Val, (off ≤ vs.length ∧ cstrV (vs.drop off) = some t) ⋏ p ↦ vs

/-- A text has no NUL inside. -/
abbrev NoNul (t : List UInt8) : Prop := (0 : UInt8) ∉ t

theorem cstrV_prefix {vs : List Val} {t : List UInt8} (h : cstrV vs = some t) :
    bytesV (t ++ [0]) <+: vs ∧ NoNul t := by
  induction vs generalizing t with
  | nil => simp [cstrV] at h
  | cons v vs ih =>
    cases v with
    | byte b =>
      simp only [cstrV] at h
      by_cases hb : b = 0
      · simp [hb] at h; subst h; subst hb; simp [bytesV, NoNul]
      · simp [hb] at h
        obtain ⟨t', ht', rfl⟩ := h
        obtain ⟨h1, h2⟩ := ih ht'
        constructor
        · simpa [bytesV] using h1
        · simp [NoNul, Ne.symm hb]; exact h2
    | _ => simp [cstrV] at h

theorem cstrV_bytes {t : List UInt8} (h : NoNul t) (vs : List Val) : cstrV (bytesV t ++ .byte 0 :: vs) = some t := by
  induction t with
  | nil => simp [bytesV, cstrV]
  | cons b t ih =>
    simp [NoNul] at h
    have := ih h.2
    simp only [bytesV, List.map_cons, List.cons_append, cstrV]
    rw [if_neg (Ne.symm h.1)]
    simp only [bytesV] at this
    simp [this]

theorem cstrV_bytes' {t : List UInt8} (h : NoNul t) : cstrV (bytesV (t ++ [0])) = some t := by
  have := cstrV_bytes h []
  simpa [bytesV] using this

theorem bytesV_length (t : List UInt8) : (bytesV t).length = t.length := by simp [bytesV]
theorem bytesV_append (a b : List UInt8) : bytesV (a ++ b) = bytesV a ++ bytesV b := by simp [bytesV]

theorem CStr_str {t : List UInt8} (h : NoNul t) (hl : t.length < maxObj) : emp ⊢ₕ CStr (.str t) t := by
  refine entails_pand_r (entails_refl _) ⟨cstrV_bytes' h, ?_⟩
  simp; omega

/-- Knowledge extracted from a string argument. -/
theorem know_CStr {s : CharPtr} {t : List UInt8} {P R : HProp} (pk : Pick P (CStr s t) R) :
    ∀ h, P h → s ≠ .null ∧ NoNul t ∧ t.length < maxObj := by
  intro h hp; unfold Pick at pk; rw [pk] at hp
  obtain ⟨x, y, hd, rfl, hc, _⟩ := hp
  cases s with
  | null => exact hc.1.elim
  | lit l =>
    obtain ⟨⟨h1, h2⟩, _⟩ := hc
    have ⟨h3, h4⟩ := cstrV_prefix h1
    refine ⟨by simp, h4, ?_⟩
    have := h3.length_le; simp [bytesV_length] at this; omega
  | heap p off =>
    obtain ⟨vs, ⟨h1, h2⟩, h3⟩ := hc
    have ⟨h4, h5⟩ := cstrV_prefix h2
    have h6 := h3.2.1
    refine ⟨by simp, h5, ?_⟩
    have := h4.length_le; simp [bytesV_length] at this; omega

theorem know_Data {s : CharPtr} {bs : List UInt8} {P R : HProp} (pk : Pick P (Data s bs) R) :
    ∀ h, P h → bs.length ≤ maxObj := by
  intro h hp; unfold Pick at pk; rw [pk] at hp
  obtain ⟨x, y, hd, rfl, hc, _⟩ := hp
  cases s with
  | null => obtain ⟨rfl, _⟩ := hc; simp
  | lit l => obtain ⟨⟨h1, h2⟩, _⟩ := hc; have := h1.length_le; omega
  | heap p off =>
    obtain ⟨vs, ⟨h1, h2⟩, h3⟩ := hc
    have h6 := h3.2.1
    have := h2.length_le; simp [bytesV_length] at this; omega

theorem CStr_null (t : List UInt8) : CStr .null t = (False ⋏ emp) := rfl

theorem storage_pts {p : Ptr} {off : Nat} {vs : List Val} (h : off ≤ vs.length) :
    Triple rel (p ↦ vs) (storage (.heap p off)) (fun r => (r = vs.drop off) ⋏ p ↦ vs) := by
  intro s F hf hr hP
  have hg := sep_pts_get hP
  refine ⟨_, s, by simp only [storage, hg, h, if_true]; rfl, hf, rfl, ?_⟩
  rw [pand_sep]; exact ⟨rfl, hP⟩

theorem cstr_pts {p : Ptr} {off : Nat} {vs : List Val} {t : List UInt8} (h : off ≤ vs.length)
    (ht : cstrV (vs.drop off) = some t) :
    Triple rel (p ↦ vs) (cstr (.heap p off)) (fun r => (r = t) ⋏ p ↦ vs) := by
  unfold cstr
  step (storage_pts h)
  simp only [ht]
  exact Triple.pure (entails_pand_r (entails_refl _) rfl)

theorem cstr_spec {s : CharPtr} {t : List UInt8} :
    Triple rel (CStr s t) (cstr s) (fun r => (r = t) ⋏ CStr s t) := by
  cases s with
  | null => unfold CStr; hoist; exact False.elim
  | lit l =>
    unfold CStr
    hoist
    intro h1 h2
    unfold cstr storage
    refine Triple.bind_pure ?_
    simp only [h1]
    exact Triple.pure (entails_pand_r (entails_pand_r (entails_refl _) ⟨trivial, h2⟩) rfl)
  | heap p off =>
    unfold CStr
    hoist
    intro vs h1 h2
    refine (cstr_pts h1 h2).conseq (entails_refl _) fun a => ?_
    refine entails_pand_l fun h => entails_pand_r (entails_ex_r vs (entails_pand_r (entails_refl _) ⟨h1, h2⟩)) h

theorem strlen_spec {s : CharPtr} {t : List UInt8} :
    Triple rel (CStr s t) (strlen s) (fun r => (r = t.length) ⋏ CStr s t) := by
  unfold strlen
  step cstr_spec
  exact Triple.pure (entails_pand_r (entails_refl _) rfl)

theorem strcmp_spec {a b : CharPtr} {x y : List UInt8} :
    Triple rel (CStr a x ∗ CStr b y) (strcmp a b)
      (fun r => (r = strcmpL x y) ⋏ CStr a x ∗ CStr b y) := by
  unfold strcmp
  step cstr_spec
  step cstr_spec
  exact Triple.pure (entails_pand_r (by sep_cancel) rfl)

/-- overwriting slots -/
def patch (b : Block) (off : Nat) (vs : List Val) : Block := b.take off ++ vs ++ b.drop (off + vs.length)

theorem patch_full {b : Block} {vs : List Val} (h : vs.length = b.length) : patch b 0 vs = vs := by
  simp [patch, h]
theorem patch_length {b : Block} {off : Nat} {vs : List Val} (h : off + vs.length ≤ b.length) :
    (patch b off vs).length = b.length := by
  simp [patch]; omega
theorem patch_zero {b : Block} {vs : List Val} : patch b 0 vs = vs ++ b.drop vs.length := by
  simp [patch]
theorem patch_end {b c vs : List Val} {off : Nat} (h : b.length = off) (hv : vs.length = c.length) :
    patch (b ++ c) off vs = b ++ vs := by
  subst h; simp [patch, hv]

theorem storeN_spec' {p : Ptr} {b : Block} {off : Nat} {vs : List Val} (h : off + vs.length ≤ b.length) :
    Triple rel (p ↦ b) (storeN p off vs) (fun _ => p ↦ patch b off vs) := storeN_spec h

theorem prefix_take {α} {a b : List α} (h : a <+: b) {n : Nat} (hn : n ≤ a.length) : b.take n = a.take n := by
  obtain ⟨c, rfl⟩ := h
  rw [List.take_append_of_le_length hn]

theorem memcpy_data {dst : Ptr} {off n : Nat} {src : CharPtr} {b : Block} {bs : List UInt8}
    (hn : n ≤ bs.length) (hb : off + n ≤ b.length) :
    Triple rel (dst ↦ b ∗ Data src bs) (memcpy dst off src n)
      (fun _ => dst ↦ patch b off (bytesV (bs.take n)) ∗ Data src bs) := by
  unfold memcpy
  refine Triple.ite (fun h => ?_) (fun h => ?_)
  · subst h
    refine Triple.pure (entails_of_eq ?_)
    simp [patch, bytesV]
  cases src with
  | null =>
    unfold Data; hoist; rintro rfl; simp at hn; omega
  | lit l =>
    unfold Data; hoist; intro h1 h2
    unfold storage
    refine Triple.bind_pure ?_
    have := h1.length_le
    rw [if_pos (by rw [bytesV_length]; omega)]
    have e : (bytesV l).take n = bytesV (bs.take n) := by
      simp only [bytesV, ← List.map_take]; rw [prefix_take h1 hn]
    rw [e]
    have el : (bytesV (bs.take n)).length = n := by rw [bytesV_length, List.length_take]; omega
    last (storeN_spec' (b := b) (by rw [el]; exact hb))
    rw [sep_pand, sep_emp]
    exact entails_pand_r (entails_refl _) ⟨h1, h2⟩
  | heap p o =>
    unfold Data; hoist; intro vs h1 h2
    refine Triple.know (know_pts2 (p := dst) (q := p) (by pick) (by pick)) fun hne => ?_
    step (storage_pts h1)
    have hl := h2.length_le
    simp only [bytesV_length] at hl
    rw [if_pos (by omega)]; dsimp only; rw [if_neg (Ne.symm hne)]
    have e : (vs.drop o).take n = bytesV (bs.take n) := by
      rw [prefix_take h2 (by rw [bytesV_length]; exact hn)]; simp [bytesV]
    rw [e]
    have el : (bytesV (bs.take n)).length = n := by rw [bytesV_length, List.length_take]; omega
    last (storeN_spec' (b := b) (by rw [el]; exact hb))
    rw [sep_hex]
    refine entails_ex_r vs ?_
    rw [sep_pand]
    exact entails_pand_r (entails_refl _) ⟨h1, h2⟩

/-- copying between two distinct owned blocks, indeterminate slots included -/
theorem memcpy_heap {dst p : Ptr} {off o n : Nat} {b vs : Block}
    (hn : o + n ≤ vs.length) (hb : off + n ≤ b.length) :
    Triple rel (dst ↦ b ∗ p ↦ vs) (memcpy dst off (.heap p o) n)
      (fun _ => dst ↦ patch b off ((vs.drop o).take n) ∗ p ↦ vs) := by
  unfold memcpy
  refine Triple.ite (fun h => ?_) (fun h => ?_)
  · subst h
    refine Triple.pure (entails_of_eq ?_)
    simp [patch]
  refine Triple.know (know_pts2 (p := dst) (q := p) (by pick) (by pick)) fun hne => ?_
  step (storage_pts (vs := vs) (by omega))
  rw [if_pos (by simp; omega)]; dsimp only; rw [if_neg (Ne.symm hne)]
  have el : ((vs.drop o).take n).length = n := by simp; omega
  last (storeN_spec' (b := b) (by rw [el]; exact hb))
  exact entails_refl _

theorem memcpy_cstr {dst : Ptr} {off n : Nat} {src : CharPtr} {b : Block} {t : List UInt8}
    (hn : n ≤ t.length + 1) (hb : off + n ≤ b.length) :
    Triple rel (dst ↦ b ∗ CStr src t) (memcpy dst off src n)
      (fun _ => dst ↦ patch b off (bytesV ((t ++ [0]).take n)) ∗ CStr src t) := by
  cases src with
  | null => unfold CStr; hoist; exact False.elim
  | lit l =>
    unfold CStr; hoist; intro h1 h2
    have ⟨h3, h4⟩ := cstrV_prefix h1
    have h3' : t ++ [0] <+: l := by
      have : bytesV (t ++ [0]) <+: bytesV l := h3
      exact (List.prefix_map_iff_of_injective (by intro a b h; simpa using h)).1 this
    refine Triple.conseq (memcpy_data (src := .lit l) (bs := t ++ [0]) (by simpa using hn) hb) ?_ fun _ => ?_
    · unfold Data; rw [sep_pand, sep_emp]; exact entails_pand_r (entails_refl _) ⟨h3', h2⟩
    · unfold Data; rw [sep_pand, sep_emp, sep_pand, sep_emp]
      exact entails_pand_l fun h => entails_pand_r (entails_refl _) ⟨h1, h2⟩
  | heap p o =>
    unfold CStr; hoist; intro vs h1 h2
    have ⟨h3, h4⟩ := cstrV_prefix h2
    unfold memcpy
    refine Triple.ite (fun h => ?_) (fun h => ?_)
    · subst h
      refine Triple.pure ?_
      rw [sep_hex]
      refine entails_ex_r vs ?_
      rw [sep_pand]
      refine entails_pand_r (entails_of_eq ?_) ⟨h1, h2⟩
      simp [patch, bytesV]
    refine Triple.know (know_pts2 (p := dst) (q := p) (by pick) (by pick)) fun hne => ?_
    step (storage_pts h1)
    have hl := h3.length_le
    simp only [bytesV_length, List.length_append, List.length_cons, List.length_nil] at hl
    rw [if_pos (by omega)]; dsimp only; rw [if_neg (Ne.symm hne)]
    have e : (vs.drop o).take n = bytesV ((t ++ [0]).take n) := by
      rw [prefix_take h3 (by simp [bytesV_length]; omega)]; simp [bytesV]
    rw [e]
    have el : (bytesV ((t ++ [0]).take n)).length = n := by rw [bytesV_length, List.length_take]; simp; omega
    last (storeN_spec' (b := b) (by rw [el]; exact hb))
    rw [sep_hex]
    refine entails_ex_r vs ?_
    rw [sep_pand]
    exact entails_pand_r (entails_refl _) ⟨h1, h2⟩

theorem strcpy_spec {dst : Ptr} {off : Nat} {src : CharPtr} {b : Block} {t : List UInt8}
    (hb : off + t.length + 1 ≤ b.length) :
    Triple rel (dst ↦ b ∗ CStr src t) (strcpy dst off src)
      (fun _ => dst ↦ patch b off (bytesV (t ++ [0])) ∗ CStr src t) := by
  unfold strcpy
  step cstr_spec
  last (memcpy_cstr (b := b) (t := t) (Nat.le_refl _) (by omega))
  rw [sep_emp, List.take_of_length_le (by simp)]
  exact entails_refl _

theorem charAt_spec {s : CharPtr} {t : List UInt8} {i : Nat} {c : UInt8} (hc : (t ++ [0])[i]? = some c) :
    Triple rel (CStr s t) (charAt s i) (fun r => (r = c) ⋏ CStr s t) := by
  have key : ∀ vs : List Val, cstrV vs = some t → vs[i]? = some (.byte c) := by
    intro vs h
    obtain ⟨w, hw⟩ := (cstrV_prefix h).1
    have hi : i < (t ++ [0]).length := by
      rcases Nat.lt_or_ge i (t ++ [0]).length with h | h
      · exact h
      · rw [List.getElem?_eq_none h] at hc; simp at hc
    rw [← hw, List.getElem?_append_left (by simpa [bytesV] using hi)]
    simp only [bytesV, List.getElem?_map, hc]; rfl
  cases s with
  | null => unfold CStr; hoist; exact False.elim
  | lit l =>
    unfold CStr
    hoist
    intro h1 h2
    unfold charAt storage
    refine Triple.bind_pure ?_
    rw [key _ h1]
    exact Triple.pure (entails_pand_r (entails_pand_r (entails_refl _) ⟨h1, h2⟩) rfl)
  | heap p off =>
    unfold CStr
    hoist
    intro vs h1 h2
    unfold charAt
    step (storage_pts h1)
    rw [key _ h2]
    exact Triple.pure (entails_pand_r (entails_ex_r vs (entails_pand_r (entails_refl _) ⟨h1, h2⟩)) rfl)

theorem CStr_heap0 {p : Ptr} {t : List UInt8} :
    CStr (.heap p 0) t = ∃∃ vs : List Val, (cstrV vs = some t) ⋏ p ↦ vs := by
  unfold CStr; simp

theorem ofPtr_ne {p : Ptr} (h : p ≠ 0) : CharPtr.ofPtr p = .heap p 0 := if_neg h
theorem ofPtr_zero : CharPtr.ofPtr 0 = .null := rfl

theorem know_heap0 {p : Ptr} {t : List UInt8} {P R : HProp} (pk : Pick P (CStr (.heap p 0) t) R) :
    ∀ h, P h → p ≠ 0 := by
  intro h hp; unfold Pick at pk; rw [pk, CStr_heap0, hex_sep] at hp
  obtain ⟨vs, hp⟩ := hp
  rw [pand_sep] at hp
  obtain ⟨_, x, y, _, _, h1, _⟩ := hp
  exact h1.1

theorem know_pts_CStr {h p : Ptr} {b : Block} {t : List UInt8} {P R R' : HProp} (pk : Pick P (h ↦ b) R)
    (pk' : Pick R (CStr (.heap p 0) t) R') : ∀ hp, P hp → h ≠ p := by
  intro hp hP; unfold Pick at pk pk'; rw [pk, pk', CStr_heap0, hex_sep, sep_hex] at hP
  obtain ⟨vs, hP⟩ := hP
  rw [pand_sep, sep_pand] at hP
  exact sep_pts_ne hP.2

/-- A block that holds a text, its terminator, and anything after it. -/
theorem CStr_intro {p : Ptr} {t : List UInt8} (h : NoNul t) (rest : List Val) :
    p ↦ (bytesV t ++ .byte 0 :: rest) ⊢ₕ CStr (.heap p 0) t := by
  rw [CStr_heap0]
  exact entails_ex_r _ (entails_pand_r (entails_refl _) (cstrV_bytes h rest))

/-- A `const char*` argument that may be `NULL`. -/
def Arg (s : CharPtr) : Option (List UInt8) → HProp
  | none => (s = .null) ⋏ emp
  | some t => CStr s t

theorem Arg_none {s : CharPtr} : Arg s none = ((s = .null) ⋏ emp) := rfl
theorem Arg_some {s : CharPtr} {t : List UInt8} : Arg s (some t) = CStr s t := rfl

/-- A block being filled from the left: `pre` has been written, `n` slots are still indeterminate. -/
def Fill (p : Ptr) (pre : List UInt8) (n : Nat) : HProp := p ↦ (bytesV pre ++ List.replicate n .undef)

theorem Fill_start {p : Ptr} {n : Nat} : (p ↦ List.replicate n .undef) = Fill p [] n := rfl
theorem Fill_done {p : Ptr} {pre : List UInt8} : Fill p pre 0 = (p ↦ bytesV pre) := by simp [Fill]

theorem fill_spec {p : Ptr} {pre : List UInt8} {n off : Nat} {b : UInt8} (ho : off = pre.length) (hn : 0 < n) :
    Triple rel (Fill p pre n) (store p off (.byte b)) (fun _ => Fill p (pre ++ [b]) (n - 1)) := by
  unfold Fill
  refine (store_spec (by simp [bytesV]; omega)).conseq (entails_refl _) fun _ => entails_of_eq ?_
  subst ho
  congr 1
  obtain ⟨m, rfl⟩ : ∃ m, n = m + 1 := ⟨n - 1, by omega⟩
  simp [bytesV, List.set_append_right, List.replicate_succ]

theorem strcmpL_eq_zero {a b : List UInt8} : strcmpL a b = 0 ↔ a = b := by
  induction a generalizing b with
  | nil => cases b <;> simp [strcmpL]
  | cons x xs ih =>
    cases b with
    | nil => simp [strcmpL]
    | cons y ys =>
      simp only [strcmpL, List.cons.injEq]
      by_cases h1 : x < y
      · simp [h1]; rintro rfl; exact absurd h1 (UInt8.lt_irrefl x)
      · by_cases h2 : y < x
        · simp [h1, h2]; rintro rfl; exact absurd h2 (UInt8.lt_irrefl x)
        · have : x = y := UInt8.le_antisymm (UInt8.not_lt.1 h2) (UInt8.not_lt.1 h1)
          simp [ih, this]

end Verif
