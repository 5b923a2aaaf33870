import Verif.Lib
import Verif.Buffer.Model
/-!
# Properties C01–C03: BUFFER

Specification vocabulary (independent of the code):
* `Buf h c` – the handle `h` owns a buffer whose contents are `c`: `none` is "no storage" (NULL pointer,
  length 0), `some vs` is storage of exactly `vs.length` slots (slots not yet written are indeterminate).
* `OBuf h a` – same for a handle that may be `NULL` (`a = none`).
-/
set_option linter.unusedSimpArgs false
set_option linter.unusedVariables false
namespace Verif.Buffer
open Verif
variable {rel : Prop}

/-- Contents of a buffer. -/
abbrev Content := Option Block

def Buf (h : Ptr) : Content → HProp
  | none => h ↦ [.ptr 0, .int 0]
  | some vs => ∃∃ p : Nat, h ↦ [.ptr p, .int vs.length] ∗ p ↦ vs

def OBuf (h : Ptr) : Option Content → HProp
  | none => (h = 0) ⋏ emp
  | some c => Buf h c

theorem Buf_none {h : Ptr} : Buf h none = (h ↦ [.ptr 0, .int 0]) := rfl
theorem Buf_some {h : Ptr} {vs : Block} :
    Buf h (some vs) = ∃∃ p : Nat, h ↦ [.ptr p, .int vs.length] ∗ p ↦ vs := rfl
theorem OBuf_none {h : Ptr} : OBuf h none = ((h = 0) ⋏ emp) := rfl
theorem OBuf_some {h : Ptr} {c : Content} : OBuf h (some c) = Buf h c := rfl

/-- the length reported for contents -/
def clen : Content → Nat
  | none => 0
  | some vs => vs.length

theorem OBuf_some_ne {h : Ptr} {c : Content} {P R : HProp} (pk : Pick P (OBuf h (some c)) R) :
    ∀ hp, P hp → h ≠ 0 := by
  intro hp hP; unfold Pick at pk; rw [pk] at hP
  obtain ⟨x, y, hd, rfl, hb, _⟩ := hP
  cases c with
  | none => exact hb.1
  | some vs => obtain ⟨p, x', y', _, rfl, h1, _⟩ := hb; exact h1.1

/-- Two distinct owned handles are different addresses. -/
theorem Buf_disj {h1 h2 : Ptr} {a b : Content} {P R : HProp} (pk : Pick P (Buf h1 a ∗ Buf h2 b) R) :
    ∀ hp, P hp → h1 ≠ h2 := by
  intro hp hP; unfold Pick at pk; rw [pk] at hP
  have key : ∀ F : HProp, ∀ v w, (h1 ↦ v ∗ h2 ↦ w ∗ F) hp → h1 ≠ h2 := fun F v w h => sep_pts_ne h
  cases a <;> cases b <;> simp only [Buf, hex_sep, sep_hex, sep_assoc] at hP
  · exact key _ _ _ hP
  · obtain ⟨p, hP⟩ := hP; exact key _ _ _ hP
  · obtain ⟨p, hP⟩ := hP
    rw [sep_left_comm (p ↦ _)] at hP
    exact key _ _ _ hP
  · obtain ⟨p, q, hP⟩ := hP
    rw [sep_left_comm (q ↦ _)] at hP
    exact key _ _ _ hP


theorem OBuf_null : OBuf 0 none = emp := by unfold OBuf; rw [eq_self, true_pand]

/-- `szAdd` of two object sizes does not wrap. -/
theorem szAdd_eq {a b : Nat} (h : a + b < szMod) : szAdd a b = a + b := Nat.mod_eq_of_lt h

theorem sz_two {a b : Nat} (ha : a ≤ maxObj) (hb : b ≤ maxObj) : a + b < szMod := by
  simp only [maxObj, szMod] at *; omega

/-! ## Function contracts -/

/-- C01/C02/C03: `BUFFER_new` gives an empty buffer, or NULL when the allocator refused. -/
theorem BUFFER_new_spec : Triple rel emp BUFFER_new
    (fun r => if r = 0 then ((¬ rel) ⋏ emp) else Buf r none) := by
  unfold BUFFER_new
  refine Triple.mallocS (by omega) (fun hr => ?_) (fun r h => ?_)
  · rw [if_neg (by simp)]
    exact Triple.pure (by rw [if_pos rfl]; exact entails_pand_r (entails_refl _) hr)
  · rw [if_pos h]; hoist
    step (store_spec ?_)
    step (store_spec ?_)
    refine Triple.pure ?_
    rw [if_neg h]; exact entails_refl _

/-- C01/C02/C03: `BUFFER_create` copies the source, or returns NULL (NULL source or refused allocation). -/
theorem BUFFER_create_spec {source : CharPtr} {bs : List UInt8} :
    Triple rel (Data source bs) (BUFFER_create source bs.length)
      (fun r => (if r = 0 then ((source = .null ∨ ¬ rel) ⋏ emp) else Buf r (some (bytesV bs)))
        ∗ Data source bs) := by
  unfold BUFFER_create
  refine Triple.ite (fun h => ?_) (fun h => ?_)
  · refine Triple.pure ?_
    rw [if_pos rfl, pand_sep, emp_sep]; exact entails_pand_r (entails_refl _) (Or.inl h)
  refine Triple.know (know_Data (by pick)) fun hlen => ?_
  refine Triple.mallocS (by omega) (fun hr => ?_) (fun r hr => ?_)
  · rw [if_pos rfl]
    refine Triple.pure ?_
    rw [if_pos rfl, pand_sep, emp_sep]; exact entails_pand_r (entails_refl _) (Or.inr hr)
  rw [if_neg hr]
  refine Triple.malloc (fun hr' => ?_) (fun b hb hlen' => ?_)
  · hoist
    step (store_spec ?_)
    rw [if_pos rfl]
    step free_spec
    refine Triple.pure ?_
    rw [if_pos rfl, pand_sep, emp_sep]
    exact entails_pand_r (entails_refl _) (Or.inr (hr'.resolve_right (by omega)))
  · hoist
    step (store_spec ?_)
    rw [if_neg hb]
    step (memcpy_data (bs := bs) (b := List.replicate bs.length .undef) (Nat.le_refl _) (by simp))
    step (store_spec ?_)
    refine Triple.pure ?_
    rw [if_neg hr, patch_full (by simp [bytesV])]
    simp only [Buf, hex_sep, List.take_length]
    refine entails_ex_r b ?_
    simp only [bytesV_length]
    sep_cancel

/-- C03: `BUFFER_delete` gives back exactly the memory of the buffer. -/
theorem BUFFER_delete_spec {h : Ptr} {a : Option Content} :
    Triple rel (OBuf h a) (BUFFER_delete h) (fun _ => emp) := by
  unfold BUFFER_delete
  cases a with
  | none =>
    unfold OBuf; hoist; rintro rfl
    rw [if_neg (by simp)]
    exact Triple.pure (entails_refl _)
  | some c =>
    refine Triple.know (OBuf_some_ne (by pick)) fun hne => ?_
    rw [if_pos hne]
    cases c with
    | none =>
      simp only [OBuf_none, OBuf_some, Buf_none, Buf_some]
      step (loadPtr_spec ?_)
      rw [if_neg (by simp)]
      last free_spec
      exact entails_of_eq (sep_emp _)
    | some vs =>
      simp only [OBuf_none, OBuf_some, Buf_none, Buf_some]
      hoist; intro p
      refine Triple.know (know_pts (p := p) (by pick) fun h _ => h) fun hp => ?_
      step (loadPtr_spec ?_)
      rw [if_pos hp]
      step free_spec
      last free_spec
      exact entails_of_eq (sep_emp _)


/-- Contract shape of the calls that change one buffer: `ok c c'` is the documented effect,
`bad c` the documented argument errors; besides those only a refused allocation makes the call fail,
and a failing call changes nothing. -/
def Effect (rel : Prop) (bad : Option Content → Prop) (oom : Option Content → Prop)
    (ok : Content → Content → Prop) (a : Option Content) (r : Nat) (a' : Option Content) : Prop :=
  (r = 0 ∧ ¬ bad a ∧ ∃ c c', a = some c ∧ a' = some c' ∧ ok c c') ∨
  (r ≠ 0 ∧ a' = a ∧ (bad a ∨ ¬ rel ∨ oom a))

/-- C01/C02/C03: `BUFFER_build`. -/
theorem BUFFER_build_spec {h : Ptr} {a : Option Content} {source : CharPtr} {bs : List UInt8} {size : Nat}
    (hs : size = bs.length ∨ source = .null) :
    Triple rel (OBuf h a ∗ Data source bs) (BUFFER_build h source size)
      (fun r => ∃∃ a', (Effect rel (fun a => a = none ∨ (size ≠ 0 ∧ source = .null)) (fun _ => False)
          (fun _ c' => c' = if size = 0 then none else some (bytesV bs)) a r a')
        ⋏ OBuf h a' ∗ Data source bs) := by
  unfold BUFFER_build
  cases a with
  | none =>
    simp only [OBuf_none, OBuf_some]
    hoist; rintro rfl
    rw [if_pos rfl]
    refine Triple.pure (entails_ex_r none (entails_pand_r ?_ (Or.inr ⟨by simp, rfl, Or.inl (Or.inl rfl)⟩)))
    rw [OBuf_null, emp_sep]; exact entails_refl _
  | some c =>
  refine Triple.know (OBuf_some_ne (by pick)) fun hne => ?_
  rw [if_neg hne]
  refine Triple.ite (fun hz => ?_) (fun hz => ?_)
  · have fin : ∀ P : HProp, (P ⊢ₕ OBuf h (some none) ∗ Data source bs) → P ⊢ₕ
        hex fun a' => (Effect rel (fun a => a = none ∨ (size ≠ 0 ∧ source = .null)) (fun _ => False)
          (fun _ c' => c' = if size = 0 then none else some (bytesV bs)) (some c) 0 a')
        ⋏ OBuf h a' ∗ Data source bs := fun P hP => by
      refine entails_ex_r (some none) (entails_pand_r hP (Or.inl ⟨rfl, by simp [hz], c, none, rfl, rfl, by simp [hz]⟩))
    cases c with
    | none =>
      simp only [OBuf_none, OBuf_some, Buf_none, Buf_some]
      step (loadPtr_spec ?_)
      step free_null_spec
      step (store_spec ?_)
      step (store_spec ?_)
      refine Triple.pure (fin _ ?_)
      simp only [OBuf_none, OBuf_some, Buf_none, Buf_some]; sep_cancel
    | some vs =>
      simp only [OBuf_none, OBuf_some, Buf_none, Buf_some]
      hoist; intro p
      step (loadPtr_spec ?_)
      step free_spec
      step (store_spec ?_)
      step (store_spec ?_)
      refine Triple.pure (fin _ ?_)
      simp only [OBuf_none, OBuf_some, Buf_none, Buf_some]; sep_cancel
  refine Triple.ite (fun hn => ?_) (fun hn => ?_)
  · refine Triple.pure (entails_ex_r (some c) (entails_pand_r (entails_refl _) ?_))
    exact Or.inr ⟨by simp, rfl, Or.inl (Or.inr ⟨hz, hn⟩)⟩
  have hsz : size = bs.length := hs.resolve_right hn
  refine Triple.know (know_Data (s := source) (by pick)) fun hlen => ?_
  have bad : (¬ rel ∨ maxObj < size) → Effect rel (fun a => a = none ∨ (size ≠ 0 ∧ source = .null)) (fun _ => False)
      (fun _ c' => c' = if size = 0 then none else some (bytesV bs)) (some c) 131 (some c) := fun hr =>
    Or.inr ⟨by simp, rfl, Or.inr (Or.inl (hr.resolve_right (by omega)))⟩
  have good : Effect rel (fun a => a = none ∨ (size ≠ 0 ∧ source = .null)) (fun _ => False)
      (fun _ c' => c' = if size = 0 then none else some (bytesV bs)) (some c) 0 (some (some (bytesV bs))) :=
    Or.inl ⟨rfl, by simp [hz, hn], c, some (bytesV bs), rfl, rfl, by simp [hz]⟩
  cases c with
  | none =>
    simp only [OBuf_none, OBuf_some, Buf_none, Buf_some]
    step (loadPtr_spec ?_)
    refine Triple.realloc_null (fun hr => ?_) (fun q hq hm => ?_)
    · rw [if_pos rfl]
      refine Triple.pure (entails_ex_r (some none) (entails_pand_r ?_ (bad hr)))
      simp only [OBuf_none, OBuf_some, Buf_none, Buf_some]; exact entails_refl _
    · rw [if_neg hq]
      step (store_spec ?_)
      step (store_spec ?_)
      step (memcpy_data (bs := bs) (b := List.replicate size .undef) (by omega) (by simp))
      refine Triple.pure (entails_ex_r _ (entails_pand_r ?_ good))
      rw [hsz, patch_full (by simp [bytesV]), List.take_length]
      simp only [OBuf_none, OBuf_some, Buf_none, Buf_some, hex_sep, bytesV_length]
      exact entails_ex_r q (by sep_cancel)
  | some vs =>
    simp only [OBuf_none, OBuf_some, Buf_none, Buf_some]
    hoist; intro p
    step (loadPtr_spec ?_)
    refine Triple.realloc (p := p) hz (by pick) (fun hr => ?_) (fun q hq hm => ?_)
    · rw [if_pos rfl]
      refine Triple.pure (entails_ex_r (some (some vs)) (entails_pand_r ?_ (bad hr)))
      simp only [OBuf_none, OBuf_some, Buf_none, Buf_some, hex_sep]; exact entails_ex_r p (by sep_cancel)
    · rw [if_neg hq]
      step (store_spec ?_)
      step (store_spec ?_)
      step (memcpy_data (dst := q) (bs := bs) (n := size)
        (b := vs.take size ++ List.replicate (size - vs.length) .undef) (by omega) (by simp; omega))
      refine Triple.pure (entails_ex_r _ (entails_pand_r ?_ good))
      rw [hsz, patch_full (by simp [bytesV]; omega), List.take_length]
      simp only [OBuf_none, OBuf_some, Buf_none, Buf_some, hex_sep, bytesV_length]
      exact entails_ex_r q (by sep_cancel)

/-- C01/C02/C03: `BUFFER_pre_build`. -/
theorem BUFFER_pre_build_spec {h : Ptr} {a : Option Content} {size : Nat} :
    Triple rel (OBuf h a) (BUFFER_pre_build h size)
      (fun r => ∃∃ a', (Effect rel (fun a => a = none ∨ size = 0 ∨ ∃ vs, a = some (some vs)) (fun _ => maxObj < size)
          (fun _ c' => c' = some (List.replicate size .undef)) a r a') ⋏ OBuf h a') := by
  unfold BUFFER_pre_build
  cases a with
  | none =>
    simp only [OBuf_none, OBuf_some]
    hoist; rintro rfl
    rw [if_pos rfl]
    refine Triple.pure (entails_ex_r none (entails_pand_r ?_ (Or.inr ⟨by simp, rfl, Or.inl (Or.inl rfl)⟩)))
    rw [OBuf_null]; exact entails_refl _
  | some c =>
  refine Triple.know (OBuf_some_ne (by pick)) fun hne => ?_
  rw [if_neg hne]
  refine Triple.ite (fun hz => ?_) (fun hz => ?_)
  · exact Triple.pure (entails_ex_r _ (entails_pand_r (entails_refl _)
      (Or.inr ⟨by simp, rfl, Or.inl (Or.inr (Or.inl hz))⟩)))
  cases c with
  | none =>
    simp only [OBuf_none, OBuf_some, Buf_none, Buf_some]
    step (loadPtr_spec ?_)
    rw [if_neg (by simp)]
    refine Triple.malloc (fun hr => ?_) (fun q hq hm => ?_)
    · step (store_spec ?_)
      rw [if_pos rfl]
      refine Triple.pure (entails_ex_r (some none) (entails_pand_r ?_ (Or.inr ⟨by simp, rfl, Or.inr hr⟩)))
      simp only [OBuf_none, OBuf_some, Buf_none, Buf_some]; exact entails_refl _
    · step (store_spec ?_)
      rw [if_neg hq]
      step (store_spec ?_)
      refine Triple.pure (entails_ex_r (some (some (List.replicate size .undef))) (entails_pand_r ?_
        (Or.inl ⟨rfl, by simp [hz], none, _, rfl, rfl, rfl⟩)))
      simp only [OBuf_none, OBuf_some, Buf_none, Buf_some, List.length_replicate]; exact entails_ex_r q (by sep_cancel)
  | some vs =>
    simp only [OBuf_none, OBuf_some, Buf_none, Buf_some]
    hoist; intro p
    refine Triple.know (know_pts (p := p) (by pick) fun h _ => h) fun hp => ?_
    step (loadPtr_spec ?_)
    rw [if_pos hp]
    refine Triple.pure (entails_ex_r (some (some vs)) (entails_pand_r ?_
      (Or.inr ⟨by simp, rfl, Or.inl (Or.inr (Or.inr ⟨vs, rfl⟩))⟩)))
    simp only [OBuf_none, OBuf_some, Buf_none, Buf_some]; exact entails_ex_r p (by sep_cancel)

/-- C01/C02/C03: `BUFFER_unbuild`. -/
theorem BUFFER_unbuild_spec {h : Ptr} {a : Option Content} :
    Triple rel (OBuf h a) (BUFFER_unbuild h)
      (fun r => ∃∃ a', (Effect True (fun a => a = none ∨ a = some none) (fun _ => False)
          (fun _ c' => c' = none) a r a') ⋏ OBuf h a') := by
  unfold BUFFER_unbuild
  cases a with
  | none =>
    simp only [OBuf_none, OBuf_some]
    hoist; rintro rfl
    rw [if_pos rfl]
    refine Triple.pure (entails_ex_r none (entails_pand_r ?_ (Or.inr ⟨by simp, rfl, Or.inl (Or.inl rfl)⟩)))
    rw [OBuf_null]; exact entails_refl _
  | some c =>
  refine Triple.know (OBuf_some_ne (by pick)) fun hne => ?_
  rw [if_neg hne]
  cases c with
  | none =>
    simp only [OBuf_none, OBuf_some, Buf_none, Buf_some]
    step (loadPtr_spec ?_)
    rw [if_neg (by simp)]
    refine Triple.pure (entails_ex_r (some none) (entails_pand_r ?_ (Or.inr ⟨by simp, rfl, Or.inl (Or.inr rfl)⟩)))
    simp only [OBuf_none, OBuf_some, Buf_none, Buf_some]; exact entails_refl _
  | some vs =>
    simp only [OBuf_none, OBuf_some, Buf_none, Buf_some]
    hoist; intro p
    refine Triple.know (know_pts (p := p) (by pick) fun h _ => h) fun hp => ?_
    step (loadPtr_spec ?_)
    rw [if_pos hp]
    step free_spec
    step (store_spec ?_)
    step (store_spec ?_)
    refine Triple.pure (entails_ex_r (some none) (entails_pand_r ?_ (Or.inl ⟨rfl, by simp, _, _, rfl, rfl, rfl⟩)))
    simp only [OBuf_none, OBuf_some, Buf_none, Buf_some]; exact entails_refl _

/-- C01/C02/C03: `BUFFER_enlarge`, for requests whose total does not exceed `SIZE_MAX`. -/
theorem BUFFER_enlarge_spec_partial {h : Ptr} {a : Option Content} {n : Nat}
    (hw : ∀ c, a = some c → clen c + n < szMod) :
    Triple rel (OBuf h a) (BUFFER_enlarge h n)
      (fun r => ∃∃ a', (Effect rel (fun a => a = none ∨ n = 0) (fun a => ∃ c, a = some c ∧ maxObj < clen c + n)
          (fun c c' => c' = some (c.getD [] ++ List.replicate n .undef)) a r a') ⋏ OBuf h a') := by
  unfold BUFFER_enlarge
  cases a with
  | none =>
    simp only [OBuf_none, OBuf_some]
    hoist; rintro rfl
    rw [if_pos rfl]
    refine Triple.pure (entails_ex_r none (entails_pand_r ?_ (Or.inr ⟨by simp, rfl, Or.inl (Or.inl rfl)⟩)))
    rw [OBuf_null]; exact entails_refl _
  | some c =>
  refine Triple.know (OBuf_some_ne (by pick)) fun hne => ?_
  rw [if_neg hne]
  refine Triple.ite (fun hz => ?_) (fun hz => ?_)
  · exact Triple.pure (entails_ex_r _ (entails_pand_r (entails_refl _)
      (Or.inr ⟨by simp, rfl, Or.inl (Or.inr hz)⟩)))
  have hw := hw c rfl
  cases c with
  | none =>
    simp only [OBuf_none, OBuf_some, Buf_none, Buf_some]
    step (loadPtr_spec ?_)
    step (loadInt_spec ?_)
    simp only [clen] at hw
    rw [szAdd_eq hw]; simp only [Nat.zero_add] at *
    refine Triple.realloc_null (fun hr => ?_) (fun q hq hm => ?_)
    · rw [if_pos rfl]
      refine Triple.pure (entails_ex_r (some none) (entails_pand_r ?_
        (Or.inr ⟨by simp, rfl, Or.inr (hr.imp id fun h => ⟨none, rfl, by simpa [clen] using h⟩)⟩)))
      simp only [OBuf_none, OBuf_some, Buf_none, Buf_some]; exact entails_refl _
    · rw [if_neg hq]
      step (store_spec ?_)
      step (store_spec ?_)
      refine Triple.pure (entails_ex_r (some (some (List.replicate n .undef))) (entails_pand_r ?_
        (Or.inl ⟨rfl, by simp [hz], none, _, rfl, rfl, rfl⟩)))
      simp only [OBuf_none, OBuf_some, Buf_none, Buf_some, List.length_replicate]; exact entails_ex_r q (by sep_cancel)
  | some vs =>
    simp only [OBuf_none, OBuf_some, Buf_none, Buf_some]
    hoist; intro p
    step (loadPtr_spec ?_)
    step (loadInt_spec ?_)
    simp only [clen] at *
    rw [szAdd_eq hw]
    refine Triple.realloc (p := p) (b := vs) (by omega) (by pick) (fun hr => ?_) (fun q hq hm => ?_)
    · rw [if_pos rfl]
      refine Triple.pure (entails_ex_r (some (some vs)) (entails_pand_r ?_
        (Or.inr ⟨by simp, rfl, Or.inr (hr.imp id fun h => ⟨_, rfl, h⟩)⟩)))
      simp only [OBuf_none, OBuf_some, Buf_none, Buf_some]; exact entails_ex_r p (by sep_cancel)
    · rw [if_neg hq]
      step (store_spec ?_)
      step (store_spec ?_)
      refine Triple.pure (entails_ex_r (some (some (vs ++ List.replicate n .undef))) (entails_pand_r ?_
        (Or.inl ⟨rfl, by simp [hz], _, _, rfl, rfl, rfl⟩)))
      rw [List.take_of_length_le (by omega), Nat.add_sub_cancel_left]
      simp only [OBuf_none, OBuf_some, Buf_none, Buf_some, List.length_append, List.length_replicate]
      exact entails_ex_r q (by sep_cancel)

/-- C01: the accessors report the abstract contents and change nothing. -/
theorem BUFFER_length_spec {h : Ptr} {a : Option Content} :
    Triple rel (OBuf h a) (BUFFER_length h) (fun r => (r = (a.map clen).getD 0) ⋏ OBuf h a) := by
  unfold BUFFER_length
  cases a with
  | none =>
    simp only [OBuf_none, OBuf_some]
    hoist; rintro rfl
    rw [if_pos rfl, eq_self, true_pand]
    exact Triple.pure (entails_pand_r (entails_refl _) rfl)
  | some c =>
  refine Triple.know (OBuf_some_ne (by pick)) fun hne => ?_
  rw [if_neg hne]
  cases c with
  | none =>
    simp only [OBuf_none, OBuf_some, Buf_none, Buf_some]
    last (loadInt_spec ?_)
    rw [sep_emp]; exact entails_refl _
  | some vs =>
    simp only [OBuf_none, OBuf_some, Buf_none, Buf_some]
    hoist; intro p
    last (loadInt_spec ?_)
    rw [pand_sep]
    exact entails_pand_l fun hh => entails_pand_r (entails_ex_r p (by sep_cancel)) hh

/-- C01: `BUFFER_size` writes the length, exactly when both arguments are non-NULL. -/
theorem BUFFER_size_spec {h : Ptr} {a : Option Content} {ok : Bool} :
    Triple rel (OBuf h a) (BUFFER_size h ok)
      (fun r => ((r.1 = 0 ↔ a ≠ none ∧ ok) ∧ r.2 = if r.1 = 0 then a.map clen else none) ⋏ OBuf h a) := by
  unfold BUFFER_size
  cases a with
  | none =>
    simp only [OBuf_none, OBuf_some]
    hoist; rintro rfl
    rw [if_pos (Or.inl rfl), eq_self, true_pand]
    exact Triple.pure (entails_pand_r (entails_refl _) (by simp))
  | some c =>
  refine Triple.know (OBuf_some_ne (by pick)) fun hne => ?_
  refine Triple.ite (fun hz => ?_) (fun hz => ?_)
  · exact Triple.pure (entails_pand_r (entails_refl _) (by simp [hz.resolve_left hne]))
  have hok : ok = true := by cases ok <;> simp_all
  cases c with
  | none =>
    simp only [OBuf_none, OBuf_some, Buf_none, Buf_some]
    step (loadInt_spec ?_)
    exact Triple.pure (entails_pand_r (entails_refl _) (by simp [hok, clen]))
  | some vs =>
    simp only [OBuf_none, OBuf_some, Buf_none, Buf_some]
    hoist; intro p
    step (loadInt_spec ?_)
    exact Triple.pure (entails_pand_r (entails_ex_r p (by sep_cancel)) (by simp [hok, clen]))

/-- `p` is what the pointer accessors return: NULL when there is no storage, else the address at which the
contents lie (`Buf` with the storage address exposed). -/
def BufAt (h p : Ptr) : Option Content → HProp
  | none => (h = 0 ∧ p = 0) ⋏ emp
  | some none => (p = 0) ⋏ h ↦ [.ptr 0, .int 0]
  | some (some vs) => h ↦ [.ptr p, .int vs.length] ∗ p ↦ vs

theorem BufAt_OBuf {h p : Ptr} {a : Option Content} : BufAt h p a ⊢ₕ OBuf h a := by
  cases a with
  | none => exact entails_pand_l fun hh => entails_pand_r (entails_refl _) hh.1
  | some c =>
    cases c with
    | none => exact entails_pand_l fun _ => entails_refl _
    | some vs => exact entails_ex_r p (entails_refl _)

/-- C01: `BUFFER_u_char` returns the address of the contents. -/
theorem BUFFER_u_char_spec {h : Ptr} {a : Option Content} :
    Triple rel (OBuf h a) (BUFFER_u_char h) (fun r => BufAt h r a) := by
  unfold BUFFER_u_char
  cases a with
  | none =>
    simp only [OBuf_none, OBuf_some]
    hoist; rintro rfl
    rw [if_pos rfl]
    exact Triple.pure (entails_pand_r (entails_refl _) (by simp))
  | some c =>
  refine Triple.know (OBuf_some_ne (by pick)) fun hne => ?_
  rw [if_neg hne]
  cases c with
  | none =>
    simp only [OBuf_none, OBuf_some, Buf_none, Buf_some]
    last (loadPtr_spec ?_)
    rw [sep_emp]; exact entails_refl _
  | some vs =>
    simp only [OBuf_none, OBuf_some, Buf_none, Buf_some]
    hoist; intro p
    last (loadPtr_spec ?_)
    rw [pand_sep]
    exact entails_pand_l fun hh => by rw [hh]; exact entails_refl _

/-- C01: `BUFFER_content` returns the address of the contents through its out parameter. -/
theorem BUFFER_content_spec {h : Ptr} {a : Option Content} {ok : Bool} :
    Triple rel (OBuf h a) (BUFFER_content h ok)
      (fun r => if a = none ∨ ok = false then ((r = (196, none)) ⋏ OBuf h a)
        else ∃∃ p : Nat, (r = (0, some p)) ⋏ BufAt h p a) := by
  unfold BUFFER_content
  cases a with
  | none =>
    simp only [OBuf_none, OBuf_some]
    hoist; rintro rfl
    rw [if_pos (Or.inl rfl)]
    refine Triple.pure ?_
    rw [if_pos (Or.inl trivial)]
    exact entails_pand_r (entails_pand_r (entails_refl _) rfl) rfl
  | some c =>
  refine Triple.know (OBuf_some_ne (by pick)) fun hne => ?_
  refine Triple.ite (fun hok => ?_) (fun hok => ?_)
  · refine Triple.pure ?_
    rw [if_pos (Or.inr (hok.resolve_left hne))]
    exact entails_pand_r (entails_refl _) rfl
  have hok' : ¬ (some c = none ∨ ok = false) := by simp_all
  cases c with
  | none =>
    simp only [OBuf_none, OBuf_some, Buf_none, Buf_some]
    step (loadPtr_spec ?_)
    refine Triple.pure ?_
    rw [if_neg hok']
    exact (entails_ex_r 0 (entails_pand_r (entails_pand_r (entails_refl _) rfl) rfl))
  | some vs =>
    simp only [OBuf_none, OBuf_some, Buf_none, Buf_some]
    hoist; intro p
    step (loadPtr_spec ?_)
    refine Triple.pure ?_
    rw [if_neg hok']
    exact (entails_ex_r p (entails_pand_r (entails_refl _) rfl))

/-- Documented errors of append/prepend on two different handles. -/
def badPair (a b : Option Content) : Prop := a = none ∨ b = none ∨ a = some none ∨ b = some none

/-- C01/C02/C03: `BUFFER_append` on two different handles, unless both buffers have storage of length 0. -/
theorem BUFFER_append_spec_partial {h1 h2 : Ptr} {a b : Option Content}
    (hz : ¬ (a = some (some []) ∧ b = some (some []))) :
    Triple rel (OBuf h1 a ∗ OBuf h2 b) (BUFFER_append h1 h2)
      (fun r => ∃∃ a', (Effect rel (fun a => badPair a b)
            (fun a => ∃ v w, a = some (some v) ∧ b = some (some w) ∧ maxObj < v.length + w.length)
            (fun c c' => ∃ v w, c = some v ∧ b = some (some w) ∧ c' = some (v ++ w)) a r a')
          ⋏ OBuf h1 a' ∗ OBuf h2 b) := by
  unfold BUFFER_append
  have stop : ∀ (n : Nat) (P : HProp), n ≠ 0 → badPair a b → (P ⊢ₕ OBuf h1 a ∗ OBuf h2 b) → Triple rel P (pure n)
      (fun r => ∃∃ a', (Effect rel (fun a => badPair a b)
            (fun a => ∃ v w, a = some (some v) ∧ b = some (some w) ∧ maxObj < v.length + w.length)
            (fun c c' => ∃ v w, c = some v ∧ b = some (some w) ∧ c' = some (v ++ w)) a r a')
          ⋏ OBuf h1 a' ∗ OBuf h2 b) := fun n P hn hb hP =>
    Triple.pure (entails_ex_r a (entails_pand_r hP (Or.inr ⟨hn, rfl, Or.inl hb⟩)))
  cases a with
  | none =>
    conv in OBuf h1 none => rw [OBuf]
    hoist; rintro rfl
    rw [if_pos (Or.inl rfl)]
    exact stop 294 _ (by simp) (Or.inl rfl) (by rw [OBuf_null, emp_sep]; exact entails_refl _)
  | some c1 =>
  cases b with
  | none =>
    refine Triple.ite (fun _ => stop 294 _ (by simp) (Or.inr (Or.inl rfl)) (entails_refl _)) (fun hh => ?_)
    simp only [OBuf_none, OBuf_some]
    hoist; intro h20
    exact absurd (Or.inr (Or.inl h20)) hh
  | some c2 =>
  simp only [OBuf_none, OBuf_some] at *
  refine Triple.know (Buf_disj (h1 := h1) (h2 := h2) Pick.last) fun hne => ?_
  refine Triple.know (OBuf_some_ne (h := h1) (c := c1) (by simp only [OBuf_none, OBuf_some]; pick)) fun hne1 => ?_
  refine Triple.know (OBuf_some_ne (h := h2) (c := c2) (by simp only [OBuf_none, OBuf_some]; pick)) fun hne2 => ?_
  rw [if_neg (by simp [hne, hne1, hne2])]
  cases c1 with
  | none =>
    conv in Buf h1 none => rw [Buf]
    step (loadPtr_spec ?_)
    rw [if_pos rfl]
    exact stop 303 _ (by simp) (by simp [badPair]) (entails_refl _)
  | some v =>
  cases c2 with
  | none =>
    simp only [Buf_none, Buf_some] at *
    hoist; intro p
    refine Triple.know (know_pts (p := p) (by pick) fun h _ => h) fun hp => ?_
    step (loadPtr_spec ?_)
    rw [if_neg hp]
    step (loadPtr_spec ?_)
    rw [if_pos rfl]
    refine stop 308 _ (by simp) (by simp [badPair]) ?_
    rw [hex_sep]; exact entails_ex_r p (by sep_cancel)
  | some w =>
    simp only [Buf_none, Buf_some] at *
    hoist; intro q p
    refine Triple.know (know_pts (p := p) (b := v) (by pick) fun h h' => And.intro h h') fun hp => ?_
    refine Triple.know (know_pts (p := q) (b := w) (by pick) fun h h' => And.intro h h') fun hq => ?_
    step (loadPtr_spec ?_)
    rw [if_neg hp.1]
    step (loadPtr_spec ?_)
    rw [if_neg hq.1]
    step (loadInt_spec ?_)
    step (loadInt_spec ?_)
    rw [szAdd_eq (sz_two hp.2 hq.2)]
    have hnz : v.length + w.length ≠ 0 := by
      intro h0
      apply hz
      rw [List.eq_nil_of_length_eq_zero (l := v) (by omega), List.eq_nil_of_length_eq_zero (l := w) (by omega)]
      simp
    refine Triple.realloc (p := p) (b := v) hnz (by pick) (fun hr => ?_) (fun t ht hm => ?_)
    · rw [if_pos rfl]
      refine Triple.pure (entails_ex_r (some (some v)) (entails_pand_r ?_
        (Or.inr ⟨by simp, rfl, Or.inr (hr.imp id fun h => ⟨_, _, rfl, rfl, h⟩)⟩)))
      simp only [OBuf_none, OBuf_some, Buf_none, Buf_some, hex_sep, sep_hex]
      exact entails_ex_r q (entails_ex_r p (by sep_cancel))
    · rw [if_neg ht, List.take_of_length_le (by omega), Nat.add_sub_cancel_left]
      step (store_spec ?_)
      step (memcpy_heap (p := q) (dst := t) (vs := w) (b := v ++ List.replicate w.length .undef) (off := v.length)
        (o := 0) (n := w.length) (by omega) (by simp))
      rw [List.drop_zero, List.take_length, patch_end rfl (by simp)]
      step (store_spec ?_)
      refine Triple.pure (entails_ex_r (some (some (v ++ w))) (entails_pand_r ?_
        (Or.inl ⟨rfl, by simp [badPair], _, _, rfl, rfl, _, _, rfl, rfl, rfl⟩)))
      simp only [OBuf_none, OBuf_some, Buf_none, Buf_some, hex_sep, sep_hex, List.length_append]
      exact entails_ex_r q (entails_ex_r t (by sep_cancel))

/-- C01/C02/C03: `BUFFER_prepend` on two different handles. -/
theorem BUFFER_prepend_spec {h1 h2 : Ptr} {a b : Option Content} :
    Triple rel (OBuf h1 a ∗ OBuf h2 b) (BUFFER_prepend h1 h2)
      (fun r => ∃∃ a', (Effect rel (fun a => badPair a b)
            (fun a => ∃ v w, a = some (some v) ∧ b = some (some w) ∧ maxObj < v.length + w.length)
            (fun c c' => ∃ v w, c = some v ∧ b = some (some w) ∧ c' = some (w ++ v)) a r a')
          ⋏ OBuf h1 a' ∗ OBuf h2 b) := by
  unfold BUFFER_prepend
  have stop : ∀ (n : Nat) (P : HProp), n ≠ 0 → badPair a b → (P ⊢ₕ OBuf h1 a ∗ OBuf h2 b) → Triple rel P (pure n)
      (fun r => ∃∃ a', (Effect rel (fun a => badPair a b)
            (fun a => ∃ v w, a = some (some v) ∧ b = some (some w) ∧ maxObj < v.length + w.length)
            (fun c c' => ∃ v w, c = some v ∧ b = some (some w) ∧ c' = some (w ++ v)) a r a')
          ⋏ OBuf h1 a' ∗ OBuf h2 b) := fun n P hn hb hP =>
    Triple.pure (entails_ex_r a (entails_pand_r hP (Or.inr ⟨hn, rfl, Or.inl hb⟩)))
  cases a with
  | none =>
    conv in OBuf h1 none => rw [OBuf]
    hoist; rintro rfl
    rw [if_pos (Or.inl rfl)]
    exact stop 337 _ (by simp) (Or.inl rfl) (by rw [OBuf_null, emp_sep]; exact entails_refl _)
  | some c1 =>
  cases b with
  | none =>
    refine Triple.ite (fun _ => stop 337 _ (by simp) (Or.inr (Or.inl rfl)) (entails_refl _)) (fun hh => ?_)
    simp only [OBuf_none, OBuf_some]
    hoist; intro h20
    exact absurd (Or.inr (Or.inl h20)) hh
  | some c2 =>
  simp only [OBuf_none, OBuf_some] at *
  refine Triple.know (Buf_disj (h1 := h1) (h2 := h2) Pick.last) fun hne => ?_
  refine Triple.know (OBuf_some_ne (h := h1) (c := c1) (by simp only [OBuf_none, OBuf_some]; pick)) fun hne1 => ?_
  refine Triple.know (OBuf_some_ne (h := h2) (c := c2) (by simp only [OBuf_none, OBuf_some]; pick)) fun hne2 => ?_
  rw [if_neg (by simp [hne, hne1, hne2])]
  cases c1 with
  | none =>
    conv in Buf h1 none => rw [Buf]
    step (loadPtr_spec ?_)
    rw [if_pos rfl]
    exact stop 346 _ (by simp) (by simp [badPair]) (entails_refl _)
  | some v =>
  cases c2 with
  | none =>
    simp only [Buf_none, Buf_some] at *
    hoist; intro p
    refine Triple.know (know_pts (p := p) (by pick) fun h _ => h) fun hp => ?_
    step (loadPtr_spec ?_)
    rw [if_neg hp]
    step (loadPtr_spec ?_)
    rw [if_pos rfl]
    refine stop 351 _ (by simp) (by simp [badPair]) ?_
    rw [hex_sep]; exact entails_ex_r p (by sep_cancel)
  | some w =>
    simp only [Buf_none, Buf_some] at *
    hoist; intro q p
    refine Triple.know (know_pts (p := p) (b := v) (by pick) fun h h' => And.intro h h') fun hp => ?_
    refine Triple.know (know_pts (p := q) (b := w) (by pick) fun h h' => And.intro h h') fun hq => ?_
    step (loadPtr_spec ?_)
    rw [if_neg hp.1]
    step (loadPtr_spec ?_)
    rw [if_neg hq.1]
    step (loadInt_spec ?_)
    step (loadInt_spec ?_)
    rw [szAdd_eq (sz_two hp.2 hq.2)]
    refine Triple.malloc (fun hr => ?_) (fun t ht hm => ?_)
    · rw [if_pos rfl]
      refine Triple.pure (entails_ex_r (some (some v)) (entails_pand_r ?_
        (Or.inr ⟨by simp, rfl, Or.inr (hr.imp id fun h => ⟨_, _, rfl, rfl, h⟩)⟩)))
      simp only [OBuf_none, OBuf_some, Buf_none, Buf_some, hex_sep, sep_hex]
      exact entails_ex_r q (entails_ex_r p (by sep_cancel))
    · rw [if_neg ht]
      step (memcpy_heap (p := q) (dst := t) (vs := w) (b := List.replicate (v.length + w.length) .undef) (off := 0)
        (o := 0) (n := w.length) (by omega) (by simp))
      rw [List.drop_zero, List.take_length, patch_zero]
      step (memcpy_heap (p := p) (dst := t) (vs := v) (off := w.length)
        (b := w ++ List.drop w.length (List.replicate (v.length + w.length) .undef))
        (o := 0) (n := v.length) (by omega) (by simp))
      rw [List.drop_zero, List.take_length, patch_end rfl (by simp)]
      step free_spec
      step (store_spec ?_)
      step (store_spec ?_)
      refine Triple.pure (entails_ex_r (some (some (w ++ v))) (entails_pand_r ?_
        (Or.inl ⟨rfl, by simp [badPair], _, _, rfl, rfl, _, _, rfl, rfl, rfl⟩)))
      simp only [OBuf_none, OBuf_some, Buf_none, Buf_some, hex_sep, sep_hex, List.length_append, Nat.add_comm w.length]
      exact entails_ex_r q (entails_ex_r t (by sep_cancel))

/-- C02: appending or prepending a buffer to itself is refused without effect. -/
theorem BUFFER_append_self {h : Ptr} {a : Option Content} :
    Triple rel (OBuf h a) (BUFFER_append h h) (fun r => (r = 294) ⋏ OBuf h a) ∧
    Triple rel (OBuf h a) (BUFFER_prepend h h) (fun r => (r = 337) ⋏ OBuf h a) := by
  constructor
  · unfold BUFFER_append; rw [if_pos (by simp)]
    exact Triple.pure (entails_pand_r (entails_refl _) rfl)
  · unfold BUFFER_prepend; rw [if_pos (by simp)]
    exact Triple.pure (entails_pand_r (entails_refl _) rfl)

/-- C01/C02/C03: `BUFFER_clone` gives an equal buffer in fresh memory (a buffer without storage clones to
storage of length 0), or NULL. -/
theorem BUFFER_clone_spec {h : Ptr} {a : Option Content} :
    Triple rel (OBuf h a) (BUFFER_clone h)
      (fun r => (if r = 0 then ((a = none ∨ ¬ rel) ⋏ emp)
        else ∃∃ c, (a = some c) ⋏ Buf r (some (c.getD []))) ∗ OBuf h a) := by
  unfold BUFFER_clone
  cases a with
  | none =>
    simp only [OBuf_none, OBuf_some]
    hoist; rintro rfl
    rw [if_pos rfl]
    refine Triple.pure ?_
    rw [if_pos rfl, eq_self, true_pand, pand_sep, emp_sep]
    exact entails_pand_r (entails_refl _) (Or.inl trivial)
  | some c =>
  refine Triple.know (OBuf_some_ne (by pick)) fun hne => ?_
  rw [if_neg hne]
  refine Triple.mallocS (by omega) (fun hr => ?_) (fun b hb => ?_)
  · rw [if_neg (by simp)]
    refine Triple.pure ?_
    rw [if_pos rfl, pand_sep, emp_sep]; exact entails_pand_r (entails_refl _) (Or.inr hr)
  rw [if_pos hb]
  cases c with
  | none =>
    simp only [OBuf_none, OBuf_some, Buf_none, Buf_some]
    hoist
    step (loadInt_spec ?_)
    refine Triple.malloc (fun hr => ?_) (fun q hq hm => ?_)
    · step (store_spec ?_)
      rw [if_pos rfl]
      step free_spec
      refine Triple.pure ?_
      rw [if_pos rfl, pand_sep, emp_sep]
      exact entails_pand_r (entails_refl _) (Or.inr (hr.resolve_right (by simp)))
    · step (store_spec ?_)
      rw [if_neg hq]
      step (loadPtr_spec ?_)
      unfold memcpy; rw [if_pos rfl]
      refine Triple.bind_pure ?_
      step (store_spec ?_)
      refine Triple.pure ?_
      rw [if_neg hb]
      simp only [hex_sep, pand_sep, List.replicate_zero]
      refine entails_ex_r none (entails_pand_r ?_ rfl)
      refine entails_ex_r q ?_
      simp only [Option.getD, List.length_nil]
      sep_cancel
  | some vs =>
    simp only [OBuf_none, OBuf_some, Buf_none, Buf_some]
    hoist; intro p
    refine Triple.know (know_pts (p := p) (b := vs) (by pick) fun h h' => And.intro h h') fun hp => ?_
    step (loadInt_spec ?_)
    refine Triple.malloc (fun hr => ?_) (fun q hq hm => ?_)
    · step (store_spec ?_)
      rw [if_pos rfl]
      step free_spec
      refine Triple.pure ?_
      rw [if_pos rfl, pand_sep, emp_sep]
      exact entails_pand_r (entails_ex_r p (by sep_cancel)) (Or.inr (hr.resolve_right (by omega)))
    · step (store_spec ?_)
      rw [if_neg hq]
      step (loadPtr_spec ?_)
      rw [CharPtr.ofPtr, if_neg hp.1]
      step (memcpy_heap (p := p) (dst := q) (vs := vs) (b := List.replicate vs.length .undef) (off := 0)
        (o := 0) (n := vs.length) (by omega) (by simp))
      rw [List.drop_zero, List.take_length, patch_full (by simp)]
      step (store_spec ?_)
      refine Triple.pure ?_
      rw [if_neg hb]
      simp only [hex_sep, pand_sep, sep_hex]
      refine entails_ex_r p (entails_ex_r (some vs) (entails_pand_r ?_ rfl))
      refine entails_ex_r q ?_
      simp only [Option.getD]
      sep_cancel

end Verif.Buffer
