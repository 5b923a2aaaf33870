import Verif.Tac
/-! # Memory a text can be read from

`Reads C s t`: with the memory `C`, the pointer `s` reads as the NUL-terminated text `t`, and reading leaves `C` exactly as it
was.  `CStr s t` is such memory; so is a whole block `p ↦ vs` for a pointer into its middle, where `CStr` would forget what comes
before the pointer. -/
set_option linter.unusedSimpArgs false
set_option linter.unusedVariables false
namespace Verif
variable {rel : Prop}

structure Reads (C : HProp) (s : CharPtr) (t : List UInt8) : Prop where
  know' : ∀ h, C h → s ≠ .null ∧ NoNul t ∧ t.length < maxObj
  cstr : ∀ {rel : Prop}, Triple rel C (Verif.cstr s) (fun r => (r = t) ⋏ C)
  memcpy : ∀ {rel : Prop} {dst : Ptr} {off n : Nat} {b : Block}, n ≤ t.length + 1 → off + n ≤ b.length →
    Triple rel (dst ↦ b ∗ C) (Verif.memcpy dst off s n) (fun _ => dst ↦ patch b off (bytesV ((t ++ [0]).take n)) ∗ C)

theorem CStr_reads {s : CharPtr} {t : List UInt8} : Reads (CStr s t) s t where
  know' := know_CStr (R := emp) (by unfold Pick; rw [sep_emp])
  cstr := cstr_spec
  memcpy := memcpy_cstr

theorem pts_reads {p off : Nat} {vs : List Val} {t : List UInt8} (h1 : off ≤ vs.length) (h2 : cstrV (vs.drop off) = some t) :
    Reads (p ↦ vs) (.heap p off) t where
  know' := fun h hp => know_CStr (R := emp) (s := .heap p off) (t := t) (by unfold Pick; rw [sep_emp]) h
    (by unfold CStr; exact ⟨vs, ⟨h1, h2⟩, hp⟩)
  cstr := cstr_pts h1 h2
  memcpy := by
    intro rel dst o n b hn hb
    have ⟨h3, h4⟩ := cstrV_prefix h2
    unfold Verif.memcpy
    refine Triple.ite (fun h => ?_) (fun h => ?_)
    · subst h
      refine Triple.pure (entails_of_eq ?_)
      simp [patch, bytesV]
    refine Triple.know (know_pts2 (p := dst) (q := p) (by pick) (by pick)) fun hne => ?_
    step (storage_pts h1)
    have hl := h3.length_le
    simp only [bytesV_length, List.length_append, List.length_cons, List.length_nil] at hl
    rw [if_pos (by omega)]; dsimp only; rw [if_neg (Ne.symm hne)]
    have e : (vs.drop off).take n = bytesV ((t ++ [0]).take n) := by
      rw [prefix_take h3 (by simp [bytesV_length]; omega)]; simp [bytesV]
    rw [e]
    have el : (bytesV ((t ++ [0]).take n)).length = n := by rw [bytesV_length, List.length_take]; simp; omega
    last (storeN_spec' (b := b) (by rw [el]; exact hb))
    exact entails_refl _

theorem lit_reads {l t : List UInt8} (h1 : cstrV (bytesV l) = some t) (h2 : l.length ≤ maxObj) : Reads emp (.lit l) t := by
  have e : CStr (.lit l) t = emp := by
    unfold CStr; funext h; apply propext
    constructor
    · exact fun h => h.2
    · exact fun h => ⟨⟨h1, h2⟩, h⟩
  rw [← e]; exact CStr_reads

namespace Reads
variable {C : HProp} {s : CharPtr} {t : List UInt8}

theorem know (R : Reads C s t) {P F : HProp} (pk : Pick P C F) : ∀ h, P h → s ≠ .null ∧ NoNul t ∧ t.length < maxObj := by
  intro h hp; unfold Pick at pk; rw [pk] at hp
  obtain ⟨x, y, hd, rfl, hc, _⟩ := hp
  exact R.know' x hc

/-- the text is still there with more memory around -/
theorem frame (R : Reads C s t) (F : HProp) : Reads (C ∗ F) s t where
  know' := fun h hp => by
    obtain ⟨x, y, _, _, hc, _⟩ := hp
    exact R.know' x hc
  cstr := (R.cstr.frame F).conseq (entails_refl _) fun r => by rw [pand_sep]; exact entails_refl _
  memcpy := fun hn hb => ((R.memcpy hn hb).frame F).conseq (by rw [sep_assoc]; exact entails_refl _) fun r => by rw [sep_assoc]; exact entails_refl _

theorem strlen (R : Reads C s t) : Triple rel C (Verif.strlen s) (fun r => (r = t.length) ⋏ C) := by
  unfold Verif.strlen
  step R.cstr
  exact Triple.pure (entails_pand_r (entails_refl _) rfl)

theorem strcmp (R : Reads C s t) {a : CharPtr} {x : List UInt8} :
    Triple rel (CStr a x ∗ C) (Verif.strcmp a s) (fun r => (r = strcmpL x t) ⋏ CStr a x ∗ C) := by
  unfold Verif.strcmp
  step (cstr_spec (s := a))
  step R.cstr
  exact Triple.pure (entails_pand_r (by sep_cancel) rfl)

theorem strcpy (R : Reads C s t) {dst : Ptr} {off : Nat} {b : Block} (hb : off + t.length + 1 ≤ b.length) :
    Triple rel (dst ↦ b ∗ C) (Verif.strcpy dst off s) (fun _ => dst ↦ patch b off (bytesV (t ++ [0])) ∗ C) := by
  unfold Verif.strcpy
  step R.cstr
  last (R.memcpy (b := b) (Nat.le_refl _) (by omega))
  rw [sep_emp, List.take_of_length_le (by simp)]
  exact entails_refl _

end Reads
end Verif
