import Verif.Lib
/-!
# `stepd`/`lastd`: like `step`/`last`, with side conditions on list lengths and lookups discharged after unification
-/
namespace Verif

macro "sided" : tactic => `(tactic| first
  | side
  | (show (_ : Nat) = _; first | (simp; done) | (simp; omega) | omega)
  | (show (_ : Nat) < _; first | (simp; done) | (simp; omega) | omega)
  | (show (_ : Nat) ≤ _; first | (simp; done) | (simp; omega) | omega)
  | (show (_ : Option _) = _; simp; done))

macro "stepd" t:term : tactic => `(tactic|
  (focus
     apply Triple.step $t
     (focus fr)
     (all_goals try sided)
     (focus ((try (intro r)); hoist; try (intro heq; subst r)))))

macro "lastd" t:term : tactic => `(tactic|
  (focus
     apply Triple.last $t
     (focus fr)
     (all_goals try sided)
     (focus (try (intro r)))))

variable {rel : Prop}

theorem storage_CStr {s : CharPtr} {t : List UInt8} :
    Triple rel (CStr s t) (storage s) (fun r => (bytesV (t ++ [0]) <+: r) ⋏ CStr s t) := by
  cases s with
  | null => unfold CStr; hoist; exact False.elim
  | lit l =>
    unfold CStr
    hoist
    intro h1 h2
    unfold storage
    exact Triple.pure (entails_pand_r (entails_pand_r (entails_refl _) ⟨h1, h2⟩) (cstrV_prefix h1).1)
  | heap p off =>
    unfold CStr
    hoist
    intro vs h1 h2
    refine (storage_pts h1).conseq (entails_refl _) fun r => entails_pand_l fun hr => ?_
    subst hr
    exact entails_pand_r (entails_ex_r vs (entails_pand_r (entails_refl _) ⟨h1, h2⟩)) (cstrV_prefix h2).1

theorem u8_all {P : UInt8 → Prop} (h : ∀ x : Fin 256, P (UInt8.ofNat x.val)) (c : UInt8) : P c := by
  have := h ⟨c.toNat, c.toNat_lt⟩
  simpa using this

/-- a block being filled receives a copy of the first `n` bytes of some data -/
theorem fill_copy {p : Ptr} {pre bs : List UInt8} {m off n : Nat} {src : CharPtr} (ho : off = pre.length) (hn : n ≤ bs.length) (hm : n ≤ m) :
    Triple rel (Fill p pre m ∗ Data src bs) (memcpy p off src n) (fun _ => Fill p (pre ++ bs.take n) (m - n) ∗ Data src bs) := by
  unfold Fill
  subst ho
  refine (memcpy_data (b := bytesV pre ++ List.replicate m .undef) hn (by simp [bytesV]; omega)).conseq (entails_refl _) fun _ =>
    sep_mono (entails_of_eq ?_) (entails_refl _)
  congr 1
  have hl : (bytesV (bs.take n)).length = n := by simp [bytesV]; omega
  rw [patch, hl, List.take_left' (bytesV_length _), List.drop_append, bytesV_append]
  rw [List.drop_eq_nil_of_le (by rw [bytesV_length]; omega), bytesV_length]
  simp [List.drop_replicate]

theorem Data_lit {l bs : List UInt8} (h : bs <+: l) (hl : l.length ≤ maxObj) : Data (.lit l) bs = emp := by
  funext x
  exact propext ⟨fun h => h.2, fun hh => ⟨⟨h, hl⟩, hh⟩⟩

end Verif
