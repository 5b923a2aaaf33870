import Verif.Pool
import Verif.Crt.Props
import Verif.Map.Spec
/-! # Representation of maps in memory -/
set_option linter.unusedSimpArgs false
set_option linter.unusedVariables false
namespace Verif.Map
open Verif Verif.Crt
variable {rel : Prop}

/-- the block at `p` begins with the C string `t` -/
abbrev CS (p : Ptr) (t : Text) : HProp := CStr (.heap p 0) t

/-- an array of owned strings; it may have slots beyond its elements (after a refused shrink) -/
def Vec (p : Ptr) (ts : List Text) : HProp :=
  ∃∃ (ps : List Nat) (ex : List Val), p ↦ (ps.map Val.ptr ++ ex) ∗ Own CS ps ts

/-- the same, where the empty array is the NULL pointer -/
def Arr (p : Ptr) (ts : List Text) : HProp :=
  match ts with
  | [] => (p = 0) ⋏ emp
  | _ :: _ => Vec p ts

/-- The handle `h` owns the map `m`. -/
def MapR (h : Ptr) (m : MapV) : HProp :=
  ∃∃ (kp : Nat) (vp : Nat), (m.keys.Nodup) ⋏
    h ↦ [.ptr kp, .ptr vp, .int m.pairs.length, .int m.filter] ∗ Arr kp m.keys ∗ Arr vp m.vals

abbrev OMap (h : Ptr) (a : Option MapV) : HProp := ORep MapR h a

theorem Arr_nil {p : Ptr} : Arr p [] = ((p = 0) ⋏ emp) := rfl
theorem Arr_null : Arr 0 [] = emp := by rw [Arr_nil, eq_self, true_pand]
theorem Arr_ne {p : Ptr} {ts : List Text} (h : ts ≠ []) : Arr p ts = Vec p ts := by
  cases ts with
  | nil => exact absurd rfl h
  | cons t ts => rfl

theorem know_Own {A : Type} {R : Ptr → A → HProp} {env : List Nat} {as : List A} {P F : HProp} (pk : Pick P (Own R env as) F) :
    ∀ h, P h → env.length = as.length := by
  intro h hp; unfold Pick at pk; rw [pk] at hp
  obtain ⟨x, y, _, _, h1, _⟩ := hp
  exact h1.1

theorem Arr_intro {p : Ptr} {ps : List Nat} {ex : List Val} {ts : List Text} (h : ts ≠ []) :
    p ↦ (ps.map Val.ptr ++ ex) ∗ Own CS ps ts ⊢ₕ Arr p ts := by
  rw [Arr_ne h]
  exact entails_ex_r ps (entails_ex_r ex (entails_refl _))

theorem Own_cons {A : Type} {R : Ptr → A → HProp} {p : Nat} {ps : List Nat} {a : A} {as : List A} :
    Own R (p :: ps) (a :: as) = (R p a ∗ Own R ps as) := by
  unfold Own; simp only [List.zip_cons_cons, Pool, sep_pand]; simp

theorem Own_erase {A : Type} {R : Ptr → A → HProp} {ps : List Nat} {as : List A} {i p : Nat} {a : A}
    (hp : ps[i]? = some p) (ha : as[i]? = some a) :
    Own R ps as = (R p a ∗ Own R (ps.eraseIdx i) (as.eraseIdx i)) := by
  induction i generalizing ps as with
  | zero =>
    cases ps with
    | nil => simp at hp
    | cons q ps =>
    cases as with
    | nil => simp at ha
    | cons b as =>
    simp at hp ha; subst hp; subst ha
    rw [List.eraseIdx_zero, List.eraseIdx_zero, Own_cons]; rfl
  | succ i ih =>
    cases ps with
    | nil => simp at hp
    | cons q ps =>
    cases as with
    | nil => simp at ha
    | cons b as =>
    simp at hp ha
    rw [List.eraseIdx_cons_succ, List.eraseIdx_cons_succ, Own_cons, Own_cons, ih hp ha, sep_left_comm]

theorem Own_drop {A : Type} {R : Ptr → A → HProp} {ps : List Nat} {as : List A} {i p : Nat} {a : A}
    (hp : ps[i]? = some p) (ha : as[i]? = some a) :
    Own R (ps.drop i) (as.drop i) = (R p a ∗ Own R (ps.drop (i + 1)) (as.drop (i + 1))) := by
  obtain ⟨h1, h2⟩ := List.getElem?_eq_some_iff.1 hp
  obtain ⟨h3, h4⟩ := List.getElem?_eq_some_iff.1 ha
  rw [List.drop_eq_getElem_cons h1, List.drop_eq_getElem_cons h3, Own_cons, h2, h4]

theorem Own_snoc_eq {A : Type} {R : Ptr → A → HProp} {env : List Nat} {as : List A} {h : Nat} {a : A} (hl : env.length = as.length) :
    Own R (env ++ [h]) (as ++ [a]) = (R h a ∗ Own R env as) := by
  unfold Own
  rw [List.zip_append hl]
  simp only [List.zip_cons_cons, List.zip_nil_left, Pool_snoc, sep_pand, hl, List.length_append, List.length_cons, List.length_nil]

theorem free_CS {p : Ptr} {t : Text} : Triple rel (CS p t) (free p) (fun _ => emp) := by
  simp only [CS, CStr_heap0]; hoist; intro vs _
  exact free_spec

theorem get_of_lt {α} {l : List α} {i : Nat} (h : i < l.length) : ∃ x, l[i]? = some x := ⟨_, List.getElem?_eq_getElem h⟩

theorem arr_get {ps : List Nat} {ex : List Val} {i q : Nat} (h : ps[i]? = some q) :
    (ps.map Val.ptr ++ ex)[i]? = some (.ptr q) := by
  obtain ⟨h1, h2⟩ := List.getElem?_eq_some_iff.1 h
  rw [List.getElem?_append_left (by simpa using h1)]
  simp [h]

theorem know_MapR {h : Ptr} {m : MapV} {P R : HProp} (pk : Pick P (MapR h m) R) : ∀ hp, P hp → h ≠ 0 ∧ m.keys.Nodup := by
  intro hp hP; unfold Pick at pk; rw [pk, MapR, hex_sep] at hP
  obtain ⟨kp, hP⟩ := hP
  rw [hex_sep] at hP
  obtain ⟨vp, hP⟩ := hP
  rw [pand_sep, sep_assoc] at hP
  obtain ⟨hn, x, y, _, _, h1, _⟩ := hP
  exact ⟨h1.1, hn⟩

/-- reading through an argument that shares memory with another -/
theorem Triple.via {α} {P A C F : HProp} {c : M α} {Q : α → HProp} (hA : A = (C ∗ F))
    (t : Triple rel (P ∗ C) c (fun r => Q r ∗ C)) : Triple rel (P ∗ A) c (fun r => Q r ∗ A) := by
  rw [hA, ← sep_assoc]
  refine (t.frame F).conseq (entails_refl _) fun r => ?_
  rw [sep_assoc]; exact entails_refl _

/-- `Arg s o`, or any memory the text of `s` can be read from -/
def ArgReads (C : HProp) (s : CharPtr) (o : Option Text) : Prop :=
  match o with
  | none => C = Arg s none
  | some t => Reads C s t

theorem Arg_reads {s : CharPtr} {o : Option Text} : ArgReads (Arg s o) s o := by
  cases o with
  | none => rfl
  | some t => exact CStr_reads

/-- One or two argument strings, possibly the same one: `A` contains both, separately or shared. -/
def Args2 (A : HProp) (key : CharPtr) (ok : Option Text) (value : CharPtr) (ov : Option Text) : Prop :=
  (∃ C F, ArgReads C key ok ∧ A = (C ∗ F)) ∧ (∃ C F, ArgReads C value ov ∧ A = (C ∗ F))

theorem Args2.two {key value : CharPtr} {ok ov : Option Text} : Args2 (Arg key ok ∗ Arg value ov) key ok value ov :=
  ⟨⟨_, _, Arg_reads, rfl⟩, ⟨_, _, Arg_reads, sep_comm _ _⟩⟩
theorem Args2.same {s : CharPtr} {o : Option Text} : Args2 (Arg s o) s o s o :=
  ⟨⟨_, emp, Arg_reads, (sep_emp _).symm⟩, ⟨_, emp, Arg_reads, (sep_emp _).symm⟩⟩
/-- the value in any memory it can be read from -/
theorem Args2.reads {key value : CharPtr} {k v : Text} {C : HProp} (R : Reads C value v) : Args2 (Arg key (some k) ∗ C) key (some k) value (some v) :=
  ⟨⟨_, _, Arg_reads, rfl⟩, ⟨_, _, R, sep_comm _ _⟩⟩
/-- both in the same memory -/
theorem Args2.shared {key value : CharPtr} {k v : Text} {C : HProp} (R1 : Reads C key k) (R2 : Reads C value v) : Args2 C key (some k) value (some v) :=
  ⟨⟨_, emp, R1, (sep_emp _).symm⟩, ⟨_, emp, R2, (sep_emp _).symm⟩⟩

theorem know_Arg {s : CharPtr} {o : Option Text} {P F : HProp} (pk : Pick P (Arg s o) F) : ∀ h, P h → (s = .null ↔ o = none) := by
  cases o with
  | none =>
    intro h hp; unfold Pick at pk; rw [pk, Arg_none, pand_sep] at hp
    simp [hp.1]
  | some t =>
    intro h hp
    have := know_CStr (s := s) (t := t) pk h hp
    simp [this.1]

theorem know_via {A C F P R : HProp} {φ : Prop} (hA : A = (C ∗ F)) (pk : Pick P A R) (k : ∀ h, (C ∗ F) h → φ) : ∀ h, P h → φ := by
  intro h hp; unfold Pick at pk; rw [pk, hA] at hp
  obtain ⟨x, y, _, _, h1, _⟩ := hp
  exact k x h1

end Verif.Map
