import Verif.DList.Model
import Verif.Map.Rep
/-! # C17: doubly linked lists

A node is (address, client data behind the two links); a list is a head node and the sequence of its entries. -/
set_option linter.unusedSimpArgs false
set_option linter.unusedVariables false
namespace Verif.DList
open Verif
variable {rel : Prop}

abbrev Node := Nat × List Val

/-- address of the first node, or `e` -/
def first (ns : List Node) (e : Nat) : Nat :=
  match ns with
  | [] => e
  | n :: _ => n.1

/-- address of the last node, or `b` -/
def last : List Node → Nat → Nat
  | [], b => b
  | n :: ns, _ => last ns n.1

/-- one entry with its links -/
def Entry (n : Node) (f b : Nat) : HProp := n.1 ↦ (.ptr f :: .ptr b :: n.2)

/-- the nodes in order between the node at `b` and the node at `f` -/
def Seg (b : Nat) : List Node → Nat → HProp
  | [], _ => emp
  | n :: ns, f => Entry n (first ns f) b ∗ Seg n.1 ns f

/-- A well-formed list: head `h`, entries `es`. -/
def DL (h : Node) (es : List Node) : HProp := Entry h (first es h.1) (last es h.1) ∗ Seg h.1 es h.1

/-- An entry that is in no list: its links are whatever they are (indeterminate or stale). -/
def Loose (n : Node) : HProp := ∃∃ u : Val × Val, n.1 ↦ (u.1 :: u.2 :: n.2)

theorem first_append {l1 l2 : List Node} {e : Nat} : first (l1 ++ l2) e = first l1 (first l2 e) := by cases l1 <;> rfl
theorem last_append {l1 l2 : List Node} {b : Nat} : last (l1 ++ l2) b = last l2 (last l1 b) := by
  induction l1 generalizing b with
  | nil => rfl
  | cons n l1 ih => exact ih
theorem last_cons {n : Node} {l : List Node} {b : Nat} : last (n :: l) b = last l n.1 := rfl

theorem Seg_append {l1 l2 : List Node} {b f : Nat} : Seg b (l1 ++ l2) f = (Seg b l1 (first l2 f) ∗ Seg (last l1 b) l2 f) := by
  induction l1 generalizing b with
  | nil => simp [Seg, emp_sep, last]
  | cons n l1 ih => simp only [List.cons_append, Seg, ih, first_append, sep_assoc, last]

/-- a list seen from one of its entries -/
theorem DL_split {h x : Node} {l1 l2 : List Node} :
    DL h (l1 ++ x :: l2) = (Entry h (first l1 x.1) (last l2 x.1) ∗ Seg h.1 l1 x.1 ∗ Entry x (first l2 h.1) (last l1 h.1) ∗ Seg x.1 l2 h.1) := by
  unfold DL; rw [Seg_append, first_append, last_append]; rfl

/-- a ring has no distinguished node: any entry can be taken as the head -/
theorem DL_rotate {h x : Node} {l1 l2 : List Node} : DL h (l1 ++ x :: l2) = DL x (l2 ++ h :: l1) := by
  rw [DL_split, DL_split]
  rw [← sep_assoc, sep_comm, sep_assoc]

/-! ## Entries -/

theorem ldF {n : Node} {f b : Nat} : Triple rel (Entry n f b) (loadPtr n.1 fFlink) (fun r => (r = f) ⋏ Entry n f b) := by
  unfold Entry; last (loadPtr_spec (p := n.1) ?_)
  rename_i r; rw [sep_emp]; exact entails_refl _
theorem ldB {n : Node} {f b : Nat} : Triple rel (Entry n f b) (loadPtr n.1 fBlink) (fun r => (r = b) ⋏ Entry n f b) := by
  unfold Entry; last (loadPtr_spec (p := n.1) ?_)
  rename_i r; rw [sep_emp]; exact entails_refl _
theorem stF {n : Node} {f b f' : Nat} : Triple rel (Entry n f b) (store n.1 fFlink (.ptr f')) (fun r => Entry n f' b) := by
  unfold Entry; last (store_spec (p := n.1) ?_)
  rw [sep_emp]; exact entails_refl _
theorem stB {n : Node} {f b b' : Nat} : Triple rel (Entry n f b) (store n.1 fBlink (.ptr b')) (fun r => Entry n f b') := by
  unfold Entry; last (store_spec (p := n.1) ?_)
  rw [sep_emp]; exact entails_refl _

/-- relinking what follows the last of `l` (or the node `h` before `l`, if `l` is empty) -/
theorem setFlink {h : Node} {l : List Node} {f f' bl : Nat} :
    Triple rel (Entry h (first l f) bl ∗ Seg h.1 l f) (store (last l h.1) fFlink (.ptr f')) (fun _ => Entry h (first l f') bl ∗ Seg h.1 l f') := by
  by_cases hl : l = []
  · subst hl
    simp only [Seg, sep_emp, first, last]
    exact stF
  · obtain ⟨l', x, rfl⟩ : ∃ l' x, l = l' ++ [x] := ⟨_, _, (List.dropLast_concat_getLast hl).symm⟩
    rw [Seg_append, Seg_append, first_append, first_append, last_append]
    simp only [Seg, sep_emp, first, last]
    last (stF (n := x))
    sep_cancel

/-- relinking what precedes the first of `l` (or the node `h` after `l`, if `l` is empty) -/
theorem setBlink {h : Node} {l : List Node} {b b' fl : Nat} :
    Triple rel (Entry h fl (last l b) ∗ Seg b l h.1) (store (first l h.1) fBlink (.ptr b')) (fun _ => Entry h fl (last l b') ∗ Seg b' l h.1) := by
  cases l with
  | nil =>
    simp only [Seg, sep_emp, first, last]
    exact stB
  | cons x l =>
    simp only [Seg, sep_emp, first, last]
    last (stB (n := x))
    sep_cancel

/-- the addresses of the nodes of a list are distinct and not NULL -/
theorem know_Seg {es : List Node} {b f : Nat} : ∀ hp, Seg b es f hp → (es.map Prod.fst).Nodup ∧ 0 ∉ es.map Prod.fst := by
  induction es generalizing b with
  | nil => intro hp _; simp
  | cons n ns ih =>
    intro hp h
    have h' := h
    obtain ⟨x, y, hd, _, h1, h2⟩ := h
    obtain ⟨i1, i2⟩ := ih y h2
    have hnot : n.1 ∉ ns.map Prod.fst := by
      intro hm
      obtain ⟨m, hm, he⟩ := List.mem_map.1 hm
      obtain ⟨l1, l2, rfl⟩ := List.append_of_mem hm
      simp only [Seg] at h'
      rw [Seg_append] at h'
      simp only [Seg, Entry, he] at h'
      exact know_pts2 (p := n.1) (q := n.1) (by pick) (by pick) hp h' rfl
    refine ⟨?_, ?_⟩
    · simp only [List.map_cons, List.nodup_cons]; exact ⟨hnot, i1⟩
    · simp only [List.map_cons, List.mem_cons, not_or]; exact ⟨fun h => h1.1 h.symm, i2⟩

theorem know_DL {h : Node} {es : List Node} {P F : HProp} (pk : Pick P (DL h es) F) :
    ∀ hp, P hp → ((h :: es).map Prod.fst).Nodup ∧ 0 ∉ (h :: es).map Prod.fst := by
  intro hp hP; unfold Pick at pk; rw [pk] at hP
  obtain ⟨x, y, _, _, h1, _⟩ := hP
  have h1 : Seg (last es h.1) (h :: es) h.1 x := h1
  exact know_Seg x h1

/-! ## The calls -/

/-- C17 -/
theorem DList_InitializeListHead_spec {n : Node} : Triple rel (Loose n) (DList_InitializeListHead n.1) (fun _ => DL n []) := by
  unfold DList_InitializeListHead Loose
  hoist; intro u
  step (store_spec (p := n.1) ?_)
  last (store_spec (p := n.1) ?_)
  simp only [DL, Seg, Entry, first, last, sep_emp]; exact entails_refl _

/-- C17: nonzero exactly for a list with no entries -/
theorem DList_IsListEmpty_spec {h : Node} {es : List Node} :
    Triple rel (DL h es) (DList_IsListEmpty h.1) (fun r => (r ≠ 0 ↔ es = []) ⋏ DL h es) := by
  unfold DList_IsListEmpty
  refine Triple.know (know_DL (h := h) (es := es) (by pick)) fun hk => ?_
  unfold DL
  step (ldF (n := h))
  refine Triple.pure (entails_pand_r (entails_refl _) ?_)
  cases es with
  | nil => simp [first]
  | cons x l =>
    have hx : x.1 ≠ h.1 := by
      have := hk.1; simp only [List.map_cons, List.nodup_cons, List.mem_cons, not_or] at this; exact fun h => this.1.1 h.symm
    simp [first, hx]

/-- C17: `DList_RemoveEntryList` takes out exactly that entry; nonzero exactly if the list is now empty. -/
theorem DList_RemoveEntryList_spec {h x : Node} {l1 l2 : List Node} :
    Triple rel (DL h (l1 ++ x :: l2)) (DList_RemoveEntryList x.1)
      (fun r => (r ≠ 0 ↔ l1 ++ l2 = []) ⋏ DL h (l1 ++ l2) ∗ Loose x) := by
  unfold DList_RemoveEntryList
  refine Triple.know (know_DL (h := h) (es := l1 ++ x :: l2) (by pick)) fun hk => ?_
  rw [DL_split]
  step (ldF (n := x))
  step (ldB (n := x))
  step (setFlink (h := h) (l := l1) (f' := first l2 h.1))
  step (setBlink (h := h) (l := l2) (b' := last l1 h.1))
  refine Triple.pure (entails_pand_r ?_ ?_)
  · unfold DL Loose
    rw [Seg_append, first_append, last_append]
    unfold Entry
    simp only [hex_sep, sep_hex]
    refine entails_ex_r (.ptr (first l2 h.1), .ptr (last l1 h.1)) ?_
    sep_cancel
  · have hne : (if first l2 h.1 = last l1 h.1 then 1 else 0) ≠ 0 ↔ first l2 h.1 = last l1 h.1 := by simp
    rw [hne]
    have hnd := hk.1
    constructor
    · intro he
      by_cases h1 : l1 = []
      · subst h1
        cases l2 with
        | nil => rfl
        | cons y l2 => simp only [first, last] at he; simp [he] at hnd
      · obtain ⟨l', z, rfl⟩ : ∃ l' x, l1 = l' ++ [x] := ⟨_, _, (List.dropLast_concat_getLast h1).symm⟩
        rw [last_append] at he
        simp only [last] at he
        cases l2 with
        | nil => simp only [first] at he; simp [he] at hnd
        | cons y l2 =>
          simp only [first] at he
          simp [he, List.nodup_append] at hnd
    · intro he
      simp only [List.append_eq_nil_iff] at he
      rw [he.1, he.2]; rfl

/-- C17: `DList_RemoveHeadList` on a list with entries: takes out and returns the first. -/
theorem DList_RemoveHeadList_spec {h x : Node} {l : List Node} :
    Triple rel (DL h (x :: l)) (DList_RemoveHeadList h.1) (fun r => (r = x.1) ⋏ DL h l ∗ Loose x) := by
  unfold DList_RemoveHeadList
  rw [show x :: l = [] ++ x :: l from rfl, DL_split]
  simp only [Seg, emp_sep, first, last]
  step (ldF (n := h))
  step (ldF (n := x))
  step (stF (n := h))
  step (setBlink (h := h) (l := l) (b' := h.1))
  refine Triple.pure (entails_pand_r ?_ rfl)
  unfold DL Loose Entry
  simp only [hex_sep, sep_hex]
  refine entails_ex_r (.ptr (first l h.1), .ptr h.1) ?_
  sep_cancel

/-- C17: `DList_RemoveHeadList` on a list with no entries returns the head itself and changes nothing. -/
theorem DList_RemoveHeadList_empty {h : Node} :
    Triple rel (DL h []) (DList_RemoveHeadList h.1) (fun r => (r = h.1) ⋏ DL h []) := by
  unfold DList_RemoveHeadList DL
  simp only [Seg, sep_emp, first, last]
  step (ldF (n := h))
  step (ldF (n := h))
  step (stF (n := h))
  step (stB (n := h))
  exact Triple.pure (entails_pand_r (entails_refl _) rfl)

/-- C17: `DList_InsertTailList` appends. -/
theorem DList_InsertTailList_spec {h e : Node} {es : List Node} :
    Triple rel (DL h es ∗ Loose e) (DList_InsertTailList h.1 e.1) (fun _ => DL h (es ++ [e])) := by
  unfold DList_InsertTailList DL Loose
  hoist; intro u
  step (ldB (n := h))
  step (store_spec (p := e.1) ?_)
  step (store_spec (p := e.1) ?_)
  step (setFlink (h := h) (l := es) (f' := e.1))
  last (stB (n := h))
  rw [Seg_append, first_append, last_append]
  simp only [Seg, first, last, sep_emp, Entry, List.set]
  sep_cancel

/-- C17: `DList_InsertHeadList` prepends. -/
theorem DList_InsertHeadList_spec {h e : Node} {es : List Node} :
    Triple rel (DL h es ∗ Loose e) (DList_InsertHeadList h.1 e.1) (fun _ => DL h (e :: es)) := by
  unfold DList_InsertHeadList DL Loose
  hoist; intro u
  step (store_spec (p := e.1) ?_)
  step (ldF (n := h))
  step (store_spec (p := e.1) ?_)
  step (ldF (n := h))
  step (setBlink (h := h) (l := es) (b' := e.1))
  last (stF (n := h))
  simp only [Seg, first, last, sep_emp, Entry, List.set]
  sep_cancel

/-- C17: `DList_AppendTailList` splices the ring of `t` (`t` and everything after it) behind the entries of `h`, in order. -/
theorem DList_AppendTailList_spec {h t : Node} {es ts : List Node} :
    Triple rel (DL h es ∗ DL t ts) (DList_AppendTailList h.1 t.1) (fun _ => DL h (es ++ t :: ts)) := by
  unfold DList_AppendTailList
  rw [DL, DL, DL_split, sep_assoc]
  step (ldB (n := h))
  step (ldB (n := h))
  step (setFlink (h := h) (l := es) (f' := t.1))
  step (ldB (n := t))
  step (stB (n := h))
  step (ldB (n := t))
  step (setFlink (h := t) (l := ts) (f' := h.1))
  last (stB (n := t))
  sep_cancel

/-! ## Traversal -/

theorem walkF_spec {h : Node} {l2 : List Node} : ∀ {l1 : List Node},
    Triple rel (DL h (l1 ++ l2)) (walk fFlink h.1 (first l2 h.1)) (fun r => (r = l2.map Prod.fst) ⋏ DL h (l1 ++ l2)) := by
  induction l2 with
  | nil =>
    intro l1
    rw [show first [] h.1 = h.1 from rfl, walk, if_pos rfl]
    exact Triple.pure (entails_pand_r (entails_refl _) rfl)
  | cons n l2 ih =>
    intro l1
    rw [show first (n :: l2) h.1 = n.1 from rfl, walk]
    refine Triple.know (know_DL (h := h) (es := l1 ++ n :: l2) (by pick)) fun hk => ?_
    have hn : n.1 ≠ h.1 := by
      have := hk.1; simp only [List.map_cons, List.map_append, List.nodup_cons, List.mem_append, List.mem_cons, not_or] at this
      exact fun h => this.1.2.1 h.symm
    rw [if_neg hn]
    have ld : Triple rel (DL h (l1 ++ n :: l2)) (loadPtr n.1 fFlink) (fun r => (r = first l2 h.1) ⋏ DL h (l1 ++ n :: l2)) := by
      rw [DL_split]; last (ldF (n := n)); rename_i r; rw [pand_sep]
      refine entails_pand_l fun hr => entails_pand_r ?_ hr
      sep_cancel
    step ld
    have := ih (l1 := l1 ++ [n])
    rw [List.append_assoc, List.singleton_append] at this
    refine Triple.bind' this fun r => ?_
    hoist; rintro rfl
    exact Triple.pure (entails_pand_r (entails_refl _) rfl)

theorem walkB_spec {h : Node} (l1 : List Node) : ∀ {l2 : List Node},
    Triple rel (DL h (l1.reverse ++ l2)) (walk fBlink h.1 (first l1 h.1)) (fun r => (r = l1.map Prod.fst) ⋏ DL h (l1.reverse ++ l2)) := by
  induction l1 with
  | nil =>
    intro l2
    rw [show first [] h.1 = h.1 from rfl, walk, if_pos rfl]
    exact Triple.pure (entails_pand_r (entails_refl _) rfl)
  | cons n l1 ih =>
    intro l2
    rw [show first (n :: l1) h.1 = n.1 from rfl, walk]
    rw [List.reverse_cons, List.append_assoc, List.singleton_append]
    refine Triple.know (know_DL (h := h) (es := l1.reverse ++ n :: l2) (by pick)) fun hk => ?_
    have hn : n.1 ≠ h.1 := by
      have := hk.1; simp only [List.map_cons, List.map_append, List.nodup_cons, List.mem_append, List.mem_cons, not_or] at this
      exact fun h => this.1.2.1 h.symm
    rw [if_neg hn]
    have e : last l1.reverse h.1 = first l1 h.1 := by
      cases l1 with
      | nil => rfl
      | cons a l1 => rw [List.reverse_cons, last_append]; rfl
    have ld : Triple rel (DL h (l1.reverse ++ n :: l2)) (loadPtr n.1 fBlink) (fun r => (r = first l1 h.1) ⋏ DL h (l1.reverse ++ n :: l2)) := by
      rw [DL_split, e]; last (ldB (n := n)); rename_i r; rw [pand_sep]
      refine entails_pand_l fun hr => entails_pand_r ?_ hr
      sep_cancel
    step ld
    refine Triple.bind' (ih (l2 := n :: l2)) fun r => ?_
    hoist; rintro rfl
    exact Triple.pure (entails_pand_r (entails_refl _) rfl)

/-- C17: following `Flink` from the head ends and visits the entries in order. -/
theorem forward_spec {h : Node} {es : List Node} : Triple rel (DL h es) (forward h.1) (fun r => (r = es.map Prod.fst) ⋏ DL h es) := by
  unfold forward
  have ld : Triple rel (DL h es) (loadPtr h.1 fFlink) (fun r => (r = first es h.1) ⋏ DL h es) := by
    unfold DL; last (ldF (n := h)); rename_i r; rw [pand_sep]; exact entails_refl _
  step ld
  exact walkF_spec (l1 := [])

/-- C17: following `Blink` from the head ends and visits the entries in reverse order. -/
theorem backward_spec {h : Node} {es : List Node} : Triple rel (DL h es) (backward h.1) (fun r => (r = (es.map Prod.fst).reverse) ⋏ DL h es) := by
  unfold backward
  have e : last es h.1 = first es.reverse h.1 := by
    cases hl : es.reverse with
    | nil => simp at hl; subst hl; rfl
    | cons a l => rw [show es = l.reverse ++ [a] from by rw [← List.reverse_cons, ← hl, List.reverse_reverse], last_append]; rfl
  have ld : Triple rel (DL h es) (loadPtr h.1 fBlink) (fun r => (r = first es.reverse h.1) ⋏ DL h es) := by
    rw [← e]
    unfold DL; last (ldB (n := h)); rename_i r; rw [pand_sep]; exact entails_refl _
  step ld
  have := walkB_spec (rel := rel) (h := h) es.reverse (l2 := [])
  rw [List.reverse_reverse, List.append_nil, List.map_reverse] at this
  exact this

end Verif.DList
