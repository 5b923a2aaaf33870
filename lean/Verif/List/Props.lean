import Verif.List.Model
import Verif.Map.Rep
/-! # C15, C16: contracts of the list calls

The abstract value of a list is the sequence of its items: (item handle, value). -/
set_option linter.unusedSimpArgs false
set_option linter.unusedVariables false
namespace Verif.List
open Verif
variable {rel : Prop}

abbrev Items := List (Nat × Nat)

/-- handle of the first item, or `e` -/
def first (ns : Items) (e : Nat) : Nat :=
  match ns with
  | [] => e
  | n :: _ => n.1

/-- the nodes of the items, linked in order, the last one to `e` -/
def Nodes : Items → Nat → HProp
  | [], _ => emp
  | n :: ns, e => n.1 ↦ [.ptr n.2, .ptr (first ns e)] ∗ Nodes ns e

/-- The handle `h` owns a list with items `ns`. -/
def ListR (h : Ptr) (ns : Items) : HProp := h ↦ [.ptr (first ns 0)] ∗ Nodes ns 0

abbrev OList (h : Ptr) (a : Option Items) : HProp := ORep ListR h a

theorem first_append {l1 l2 : Items} {e : Nat} : first (l1 ++ l2) e = first l1 (first l2 e) := by
  cases l1 <;> rfl

theorem Nodes_append {l1 l2 : Items} {e : Nat} : Nodes (l1 ++ l2) e = (Nodes l1 (first l2 e) ∗ Nodes l2 e) := by
  induction l1 with
  | nil => simp [Nodes, emp_sep]
  | cons n l1 ih => simp only [List.cons_append, Nodes, ih, first_append, sep_assoc]

/-- handles of distinct items are distinct and not NULL -/
theorem know_Nodes {ns : Items} {e : Nat} : ∀ hp, Nodes ns e hp → (ns.map Prod.fst).Nodup ∧ 0 ∉ ns.map Prod.fst := by
  induction ns with
  | nil => intro hp _; simp
  | cons n ns ih =>
    intro hp h
    have h' := h
    obtain ⟨x, y, hd, _, h1, h2⟩ := h
    obtain ⟨i1, i2⟩ := ih y h2
    have hnot : n.1 ∉ ns.map Prod.fst := by
      intro hm
      obtain ⟨m, hm, he⟩ := List.mem_map.1 hm
      obtain ⟨l1, l2, rfl⟩ := List.append_of_mem hm
      simp only [Nodes] at h'
      rw [Nodes_append] at h'
      simp only [Nodes, he] at h'
      exact know_pts2 (p := n.1) (q := n.1) (by pick) (by pick) hp h' rfl
    refine ⟨?_, ?_⟩
    · simp only [List.map_cons, List.nodup_cons]; exact ⟨hnot, i1⟩
    · simp only [List.map_cons, List.mem_cons, not_or]; exact ⟨fun h => h1.1 h.symm, i2⟩

theorem know_ListR {h : Ptr} {ns : Items} {P F : HProp} (pk : Pick P (ListR h ns) F) :
    ∀ hp, P hp → h ≠ 0 ∧ (ns.map Prod.fst).Nodup ∧ 0 ∉ ns.map Prod.fst := by
  intro hp hP; unfold Pick at pk; rw [pk, ListR] at hP
  obtain ⟨x, y, _, _, ⟨u, v, _, _, h1, h2⟩, _⟩ := hP
  exact ⟨h1.1, know_Nodes v h2⟩


/-- one node of the list -/
theorem ListR_split {h : Ptr} {l1 l2 : Items} {n : Nat × Nat} :
    ListR h (l1 ++ n :: l2) = (h ↦ [.ptr (first (l1 ++ n :: l2) 0)] ∗ Nodes l1 n.1 ∗ n.1 ↦ [.ptr n.2, .ptr (first l2 0)] ∗ Nodes l2 0) := by
  unfold ListR; rw [Nodes_append]; rfl

theorem list_create_spec : Triple rel emp list_create (Made ListR (¬ rel) (· = [])) := by
  unfold list_create
  refine Triple.mallocS (by omega) (fun hr => ?_) (fun r hr => ?_)
  · rw [if_neg (by simp)]; exact Triple.pure (Made_fail hr)
  rw [if_pos hr]; hoist
  step (store_spec (p := r) ?_)
  refine Triple.pure (Made_ok [] hr rfl ?_)
  simp only [ListR, Nodes, first]; sep_cancel

theorem destroyLoop_spec {h : Ptr} {ns : Items} : Triple rel (ListR h ns) (destroyLoop h) (fun _ => h ↦ [.ptr 0]) := by
  induction ns with
  | nil =>
    rw [destroyLoop]; simp only [ListR, Nodes, first]
    step (loadPtr_spec (p := h) ?_)
    rw [if_neg (by simp)]
    exact Triple.pure (entails_refl _)
  | cons n ns ih =>
    rw [destroyLoop]
    refine Triple.know (know_ListR (h := h) (by pick)) fun hk => ?_
    have hn : n.1 ≠ 0 := fun h0 => hk.2.2 (by simp [h0])
    simp only [ListR, Nodes, first]
    step (loadPtr_spec (p := h) ?_)
    rw [if_pos hn]
    step (loadPtr_spec (p := n.1) ?_)
    step (store_spec (p := h) ?_)
    step (free_spec (p := n.1))
    exact ih

/-- C16: `list_destroy` gives back every node and the list (and nothing else: the items are in the frame). -/
theorem list_destroy_spec {h : Ptr} {a : Option Items} : Triple rel (OList h a) (list_destroy h) (fun _ => emp) := by
  unfold list_destroy
  cases a with
  | none =>
    simp only [OList, ORep_none]; hoist; rintro rfl
    rw [if_neg (by simp)]; exact Triple.pure (entails_refl _)
  | some ns =>
    simp only [OList, ORep_some]
    refine Triple.know (know_ListR (h := h) (by pick)) fun hk => ?_
    rw [if_pos hk.1]
    step (destroyLoop_spec (h := h))
    last (free_spec (p := h))
    rw [sep_emp]; exact entails_refl _

theorem lastLoop_spec {ns : Items} : ∀ {n : Nat × Nat} {l : Items} {x : Nat × Nat}, n :: ns = l ++ [x] →
    Triple rel (Nodes (n :: ns) 0) (lastLoop n.1) (fun r => (r = x.1) ⋏ Nodes (n :: ns) 0) := by
  induction ns with
  | nil =>
    intro n l x h
    cases l with
    | cons a l => simp at h
    | nil =>
      simp at h; subst h
      rw [lastLoop]; simp only [Nodes, first]
      step (loadPtr_spec (p := n.1) ?_)
      rw [if_neg (by simp)]
      exact Triple.pure (entails_pand_r (by rw [sep_emp]; exact entails_refl _) rfl)
  | cons m ns ih =>
    intro n l x h
    cases l with
    | nil => simp at h
    | cons a l =>
      simp only [List.cons_append, List.cons.injEq] at h
      rw [lastLoop]
      refine Triple.know (φ := m.1 ≠ 0) (fun hp hP => ?_) fun hm => ?_
      · have := (know_Nodes hp hP).2; simp at this; omega
      rw [Nodes]; simp only [first]
      step (loadPtr_spec (p := n.1) ?_)
      rw [if_pos hm]
      last (ih h.2)
      rename_i r
      rw [pand_sep]
      refine entails_pand_l fun hr => entails_pand_r ?_ hr
      sep_cancel

/-- What `list_add` does to the list: NULL and no change for a NULL argument or a refused allocation, else a fresh handle appended. -/
def AddE (rel : Prop) (a : Option Items) (v : Nat) (r : Nat) (a' : Option Items) : Prop :=
  (r = 0 ∧ a' = a ∧ (a = none ∨ v = 0 ∨ ¬ rel)) ∨
  ∃ ns, a = some ns ∧ v ≠ 0 ∧ r ≠ 0 ∧ r ∉ ns.map Prod.fst ∧ a' = some (ns ++ [(r, v)])

/-- C15: `list_add`. -/
theorem list_add_spec {h v : Nat} {a : Option Items} :
    Triple rel (OList h a) (list_add h v) (fun r => ∃∃ a', (AddE rel a v r a') ⋏ OList h a') := by
  unfold list_add
  cases a with
  | none =>
    simp only [OList, ORep_none]; hoist; rintro rfl
    rw [if_pos (Or.inl rfl)]
    exact Triple.pure (entails_ex_r none (entails_pand_r (entails_pand_r (entails_refl _) rfl) (Or.inl ⟨rfl, rfl, Or.inl rfl⟩)))
  | some ns =>
    simp only [OList, ORep_some]
    refine Triple.know (know_ListR (h := h) (by pick)) fun hk => ?_
    refine Triple.ite (fun h0 => ?_) (fun h0 => ?_)
    · exact Triple.pure (entails_ex_r (some ns) (entails_pand_r (entails_refl _) (Or.inl ⟨rfl, rfl, Or.inr (Or.inl (h0.resolve_left hk.1))⟩)))
    refine Triple.mallocS (by omega) (fun hr => ?_) (fun r hr => ?_)
    · rw [if_pos rfl]
      exact Triple.pure (entails_ex_r (some ns) (entails_pand_r (entails_refl _) (Or.inl ⟨rfl, rfl, Or.inr (Or.inr hr)⟩)))
    rw [if_neg hr]; hoist
    step (store_spec (p := r) ?_)
    step (store_spec (p := r) ?_)
    -- the result of a successful call
    have fin : ListR h (ns ++ [(r, v)]) ⊢ₕ ∃∃ a', (AddE rel (some ns) v r a') ⋏ OList h a' := by
      intro hp hP
      have hd := (know_ListR (h := h) (ns := ns ++ [(r, v)]) (P := ListR h (ns ++ [(r, v)])) (by pick) hp hP).2.1
      refine ⟨some (ns ++ [(r, v)]), Or.inr ⟨ns, rfl, by omega, hr, ?_, rfl⟩, hP⟩
      simp only [List.map_append, List.map_cons, List.map_nil] at hd
      have := (List.nodup_append.1 hd).2.2
      intro hm; exact this r hm r (by simp) rfl
    by_cases hns : ns = []
    · subst hns
      simp only [ListR, Nodes, first]
      step (loadPtr_spec (p := h) ?_)
      rw [if_pos rfl]
      step (store_spec (p := h) ?_)
      refine Triple.pure (entails_trans ?_ fin)
      simp only [ListR, Nodes, first, List.nil_append]
      rw [sep_emp]; sep_cancel
    · obtain ⟨l, x, hx⟩ : ∃ l x, ns = l ++ [x] := ⟨ns.dropLast, ns.getLast hns, (List.dropLast_concat_getLast hns).symm⟩
      obtain ⟨n, ms, hn⟩ : ∃ n ms, ns = n :: ms := by cases ns with
        | nil => exact absurd rfl hns
        | cons n ms => exact ⟨n, ms, rfl⟩
      have hn0 : n.1 ≠ 0 := fun h0 => hk.2.2 (by simp [hn, h0])
      rw [ListR, hn]
      simp only [first]
      step (loadPtr_spec (p := h) ?_)
      rw [if_neg hn0]
      step (lastLoop_spec (rel := rel) (n := n) (ns := ms) (l := l) (x := x) (by rw [← hn, hx]))
      rw [show Nodes (n :: ms) 0 = (Nodes l x.1 ∗ x.1 ↦ [.ptr x.2, .ptr 0]) from by
        rw [← hn, hx, Nodes_append]; simp [Nodes, first, sep_emp], sep_assoc]
      step (store_spec (p := x.1) ?_)
      rw [← hn]
      refine Triple.pure (entails_trans ?_ fin)
      rw [ListR, hx, List.append_assoc, Nodes_append]
      have e : first (l ++ ([x] ++ [(r, v)])) 0 = n.1 := by
        have : l ++ [x] = n :: ms := by rw [← hn, hx]
        rw [← List.append_assoc, this]; rfl
      rw [e]
      simp only [List.cons_append, List.nil_append, Nodes, first, sep_emp]
      sep_cancel

/-- What `list_remove` does: the item with that handle goes, if there is one; otherwise failure and no change. -/
def RemoveE (a : Option Items) (item : Nat) (r : Nat) (a' : Option Items) : Prop :=
  (r = 0 ∧ ∃ ns, a = some ns ∧ item ∈ ns.map Prod.fst ∧ a' = some (ns.filter fun n => n.1 ≠ item)) ∨
  (r ≠ 0 ∧ a' = a ∧ ∀ ns, a = some ns → item ∉ ns.map Prod.fst)

/-- the item before the cursor -/
def prevOf (l1 : Items) : Nat := match l1.getLast? with
  | none => 0
  | some x => x.1

theorem filter_out {l : Items} {x : Nat} (h : x ∉ l.map Prod.fst) : l.filter (fun n => n.1 ≠ x) = l := by
  rw [List.filter_eq_self]; intro a ha
  simp only [decide_eq_true_eq]; rintro rfl; exact h (List.mem_map.2 ⟨a, ha, rfl⟩)

/-- outcome of the loop: found and removed, or not found -/
def RemPost (h item : Nat) (l1 l2 : Items) (r : Nat) : HProp :=
  if item ∈ l2.map Prod.fst then ((r ≠ 0) ⋏ ListR h ((l1 ++ l2).filter fun n => n.1 ≠ item)) else ((r = 0) ⋏ ListR h (l1 ++ l2))

theorem removeLoop_spec {h item : Nat} {l2 : Items} : ∀ {l1 : Items}, item ∉ l1.map Prod.fst →
    Triple rel (ListR h (l1 ++ l2)) (removeLoop h item (first l2 0) (prevOf l1))
      (RemPost h item l1 l2) := by
  induction l2 with
  | nil =>
    intro l1 h1
    rw [show first ([] : Items) 0 = 0 from rfl, removeLoop]
    rw [if_neg (by simp)]
    refine Triple.pure ?_
    rw [RemPost, if_neg (by simp)]
    exact entails_pand_r (entails_refl _) rfl
  | cons n l2 ih =>
    intro l1 h1
    rw [show first (n :: l2) 0 = n.1 from rfl, removeLoop]
    refine Triple.know (know_ListR (h := h) (by pick)) fun hk => ?_
    have hn : n.1 ≠ 0 := fun h0 => hk.2.2 (by simp [h0])
    have hnd := hk.2.1
    rw [if_pos hn]
    refine Triple.ite (fun he => ?_) (fun he => ?_)
    · have hm : item ∈ (n :: l2).map Prod.fst := by simp [he]
      have hl2 : item ∉ l2.map Prod.fst := by
        simp only [List.map_append, List.map_cons] at hnd
        have := (List.nodup_cons.1 (List.nodup_append.1 hnd).2.1).1
        rw [← he]; exact this
      have hf : (l1 ++ n :: l2).filter (fun n => n.1 ≠ item) = l1 ++ l2 := by
        rw [List.filter_append, filter_out h1, List.filter_cons, if_neg (by simp [he]), filter_out hl2]
      have hpost : RemPost h item l1 (n :: l2) = fun r => (r ≠ 0) ⋏ ListR h (l1 ++ l2) := by
        funext r; rw [RemPost, if_pos hm, hf]
      rw [hpost, ListR_split]
      step (loadPtr_spec (p := n.1) ?_)
      rcases hl : l1.getLast? with _ | x
      · have : l1 = [] := by simpa using hl
        subst this
        rw [if_neg (by simp [prevOf])]
        simp only [List.nil_append, Nodes, first]
        step (store_spec (p := h) ?_)
        step (free_spec (p := n.1))
        refine Triple.pure (entails_pand_r ?_ hn)
        rw [ListR]; sep_cancel
      · obtain ⟨l, rfl⟩ : ∃ l, l1 = l ++ [x] := by
          obtain ⟨l, h⟩ := List.getLast?_eq_some_iff.1 hl; exact ⟨l, h⟩
        have hp : prevOf (l ++ [x]) = x.1 := by simp [prevOf]
        have hx : x.1 ≠ 0 := fun h0 => hk.2.2 (by simp [h0])
        rw [hp, if_pos hx]
        rw [Nodes_append, show Nodes [x] n.1 = (x.1 ↦ [.ptr x.2, .ptr n.1]) from by simp [Nodes, first, sep_emp]]
        simp only [sep_assoc]
        step (store_spec (p := x.1) ?_)
        step (free_spec (p := n.1))
        refine Triple.pure (entails_pand_r ?_ hn)
        have e : first (l ++ [x] ++ n :: l2) 0 = first (l ++ x :: l2) 0 := by cases l <;> rfl
        rw [e, show l ++ [x] ++ l2 = l ++ x :: l2 from by simp, ListR_split, show first [x] n.1 = x.1 from rfl]
        sep_cancel
    · rw [ListR_split]
      step (loadPtr_spec (p := n.1) ?_)
      have := ih (l1 := l1 ++ [n]) (by simp only [List.map_append, List.map_cons, List.map_nil, List.mem_append, List.mem_singleton]; exact fun h => h.elim h1 fun h => he h.symm)
      rw [List.append_assoc, List.singleton_append, show prevOf (l1 ++ [n]) = n.1 from by simp [prevOf]] at this
      have e : item ∈ (n :: l2).map Prod.fst ↔ item ∈ l2.map Prod.fst := by
        simp only [List.map_cons, List.mem_cons]; exact ⟨fun h => h.resolve_left fun h => he h.symm, Or.inr⟩
      have hpost : RemPost h item (l1 ++ [n]) l2 = RemPost h item l1 (n :: l2) := by
        funext r; simp only [RemPost, e, List.append_assoc, List.singleton_append]
      rw [hpost] at this
      refine this.pre ?_
      rw [ListR_split]; sep_cancel

/-- C15: `list_remove`; `item` may be any pointer. -/
theorem list_remove_spec {h item : Nat} {a : Option Items} :
    Triple rel (OList h a) (list_remove h item) (fun r => ∃∃ a', (RemoveE a item r a') ⋏ OList h a') := by
  unfold list_remove
  cases a with
  | none =>
    simp only [OList, ORep_none]; hoist; rintro rfl
    rw [if_pos (Or.inl rfl)]
    exact Triple.pure (entails_ex_r none (entails_pand_r (entails_pand_r (entails_refl _) rfl) (Or.inr ⟨by omega, rfl, by simp⟩)))
  | some ns =>
    simp only [OList, ORep_some]
    refine Triple.know (know_ListR (h := h) (by pick)) fun hk => ?_
    refine Triple.ite (fun h0 => ?_) (fun h0 => ?_)
    · refine Triple.pure (entails_ex_r (some ns) (entails_pand_r (entails_refl _) (Or.inr ⟨by omega, rfl, ?_⟩)))
      rintro ns' h'; cases h'; rw [h0.resolve_left hk.1]; exact hk.2.2
    have hd : Triple rel (ListR h ns) (loadPtr h fHead) (fun r => (r = first ns 0) ⋏ ListR h ns) := by
      unfold ListR
      last (loadPtr_spec (p := h) ?_)
      rename_i r
      rw [pand_sep]; exact entails_refl _
    step hd
    have := removeLoop_spec (rel := rel) (h := h) (item := item) (l2 := ns) (l1 := []) (by simp)
    rw [List.nil_append] at this
    refine Triple.bind' this fun r => ?_
    by_cases hm : item ∈ ns.map Prod.fst
    · rw [RemPost, if_pos hm]; hoist; intro hr
      rw [if_neg hr]
      exact Triple.pure (entails_ex_r (some _) (entails_pand_r (entails_refl _) (Or.inl ⟨rfl, ns, rfl, hm, rfl⟩)))
    · rw [RemPost, if_neg hm]; hoist; intro hr
      rw [if_pos hr]
      refine Triple.pure (entails_ex_r (some ns) (entails_pand_r (entails_refl _) (Or.inr ⟨by omega, rfl, ?_⟩)))
      rintro ns' h'; cases h'; exact hm

/-- C15: `list_get_head_item`: the first item's handle, NULL if there is none. -/
theorem list_get_head_item_spec {h : Nat} {a : Option Items} :
    Triple rel (OList h a) (list_get_head_item h) (fun r => (r = first (a.getD []) 0) ⋏ OList h a) := by
  unfold list_get_head_item
  cases a with
  | none =>
    simp only [OList, ORep_none]; hoist; rintro rfl
    rw [if_pos rfl]
    exact Triple.pure (entails_pand_r (entails_pand_r (entails_refl _) rfl) rfl)
  | some ns =>
    simp only [OList, ORep_some]
    refine Triple.know (know_ListR (h := h) (by pick)) fun hk => ?_
    rw [if_neg hk.1]
    unfold ListR
    last (loadPtr_spec (p := h) ?_)
    rename_i r
    rw [pand_sep]; exact entails_refl _

/-- C15: `list_get_next_item` on the handle of any item of a list: the handle of the following item, NULL after the last. -/
theorem list_get_next_item_spec {h : Nat} {l1 l2 : Items} {n : Nat × Nat} :
    Triple rel (ListR h (l1 ++ n :: l2)) (list_get_next_item n.1) (fun r => (r = first l2 0) ⋏ ListR h (l1 ++ n :: l2)) := by
  unfold list_get_next_item
  refine Triple.know (know_ListR (h := h) (by pick)) fun hk => ?_
  have hn : n.1 ≠ 0 := fun h0 => hk.2.2 (by simp [h0])
  rw [if_neg hn, ListR_split]
  last (loadPtr_spec (p := n.1) ?_)
  rename_i r
  rw [pand_sep]
  refine entails_pand_l fun hr => entails_pand_r ?_ hr
  sep_cancel

/-- C15: `list_item_get_value` on the handle of any item of a list: its value. -/
theorem list_item_get_value_spec {h : Nat} {l1 l2 : Items} {n : Nat × Nat} :
    Triple rel (ListR h (l1 ++ n :: l2)) (list_item_get_value n.1) (fun r => (r = n.2) ⋏ ListR h (l1 ++ n :: l2)) := by
  unfold list_item_get_value
  refine Triple.know (know_ListR (h := h) (by pick)) fun hk => ?_
  have hn : n.1 ≠ 0 := fun h0 => hk.2.2 (by simp [h0])
  rw [if_neg hn, ListR_split]
  last (loadPtr_spec (p := n.1) ?_)
  rename_i r
  rw [pand_sep]
  refine entails_pand_l fun hr => entails_pand_r ?_ hr
  sep_cancel

theorem item_null : list_get_next_item 0 = pure 0 ∧ list_item_get_value 0 = pure 0 := by
  simp [list_get_next_item, list_item_get_value]

theorem findLoop_spec {h : Nat} {mf : Ptr → M Bool} {X : HProp} {g : Nat × Nat → Bool} {l2 : Items} : ∀ {l1 : Items},
    (∀ n ∈ l1 ++ l2, Triple rel (ListR h (l1 ++ l2) ∗ X) (mf n.1) (fun b => (b = g n) ⋏ ListR h (l1 ++ l2) ∗ X)) →
    Triple rel (ListR h (l1 ++ l2) ∗ X) (findLoop mf (first l2 0))
      (fun r => (r = first (l2.filter g) 0) ⋏ ListR h (l1 ++ l2) ∗ X) := by
  induction l2 with
  | nil =>
    intro l1 hm
    rw [show first ([] : Items) 0 = 0 from rfl, findLoop]
    rw [if_neg (by simp)]
    exact Triple.pure (entails_pand_r (entails_refl _) rfl)
  | cons n l2 ih =>
    intro l1 hm
    rw [show first (n :: l2) 0 = n.1 from rfl, findLoop]
    refine Triple.know (know_ListR (h := h) (ns := l1 ++ n :: l2) (by pick)) fun hk => ?_
    have hn : n.1 ≠ 0 := fun h0 => hk.2.2 (by simp [h0])
    rw [if_pos hn]
    refine Triple.bind' (hm n (by simp)) fun b => ?_
    hoist; rintro rfl
    refine Triple.ite (fun hg => ?_) (fun hg => ?_)
    · refine Triple.pure (entails_pand_r (entails_refl _) ?_)
      simp [hg, first]
    · have hnext : Triple rel (ListR h (l1 ++ n :: l2)) (loadPtr n.1 fNext) (fun r => (r = first l2 0) ⋏ ListR h (l1 ++ n :: l2)) := by
        have := list_get_next_item_spec (rel := rel) (h := h) (l1 := l1) (l2 := l2) (n := n)
        unfold list_get_next_item at this
        rwa [if_neg hn] at this
      step hnext
      have e : l1 ++ n :: l2 = (l1 ++ [n]) ++ l2 := by simp
      rw [e] at hm ⊢
      have := ih (l1 := l1 ++ [n]) hm
      simpa [hg] using this

/-- C15: `list_find` returns the handle of the first item that the match function accepts, NULL if there is none.  The match
function is any client code that answers `g` of the item and leaves the list and its own data `X` as they were. -/
theorem list_find_spec {h : Nat} {ns : Items} {mf : Ptr → M Bool} {X : HProp} {g : Nat × Nat → Bool}
    (hm : ∀ n ∈ ns, Triple rel (ListR h ns ∗ X) (mf n.1) (fun b => (b = g n) ⋏ ListR h ns ∗ X)) :
    Triple rel (ListR h ns ∗ X) (list_find h (some mf)) (fun r => (r = first (ns.filter g) 0) ⋏ ListR h ns ∗ X) := by
  unfold list_find
  dsimp only
  refine Triple.know (know_ListR (h := h) (ns := ns) (by pick)) fun hk => ?_
  rw [if_neg hk.1]
  have hd : Triple rel (ListR h ns) (loadPtr h fHead) (fun r => (r = first ns 0) ⋏ ListR h ns) := by
    unfold ListR
    last (loadPtr_spec (p := h) ?_)
    rename_i r
    rw [pand_sep]; exact entails_refl _
  step hd
  exact findLoop_spec (l1 := []) hm

theorem list_find_null {h : Nat} {mf : Ptr → M Bool} : list_find h none = pure 0 ∧ list_find 0 (some mf) = pure 0 := by
  simp [list_find]

theorem walk_spec {h : Nat} {l2 : Items} : ∀ {l1 : Items},
    Triple rel (ListR h (l1 ++ l2)) (walk (first l2 0)) (fun r => (r = l2) ⋏ ListR h (l1 ++ l2)) := by
  induction l2 with
  | nil =>
    intro l1
    rw [show first ([] : Items) 0 = 0 from rfl, walk]
    rw [if_pos rfl]
    exact Triple.pure (entails_pand_r (entails_refl _) rfl)
  | cons n l2 ih =>
    intro l1
    rw [show first (n :: l2) 0 = n.1 from rfl, walk]
    refine Triple.know (know_ListR (h := h) (by pick)) fun hk => ?_
    have hn : n.1 ≠ 0 := fun h0 => hk.2.2 (by simp [h0])
    rw [if_neg hn]
    step (list_item_get_value_spec (rel := rel) (h := h) (l1 := l1) (l2 := l2) (n := n))
    step (list_get_next_item_spec (rel := rel) (h := h) (l1 := l1) (l2 := l2) (n := n))
    have := ih (l1 := l1 ++ [n])
    rw [List.append_assoc, List.singleton_append] at this
    refine Triple.bind' this fun r => ?_
    hoist; rintro rfl
    exact Triple.pure (entails_pand_r (entails_refl _) rfl)

/-- C15: walking the list from the head ends, and visits the items in order with their values. -/
theorem traverse_spec {h : Nat} {a : Option Items} :
    Triple rel (OList h a) (traverse h) (fun r => (r = a.getD []) ⋏ OList h a) := by
  unfold traverse
  step list_get_head_item_spec
  cases a with
  | none =>
    rw [show first ((none : Option Items).getD []) 0 = 0 from rfl, walk, if_pos rfl]
    exact Triple.pure (entails_pand_r (entails_refl _) rfl)
  | some ns =>
    exact walk_spec (l1 := [])

/-! ## Histories -/

inductive Op where
  | create
  | destroy (i : Nat)
  | add (i : Nat) (v : Nat)
  | remove (i : Nat) (item : Nat)
  | traverse (i : Nat)
  /-- `list_find` with a match function that compares the value of the item (obtained by `list_item_get_value`) -/
  | find (i : Nat) (g : Nat → Bool)

inductive Out where
  | handle (ok : Bool)
  | done
  | ptr (p : Nat)
  | code (ok : Bool)
  | items (l : Items)
  deriving DecidableEq

def matchValue (g : Nat → Bool) (item : Ptr) : M Bool := do
  let v ← list_item_get_value item
  pure (g v)

def exec : Op → List Nat → M (Option Out × List Nat)
  | .create, env => do let h ← list_create; pure (some (.handle (decide (h ≠ 0))), env ++ [h])
  | .destroy i, env => on1 env i fun h => do list_destroy h; pure (some .done, env.set i 0)
  | .add i v, env => on1 env i fun h => do let r ← list_add h v; pure (some (.ptr r), env)
  | .remove i x, env => on1 env i fun h => do let r ← list_remove h x; pure (some (.code (decide (r = 0))), env)
  | .traverse i, env => on1 env i fun h => do let r ← traverse h; pure (some (.items r), env)
  | .find i g, env => on1 env i fun h => do let r ← list_find h (some (matchValue g)); pure (some (.ptr r), env)

/-- What the calls mean on the abstract lists. -/
def AStep (rel : Prop) : Op → List (Option Items) → Option Out → List (Option Items) → Prop
  | .create, as => fun o as' => (o = some (.handle false) ∧ ¬ rel ∧ as' = as ++ [none]) ∨ (o = some (.handle true) ∧ as' = as ++ [some []])
  | .destroy i, as => On1 as i (fun _ o a' => o = .done ∧ a' = none)
  | .add i v, as => On1 as i (fun a o a' => ∃ r, o = .ptr r ∧ AddE rel a v r a')
  | .remove i x, as => On1 as i (fun a o a' => ∃ r, o = .code (decide (r = 0)) ∧ RemoveE a x r a')
  | .traverse i, as => On1 as i (fun a o a' => a' = a ∧ o = .items (a.getD []))
  | .find i g, as => On1 as i (fun a o a' => a' = a ∧ o = .ptr (first ((a.getD []).filter fun n => g n.2) 0))

theorem exec_spec (op : Op) (_ : True) (env : List Nat) (as : List (Option Items)) :
    Triple rel (Own OList env as) (exec op env) (fun r => ∃∃ as', (AStep rel op as r.1 as') ⋏ Own OList r.2 as') := by
  refine Triple.know (φ := env.length = as.length) Own_len fun hl => ?_
  cases op with
  | create =>
    exact lift_new (f := Out.handle) (S := AStep rel .create as) list_create_spec (fun hb => Or.inl ⟨rfl, hb, rfl⟩)
      (fun x hx => Or.inr ⟨rfl, by rw [hx]⟩)
  | destroy i =>
    exact lift_del (S := AStep rel (.destroy i) as) hl (fun h a => list_destroy_spec) On1.skip (fun a ha => On1.call ha ⟨rfl, rfl⟩)
  | add i v =>
    exact lift_op1 (f := Out.ptr) (S := AStep rel (.add i v) as) hl (fun h a => list_add_spec) On1.skip
      (fun a r a' ha hE => On1.call ha ⟨r, rfl, hE⟩)
  | remove i x =>
    exact lift_op1 (f := fun r => Out.code (decide (r = 0))) (S := AStep rel (.remove i x) as) hl (fun h a => list_remove_spec) On1.skip
      (fun a r a' ha hE => On1.call ha ⟨r, rfl, hE⟩)
  | traverse i =>
    exact lift_get1 (f := Out.items) (S := AStep rel (.traverse i) as) hl (fun h a => traverse_spec) On1.skip
      (fun a r ha hE => On1.read ha ⟨rfl, by rw [hE]⟩)
  | find i g =>
    refine lift_get1 (f := Out.ptr) (S := AStep rel (.find i g) as) (E := fun a r => r = first ((a.getD []).filter fun n => g n.2) 0) hl (fun h a => ?_) On1.skip
      (fun a r ha hE => On1.read ha ⟨rfl, by rw [hE]⟩)
    cases a with
    | none =>
      simp only [OList, ORep_none]; hoist; rintro rfl
      rw [(list_find_null (h := 0)).2]
      exact Triple.pure (entails_pand_r (entails_pand_r (entails_refl _) rfl) rfl)
    | some ns =>
      have := list_find_spec (rel := rel) (h := h) (ns := ns) (mf := matchValue g) (X := emp) (g := fun n => g n.2) (by
        intro n hn
        obtain ⟨l1, l2, rfl⟩ := List.append_of_mem hn
        simp only [sep_emp]
        unfold matchValue
        step (list_item_get_value_spec (rel := rel) (h := h) (l1 := l1) (l2 := l2) (n := n))
        exact Triple.pure (entails_pand_r (entails_refl _) rfl))
      simp only [sep_emp] at this
      exact this

/-- C15+C16 over histories: any sequence of calls on any number of lists, whatever the allocator does, runs without undefined
behaviour and ends, gives the results of a sequence of (handle, value) items, and uses exactly the memory of the live lists. -/
theorem list_history (ops : List Op) (env : List Nat) (as : List (Option Items)) :
    Triple rel (Own OList env as) (execAll exec ops env)
      (fun r => ∃∃ as', (Steps (AStep rel) ops as r.1 as') ⋏ Own OList r.2 as') :=
  history_ok (good := fun _ => True) exec_spec ops (fun _ _ => trivial) env as

/-- C16: any calls, then destroy all lists: nothing is left allocated. -/
theorem list_no_leak (ops : List Op) (al : Nat → Heap → Nat → Nat) :
    ∃ s', (do let r ← execAll exec ops []; releaseAll list_destroy r.2) (St.start al) = some (.ok ((), s'))
      ∧ s'.heap = Heap.empty :=
  no_leak (good := fun _ => True) exec_spec (fun h a => list_destroy_spec) ops (fun _ _ => trivial) al

/-- Non-vacuity: with an allocator that never refuses, create a list, add 7 and 8, look at it and destroy it: the walk sees two
distinct handles with the values 7 and 8. -/
example : ∃ al, ∃ p q s', p ≠ q ∧
    (do let r ← execAll exec [.create, .add 0 7, .add 0 8, .traverse 0, .destroy 0] []; pure r.1) (St.start al) =
      some (.ok ([some (.handle true), some (.ptr p), some (.ptr q), some (.items [(p, 7), (q, 8)]), some .done], s')) := by
  obtain ⟨al, hal⟩ := exists_reliable
  refine ⟨al, ?_⟩
  have t := list_history (rel := True) [.create, .add 0 7, .add 0 8, .traverse 0, .destroy 0] [] []
  rw [Own_nil] at t
  obtain ⟨a, s', h1, as', h2, _⟩ := t.run (St.start al) Heap.fin_empty (fun _ => hal) rfl
  obtain ⟨outs, env⟩ := a
  rcases h2 with _ | ⟨hs, h2⟩
  simp only [AStep, not_true_eq_false, false_and, and_false, false_or] at hs
  obtain ⟨rfl, rfl⟩ := hs
  rcases h2 with _ | ⟨hs, h2⟩
  simp [AStep, On1, AddE] at hs
  obtain ⟨_, rfl, _, ⟨p, rfl, hp, rfl⟩, rfl⟩ := hs
  rcases h2 with _ | ⟨hs, h2⟩
  simp [AStep, On1, AddE] at hs
  obtain ⟨_, rfl, _, ⟨q, rfl, hq, hqp, rfl⟩, rfl⟩ := hs
  rcases h2 with _ | ⟨hs, h2⟩
  simp [AStep, On1] at hs
  obtain ⟨_, rfl, _, ⟨rfl, rfl⟩, rfl⟩ := hs
  rcases h2 with _ | ⟨hs, h2⟩
  simp [AStep, On1] at hs
  obtain ⟨_, rfl, _, ⟨rfl, rfl⟩, rfl⟩ := hs
  cases h2
  refine ⟨p, q, s', fun h => hqp h.symm, ?_⟩
  show (execAll exec _ [] (St.start al) >>= fun r => _) = _
  simp only [h1]; rfl

end Verif.List
