import Verif.DList.Props
import Verif.Hist
/-! # C17 over histories: a client with any number of entries and lists -/
set_option linter.unusedSimpArgs false
namespace Verif.DList
open Verif
variable {rel : Prop}

/-- The client's view: the lists it has (head, entries in order) and its entries that are in no list. -/
structure World where
  lists : List (Node × List Node)
  loose : List Node

def AllLists : List (Node × List Node) → HProp
  | [] => emp
  | r :: rs => DL r.1 r.2 ∗ AllLists rs
def AllLoose : List Node → HProp
  | [] => emp
  | n :: ns => Loose n ∗ AllLoose ns

/-- the memory of the client's entries -/
def Rep (w : World) : HProp := AllLists w.lists ∗ AllLoose w.loose

/-- `h` followed by `es` is one of the rings (a ring can be entered at any of its nodes), `R` the others -/
def Sees (ls : List (Node × List Node)) (h : Node) (es : List Node) (R : List (Node × List Node)) : Prop :=
  ∃ h' es', ls.Perm ((h', es') :: R) ∧ ∃ a b, h' :: es' = a ++ b ∧ h :: es = b ++ a

theorem DL_rot {h h' : Node} {es es' : List Node} (e : ∃ a b, h' :: es' = a ++ b ∧ h :: es = b ++ a) : DL h' es' = DL h es := by
  obtain ⟨a, b, h1, h2⟩ := e
  cases a with
  | nil => simp only [List.nil_append, List.append_nil] at h1 h2; rw [← h1] at h2; injection h2 with h3 h4; rw [h3, h4]
  | cons x a =>
    cases b with
    | nil => simp only [List.nil_append, List.append_nil] at h1 h2; rw [← h1] at h2; injection h2 with h3 h4; rw [h3, h4]
    | cons y b =>
      simp only [List.cons_append, List.cons.injEq] at h1 h2
      rw [h1.1, h1.2, h2.1, h2.2, DL_rotate]

theorem AllLists_perm {l1 l2 : List (Node × List Node)} (p : l1.Perm l2) : AllLists l1 = AllLists l2 := by
  induction p with
  | nil => rfl
  | cons x _ ih => simp only [AllLists, ih]
  | swap x y l => simp only [AllLists]; rw [sep_left_comm]
  | trans _ _ ih1 ih2 => rw [ih1, ih2]
theorem AllLoose_perm {l1 l2 : List Node} (p : l1.Perm l2) : AllLoose l1 = AllLoose l2 := by
  induction p with
  | nil => rfl
  | cons x _ ih => simp only [AllLoose, ih]
  | swap x y l => simp only [AllLoose]; rw [sep_left_comm]
  | trans _ _ ih1 ih2 => rw [ih1, ih2]
theorem AllLists_sees {ls R : List (Node × List Node)} {h : Node} {es : List Node} (s : Sees ls h es R) :
    AllLists ls = (DL h es ∗ AllLists R) := by
  obtain ⟨h', es', p, e⟩ := s
  rw [AllLists_perm p, ← DL_rot e]; rfl

inductive Op where
  | init (n : Nat)
  | isEmpty (h : Nat)
  | insertTail (h e : Nat)
  | insertHead (h e : Nat)
  | removeEntry (x : Nat)
  | removeHead (h : Nat)
  | append (h t : Nat)
  | forward (h : Nat)
  | backward (h : Nat)

inductive Out where
  | done
  | flag (b : Bool)
  | ptr (p : Nat)
  | seq (l : List Nat)
  deriving DecidableEq

def exec : Op → Unit → M (Out × Unit)
  | .init n, _ => do DList_InitializeListHead n; pure (.done, ())
  | .isEmpty h, _ => do let r ← DList_IsListEmpty h; pure (.flag (decide (r ≠ 0)), ())
  | .insertTail h e, _ => do DList_InsertTailList h e; pure (.done, ())
  | .insertHead h e, _ => do DList_InsertHeadList h e; pure (.done, ())
  | .removeEntry x, _ => do let r ← DList_RemoveEntryList x; pure (.flag (decide (r ≠ 0)), ())
  | .removeHead h, _ => do let r ← DList_RemoveHeadList h; pure (.ptr r, ())
  | .append h t, _ => do DList_AppendTailList h t; pure (.done, ())
  | .forward h, _ => do let r ← forward h; pure (.seq r, ())
  | .backward h, _ => do let r ← backward h; pure (.seq r, ())

/-- The legal calls and their meaning.  Entries passed to insert are in no list, list arguments are lists. -/
inductive Step : World → Op → Out → World → Prop
  | init {w n L} : w.loose.Perm (n :: L) → Step w (.init n.1) .done ⟨(n, []) :: w.lists, L⟩
  | isEmpty {w h es R} : Sees w.lists h es R → Step w (.isEmpty h.1) (.flag (decide (es = []))) w
  | insertTail {w h es R e L} : Sees w.lists h es R → w.loose.Perm (e :: L) →
      Step w (.insertTail h.1 e.1) .done ⟨(h, es ++ [e]) :: R, L⟩
  | insertHead {w h es R e L} : Sees w.lists h es R → w.loose.Perm (e :: L) →
      Step w (.insertHead h.1 e.1) .done ⟨(h, e :: es) :: R, L⟩
  | removeEntry {w h l1 x l2 R} : Sees w.lists h (l1 ++ x :: l2) R →
      Step w (.removeEntry x.1) (.flag (decide (l1 ++ l2 = []))) ⟨(h, l1 ++ l2) :: R, x :: w.loose⟩
  | removeHead {w h x l R} : Sees w.lists h (x :: l) R → Step w (.removeHead h.1) (.ptr x.1) ⟨(h, l) :: R, x :: w.loose⟩
  | removeHeadEmpty {w h R} : Sees w.lists h [] R → Step w (.removeHead h.1) (.ptr h.1) w
  | append {w h es t ts R R'} : Sees w.lists h es R → Sees R t ts R' →
      Step w (.append h.1 t.1) .done ⟨(h, es ++ t :: ts) :: R', w.loose⟩
  | forward {w h es R} : Sees w.lists h es R → Step w (.forward h.1) (.seq (es.map Prod.fst)) w
  | backward {w h es R} : Sees w.lists h es R → Step w (.backward h.1) (.seq (es.map Prod.fst).reverse) w

theorem exec_spec {w w' : World} {op : Op} {o : Out} (s : Step w op o w') :
    Triple rel (Rep w) (exec op ()) (fun r => (r.1 = o) ⋏ Rep w') := by
  cases s with
  | @init n L hp =>
    rw [Rep, AllLoose_perm hp, AllLoose, exec]
    step DList_InitializeListHead_spec
    refine Triple.pure (entails_pand_r ?_ rfl)
    simp only [Rep, AllLists]; rw [sep_assoc]; sep_cancel
  | @isEmpty h es R hs =>
    rw [Rep, AllLists_sees hs, sep_assoc, exec]
    step DList_IsListEmpty_spec into r
    intro hr
    refine Triple.pure (entails_pand_r (entails_refl _) ?_)
    simp only [Out.flag.injEq, decide_eq_decide]; exact hr
  | @insertTail h es R e L hs hp =>
    rw [Rep, AllLoose_perm hp, AllLists_sees hs, AllLoose, sep_assoc, exec]
    step DList_InsertTailList_spec
    refine Triple.pure (entails_pand_r ?_ rfl)
    simp only [Rep, AllLists]; rw [sep_assoc]; sep_cancel
  | @insertHead h es R e L hs hp =>
    rw [Rep, AllLoose_perm hp, AllLists_sees hs, AllLoose, sep_assoc, exec]
    step DList_InsertHeadList_spec
    refine Triple.pure (entails_pand_r ?_ rfl)
    simp only [Rep, AllLists]; rw [sep_assoc]; sep_cancel
  | @removeEntry h l1 x l2 R hs =>
    rw [Rep, AllLists_sees hs, sep_assoc, exec]
    step (DList_RemoveEntryList_spec (h := h) (x := x) (l1 := l1) (l2 := l2)) into r
    intro hr
    refine Triple.pure (entails_pand_r ?_ ?_)
    · simp only [Rep, AllLists, AllLoose]; rw [sep_assoc]; sep_cancel
    · simp only [Out.flag.injEq, decide_eq_decide]; exact hr
  | @removeHead h x l R hs =>
    rw [Rep, AllLists_sees hs, sep_assoc, exec]
    step (DList_RemoveHeadList_spec (h := h) (x := x) (l := l))
    refine Triple.pure (entails_pand_r ?_ rfl)
    simp only [Rep, AllLists, AllLoose]; rw [sep_assoc]; sep_cancel
  | @removeHeadEmpty h R hs =>
    rw [Rep, AllLists_sees hs, sep_assoc, exec]
    step (DList_RemoveHeadList_empty (h := h))
    exact Triple.pure (entails_pand_r (entails_refl _) rfl)
  | @append h es t ts R R' hs hs' =>
    rw [Rep, AllLists_sees hs, AllLists_sees hs', exec]
    simp only [sep_assoc]
    step (DList_AppendTailList_spec (h := h) (t := t))
    refine Triple.pure (entails_pand_r ?_ rfl)
    simp only [Rep, AllLists]; rw [sep_assoc]; sep_cancel
  | @forward h es R hs =>
    rw [Rep, AllLists_sees hs, sep_assoc, exec]
    step forward_spec
    exact Triple.pure (entails_pand_r (entails_refl _) rfl)
  | @backward h es R hs =>
    rw [Rep, AllLists_sees hs, sep_assoc, exec]
    step backward_spec
    exact Triple.pure (entails_pand_r (entails_refl _) rfl)

/-- C17 over histories: every legal history runs without undefined behaviour, returns what the sequence operations return,
and ends in the corresponding lists; client data is never changed (it is part of the nodes). -/
theorem DList_history {ops : List Op} {w w' : World} {outs : List Out} (h : Runs Step w ops outs w') :
    Triple rel (Rep w) (runOps exec ops ()) (fun r => (r.1 = outs) ⋏ Rep w') := by
  induction h with
  | nil x => exact Triple.pure (entails_pand_r (entails_refl _) rfl)
  | cons hs _ ih =>
    unfold runOps
    refine Triple.bind' (exec_spec hs) fun r => ?_
    hoist; rintro rfl
    refine Triple.bind' ih fun rs => ?_
    hoist; rintro rfl
    exact Triple.pure (entails_pand_r (entails_refl _) rfl)

/-- Non-vacuity: a legal history with two lists, an append and a removal in the middle. -/
example (d : Nat → List Val) :
    let n : Nat → Node := fun i => (i, d i)
    Runs Step ⟨[], [n 1, n 2, n 3, n 4, n 5]⟩
      [.init 1, .insertTail 1 2, .insertHead 1 3, .init 4, .insertTail 4 5, .append 1 4, .forward 1, .removeEntry 2, .backward 1, .removeHead 1]
      [.done, .done, .done, .done, .done, .done, .seq [3, 2, 4, 5], .flag false, .seq [5, 4, 3], .ptr 3]
      ⟨[(n 1, [n 4, n 5])], [n 3, n 2]⟩ := by
  intro n
  have self : ∀ (h : Node) (es : List Node) R, Sees ((h, es) :: R) h es R := fun h es R => ⟨h, es, .refl _, [], h :: es, rfl, by simp⟩
  refine .cons (.init (n := n 1) (.refl _)) ?_
  refine .cons (.insertTail (h := n 1) (e := n 2) (self _ _ _) (.refl _)) ?_
  refine .cons (.insertHead (h := n 1) (e := n 3) (self _ _ _) (.refl _)) ?_
  refine .cons (.init (n := n 4) (.refl _)) ?_
  refine .cons (.insertTail (h := n 4) (e := n 5) (self _ _ _) (.refl _)) ?_
  refine .cons (.append (h := n 1) (t := n 4) ⟨n 1, [n 3, n 2], .swap _ _ _, [], _, rfl, by simp; rfl⟩ (self _ _ _)) ?_
  refine .cons (.forward (h := n 1) (es := [n 3, n 2, n 4, n 5]) (self _ _ _)) ?_
  refine .cons (.removeEntry (h := n 1) (x := n 2) (l1 := [n 3]) (l2 := [n 4, n 5]) (self _ _ _)) ?_
  refine .cons (.backward (h := n 1) (es := [n 3, n 4, n 5]) (self _ _ _)) ?_
  refine .cons (.removeHead (h := n 1) (x := n 3) (self _ _ _)) ?_
  exact .nil _

end Verif.DList
