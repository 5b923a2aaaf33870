import Verif.Gballoc.Spec
import Verif.Tac
/-! # C30, C31: contracts of the gballoc calls -/
set_option linter.unusedSimpArgs false
set_option linter.unusedVariables false
namespace Verif.Gballoc
open Verif
variable {rel : Prop}

/-- a tracked block with the address of its record -/
abbrev Ent := Nat × Blk

def first (es : List Ent) (e : Nat) : Nat :=
  match es with
  | [] => e
  | n :: _ => n.1

/-- the records, linked in order -/
def Nodes : List Ent → Nat → HProp
  | [], _ => emp
  | n :: es, e => n.1 ↦ [.int n.2.2.length, .ptr n.2.1, .ptr (first es e)] ∗ Nodes es e

/-- the blocks themselves -/
def Blocks : List Blk → HProp
  | [] => emp
  | b :: l => b.1 ↦ b.2 ∗ Blocks l

def LockR (init : Bool) (lk : Nat) : HProp := if init then lk ↦ [.int 0] else emp

/-- values of the file-scope variables fit the world -/
def Fits (w : World) (es : List Ent) (t m : Nat) : Prop :=
  es.map Prod.snd = w.live ∧ (w.init = false → w.live = []) ∧ (w.init = true → t = w.used ∧ m = w.peak)

/-- memory of gballoc: variables, lock, records and all blocks handed out -/
def GB (g : Ptr) (w : World) (es : List Ent) : HProp :=
  ∃∃ t m lk, (Fits w es t m) ⋏
    g ↦ [.ptr (first es 0), .int t, .int m, .int (if w.init then stInit else stNotInit), .ptr lk] ∗ LockR w.init lk ∗ Nodes es 0 ∗
      Blocks w.live ∗ Blocks w.other

theorem first_append {l1 l2 : List Ent} {e : Nat} : first (l1 ++ l2) e = first l1 (first l2 e) := by
  cases l1 <;> rfl

theorem Nodes_append {l1 l2 : List Ent} {e : Nat} : Nodes (l1 ++ l2) e = (Nodes l1 (first l2 e) ∗ Nodes l2 e) := by
  induction l1 with
  | nil => simp [Nodes, emp_sep]
  | cons n l1 ih => simp only [List.cons_append, Nodes, ih, first_append, sep_assoc]

theorem Blocks_append {l1 l2 : List Blk} : Blocks (l1 ++ l2) = (Blocks l1 ∗ Blocks l2) := by
  induction l1 with
  | nil => simp [Blocks, emp_sep]
  | cons n l1 ih => simp only [List.cons_append, Blocks, ih, sep_assoc]

theorem Blocks_split {l1 l2 : List Blk} {b : Blk} : Blocks (l1 ++ b :: l2) = (b.1 ↦ b.2 ∗ Blocks (l1 ++ l2)) := by
  rw [Blocks_append, Blocks, Blocks_append, sep_left_comm]

/-- blocks have distinct addresses, none NULL -/
theorem know_Blocks {l : List Blk} : ∀ hp, Blocks l hp → (addrs l).Nodup ∧ 0 ∉ addrs l ∧ ∀ b ∈ l, b.2.length ≤ maxObj := by
  induction l with
  | nil => intro hp _; simp [addrs]
  | cons n ns ih =>
    intro hp h
    have h' := h
    obtain ⟨x, y, hd, _, h1, h2⟩ := h
    obtain ⟨i1, i2, i3⟩ := ih y h2
    have hnot : n.1 ∉ addrs ns := by
      intro hm
      obtain ⟨m, hm, he⟩ := List.mem_map.1 hm
      obtain ⟨l1, l2, rfl⟩ := List.append_of_mem hm
      simp only [Blocks] at h'
      rw [Blocks_append] at h'
      simp only [Blocks, he] at h'
      exact know_pts2 (p := n.1) (q := n.1) (by pick) (by pick) hp h' rfl
    refine ⟨?_, ?_, ?_⟩
    · simp only [addrs, List.map_cons, List.nodup_cons]; exact ⟨hnot, i1⟩
    · simp only [addrs, List.map_cons, List.mem_cons, not_or]; exact ⟨fun h => h1.1 h.symm, i2⟩
    · intro b hb
      rcases List.mem_cons.1 hb with rfl | hb
      · exact h1.2.1
      · exact i3 b hb

/-- a block held besides `l` is not in `l` -/
theorem know_fresh {l : List Blk} {p : Nat} {b : Block} {P F F' : HProp} (pk : Pick P (p ↦ b) F) (pk' : Pick F (Blocks l) F') :
    ∀ hp, P hp → p ∉ addrs l := by
  intro hp hP hm
  unfold Pick at pk pk'
  rw [pk, pk'] at hP
  obtain ⟨m, hm, he⟩ := List.mem_map.1 hm
  obtain ⟨l1, l2, rfl⟩ := List.append_of_mem hm
  rw [Blocks_append] at hP
  simp only [Blocks, he, sep_assoc] at hP
  exact know_pts2 (p := p) (q := p) (by pick) (by pick) hp hP rfl

theorem know_Nodes {es : List Ent} {e : Nat} : ∀ hp, Nodes es e hp → 0 ∉ es.map Prod.fst := by
  induction es with
  | nil => intro hp _; simp
  | cons n ns ih =>
    intro hp h
    obtain ⟨x, y, hd, _, h1, h2⟩ := h
    simp only [List.map_cons, List.mem_cons, not_or]; exact ⟨fun h => h1.1 h.symm, ih y h2⟩

theorem know_pick {A P F : HProp} {φ : Prop} (h : ∀ hp, A hp → φ) (pk : Pick P A F) : ∀ hp, P hp → φ := by
  intro hp hP; unfold Pick at pk; rw [pk] at hP
  obtain ⟨x, y, _, _, h1, _⟩ := hP
  exact h x h1

/-! ## Lock and small pieces -/

theorem Lock_spec {lk : Nat} {ok : Bool} :
    Triple rel (lk ↦ [.int 0]) (Lock lk ok) (fun r => (r = ok) ⋏ lk ↦ [.int (if ok then 1 else 0)]) := by
  unfold Lock
  refine Triple.know (know_pts (p := lk) (φ := lk ≠ 0) (by pick) fun h1 _ => h1) fun h0 => ?_
  rw [if_neg h0]
  step (loadInt_spec (p := lk) ?_)
  rw [if_neg (by simp)]
  cases ok with
  | true =>
    rw [if_pos rfl]
    step (store_spec (p := lk) ?_)
    exact Triple.pure (entails_pand_r (entails_refl _) rfl)
  | false =>
    exact Triple.pure (entails_pand_r (entails_refl _) rfl)

theorem unlockRet_spec {g lk r : Nat} {a b c d : Val} :
    Triple rel (g ↦ [a, b, c, d, .ptr lk] ∗ lk ↦ [.int 1]) (unlockRet g r) (fun x => (x = r) ⋏ g ↦ [a, b, c, d, .ptr lk] ∗ lk ↦ [.int 0]) := by
  unfold unlockRet Unlock
  refine Triple.know (know_pts (p := lk) (φ := lk ≠ 0) (by pick) fun h1 _ => h1) fun h0 => ?_
  step (loadPtr_spec (p := g) ?_)
  rw [if_neg h0]
  simp only [bind_assoc]
  step (loadInt_spec (p := lk) ?_)
  rw [if_neg (by simp)]
  simp only [bind_assoc]
  step (store_spec (p := lk) ?_)
  simp only [pure_bind]
  exact Triple.pure (entails_pand_r (by sep_cancel) rfl)

theorem raiseMax_spec {g t m : Nat} {a d e : Val} :
    Triple rel (g ↦ [a, .int t, .int m, d, e]) (raiseMax g) (fun _ => g ↦ [a, .int t, .int (max m t), d, e]) := by
  unfold raiseMax
  step (loadInt_spec (p := g) ?_)
  step (loadInt_spec (p := g) ?_)
  refine Triple.ite (fun h => ?_) (fun h => ?_)
  · lastd (store_spec (p := g) ?_)
    rw [show max m t = t from by omega, sep_emp]; exact entails_refl _
  · refine Triple.pure ?_
    rw [show max m t = m from by omega]; exact entails_refl _

/-! ## Opening and closing the memory of the module -/

theorem used_cons {w : World} {r : Nat} {b : Block} : (w.used + b.length) % szMod = bytes ((r, b) :: w.live) % szMod := by
  simp only [World.used, bytes, List.map_cons, List.sum_cons, szMod]; omega

/-- closing up after a new block was tracked -/
theorem GB_push {g a r : Nat} {b : Block} {w : World} {es : List Ent} {lk : Nat} (hi : w.init = true) (hm : es.map Prod.snd = w.live) :
    (g ↦ [.ptr a, .int ((w.used + b.length) % szMod), .int (max w.peak ((w.used + b.length) % szMod)), .int stInit, .ptr lk] ∗ lk ↦ [.int 0] ∗
      a ↦ [.int b.length, .ptr r, .ptr (first es 0)] ∗ r ↦ b ∗ Nodes es 0 ∗ Blocks w.live ∗ Blocks w.other) ⊢ₕ
      GB g (w.withLive ((r, b) :: w.live)) ((a, r, b) :: es) := by
  unfold GB
  refine entails_ex_r ((w.used + b.length) % szMod) (entails_ex_r (max w.peak ((w.used + b.length) % szMod)) (entails_ex_r lk (entails_pand_r ?_ ⟨?_, ?_, ?_⟩)))
  · simp only [World.withLive, hi, LockR, if_true, first, Nodes, Blocks]; sep_cancel
  · simp [World.withLive, hm]
  · simp [World.withLive, hi]
  · intro _
    refine ⟨?_, ?_⟩
    · rw [used_cons (r := r)]; rfl
    · rw [used_cons (r := r)]; rfl

/-- the memory of the initialised module -/
def GI (g : Ptr) (w : World) (es : List Ent) (lk : Nat) : HProp :=
  g ↦ [.ptr (first es 0), .int w.used, .int w.peak, .int stInit, .ptr lk] ∗ lk ↦ [.int 0] ∗ Nodes es 0 ∗ Blocks w.live ∗ Blocks w.other

theorem GB_init {g : Ptr} {w : World} {es : List Ent} (hi : w.init = true) :
    GB g w es = ∃∃ lk, (es.map Prod.snd = w.live) ⋏ GI g w es lk := by
  unfold GB GI Fits
  simp only [hi, LockR, if_true]
  funext hp
  apply propext
  constructor
  · rintro ⟨t, m, lk, ⟨h1, _, h2⟩, h3⟩
    obtain ⟨rfl, rfl⟩ := h2 trivial
    exact ⟨lk, h1, h3⟩
  · rintro ⟨lk, h1, h3⟩
    exact ⟨_, _, lk, ⟨h1, by simp, fun _ => ⟨rfl, rfl⟩⟩, h3⟩

/-- the memory of the module when not initialised -/
theorem GB_not {g : Ptr} {w : World} {es : List Ent} (hi : w.init = false) :
    GB g w es = ∃∃ t m lk, (es = [] ∧ w.live = []) ⋏ g ↦ [.ptr 0, .int t, .int m, .int stNotInit, .ptr lk] ∗ Blocks w.other := by
  unfold GB Fits
  simp only [hi, LockR, Bool.false_eq_true, if_false]
  funext hp
  apply propext
  constructor
  · rintro ⟨t, m, lk, ⟨h1, h0, h2⟩, h3⟩
    have hl := h0 trivial
    rw [hl] at h1
    have he : es = [] := by simpa using h1
    subst he
    rw [hl] at h3
    simp only [Nodes, Blocks, emp_sep, first] at h3
    exact ⟨t, m, lk, ⟨rfl, hl⟩, h3⟩
  · rintro ⟨t, m, lk, ⟨rfl, hl⟩, h3⟩
    refine ⟨t, m, lk, ⟨by simp [hl], fun _ => hl, by simp⟩, ?_⟩
    rw [hl]
    simp only [Nodes, Blocks, emp_sep, first]
    exact h3

/-- outcome of a call: result and world (existentially with the records) -/
def Post (g : Ptr) (S : Nat → World → List Ent → Prop) (r : Nat) : HProp := ∃∃ w' es', (S r w' es') ⋏ GB g w' es'

theorem Post_intro {g : Ptr} {S : Nat → World → List Ent → Prop} {r : Nat} {P : HProp} (w' : World) (es' : List Ent) (hS : S r w' es') (h : P ⊢ₕ GB g w' es') :
    P ⊢ₕ Post g S r := entails_ex_r w' (entails_ex_r es' (entails_pand_r h hS))

/-- back to the world `w` unchanged -/
theorem GI_GB {g : Ptr} {w : World} {es : List Ent} {lk : Nat} (hi : w.init = true) (hm : es.map Prod.snd = w.live) : GI g w es lk ⊢ₕ GB g w es := by
  rw [GB_init hi]; exact entails_ex_r lk (entails_pand_r (entails_refl _) hm)

/-- the failing ends of the critical sections -/
theorem unlock_end {g lk r : Nat} {w' : World} {es' : List Ent} {S : Nat → World → List Ent → Prop} {a b c d : Val} {F : HProp}
    (hS : S r w' es') (h : (g ↦ [a, b, c, d, .ptr lk] ∗ lk ↦ [.int 0] ∗ F) ⊢ₕ GB g w' es') :
    Triple rel (g ↦ [a, b, c, d, .ptr lk] ∗ lk ↦ [.int 1] ∗ F) (unlockRet g r) (Post g S) := by
  last (unlockRet_spec (g := g) (lk := lk))
  rename_i x
  rw [pand_sep]
  refine entails_pand_l fun hx => ?_
  subst hx
  refine Post_intro w' es' hS (entails_trans ?_ h)
  rw [sep_assoc]; exact entails_refl _


/-- the memory of the module when not initialised, opened -/
abbrev GN (g : Ptr) (w : World) (t m lk : Nat) : HProp := g ↦ [.ptr 0, .int t, .int m, .int stNotInit, .ptr lk] ∗ Blocks w.other

theorem GN_GB {g t m lk : Nat} {w : World} (hi : w.init = false) (hl : w.live = []) : GN g w t m lk ⊢ₕ GB g w [] := by
  rw [GB_not hi]
  exact entails_ex_r t (entails_ex_r m (entails_ex_r lk (entails_pand_r (entails_refl _) ⟨rfl, hl⟩)))

/-- result of a request when not initialised: NULL -/
theorem get_null {g n t m lk : Nat} {ok : Bool} {b : Block} {w : World} (hi : w.init = false) (hl : w.live = []) (hr : ¬ rel ∨ maxObj < n) :
    GN g w t m lk ⊢ₕ Post g (fun r w' _ => GetE rel w ok n b r w') 0 :=
  Post_intro w [] (Or.inl ⟨rfl, rfl, hr.imp id Or.inl⟩) (GN_GB hi hl)

/-- result of a request when not initialised: a block -/
theorem get_other {g n t m lk r : Nat} {ok : Bool} {b : Block} {w : World} (hi : w.init = false) (hl : w.live = []) (hr : r ≠ 0) (hn : n ≤ maxObj) :
    (r ↦ b ∗ GN g w t m lk) ⊢ₕ Post g (fun r w' _ => GetE rel w ok n b r w') r := by
  intro hp hP
  have hf := know_fresh (l := w.other) (p := r) (P := r ↦ b ∗ GN g w t m lk) (by pick) (by pick) hp hP
  have h2 := GN_GB (g := g) (t := t) (m := m) (lk := lk) (w := { w with other := (r, b) :: w.other }) hi hl
  refine Post_intro { w with other := (r, b) :: w.other } [] (Or.inr ⟨hr, by rw [hl]; simp [addrs], hf, hn, by simp [hi], by simp [hi]⟩) h2 hp ?_
  refine entails_trans ?_ (entails_refl _) hp hP
  simp only [GN, Blocks]; sep_cancel

theorem Triple.calloc {n m : Nat} {β : Type} {P : HProp} {k : Nat → M β} {Q : β → HProp}
    (h0 : (¬ rel ∨ maxObj < n * m) → Triple rel P (k 0) Q)
    (h1 : ∀ r, r ≠ 0 → n * m ≤ maxObj → Triple rel (r ↦ List.replicate (n * m) (.byte 0) ∗ P) (k r) Q) :
    Triple rel P (calloc n m >>= k) Q := by
  unfold Gballoc.calloc
  simp only [bind_assoc]
  refine Triple.malloc (fun hr => ?_) (fun r hr hn => ?_)
  · rw [if_neg (by simp), pure_bind]; exact h0 hr
  · rw [if_pos hr]
    simp only [bind_assoc]
    stepd (storeN_spec' (p := r) (off := 0) (vs := List.replicate (n * m) (.byte 0)) ?_)
    rw [patch_full (by simp)]
    exact h1 r hr hn

/-- entering the critical section -/
theorem Triple.lockGI {β : Type} {g lk : Nat} {ok : Bool} {w : World} {es : List Ent} {k : Bool → M β} {Q : β → HProp}
    (h0 : ok = false → Triple rel (GI g w es lk) (k false) Q)
    (h1 : ok = true → Triple rel (g ↦ [.ptr (first es 0), .int w.used, .int w.peak, .int stInit, .ptr lk] ∗ lk ↦ [.int 1] ∗ Nodes es 0 ∗ Blocks w.live ∗ Blocks w.other) (k true) Q) :
    Triple rel (GI g w es lk) (do let l ← loadPtr g fLock; let o ← Lock l ok; k o) Q := by
  unfold GI
  step (loadPtr_spec (p := g) ?_)
  step (Lock_spec (lk := lk) (ok := ok)) into r
  rintro rfl
  cases r with
  | false => 
    simp only [Bool.false_eq_true, if_false]
    refine (h0 rfl).pre ?_
    unfold GI; sep_cancel
  | true => 
    simp only [if_true]
    refine (h1 rfl).pre ?_
    sep_cancel

/-- the end of a successful request -/
theorem push_end {g lk a r n : Nat} {ok : Bool} {b : Block} {w : World} {es : List Ent} (hi : w.init = true) (hm : es.map Prod.snd = w.live)
    (hr : r ≠ 0) (hf1 : r ∉ addrs w.live) (hf2 : r ∉ addrs w.other) (hn : n ≤ maxObj) (hb : b.length = n) (ho : ok = true) :
    Triple rel (g ↦ [.ptr a, .int ((w.used + n) % szMod), .int (max w.peak ((w.used + n) % szMod)), .int stInit, .ptr lk] ∗ lk ↦ [.int 1] ∗
      a ↦ [.int n, .ptr r, .ptr (first es 0)] ∗ r ↦ b ∗ Nodes es 0 ∗ Blocks w.live ∗ Blocks w.other) (unlockRet g r) (Post g (fun r w' _ => GetE rel w ok n b r w')) := by
  refine unlock_end (w' := w.withLive ((r, b) :: w.live)) (es' := (a, r, b) :: es) (Or.inr ⟨hr, hf1, hf2, hn, fun _ => ho, by rw [if_pos hi]⟩) ?_
  have := GB_push (g := g) (a := a) (r := r) (b := b) (lk := lk) hi hm
  rw [hb] at this
  exact this

theorem loadState_spec {g lk : Nat} {w : World} {es : List Ent} : Triple rel (GI g w es lk) (loadInt g fState) (fun r => (r = stInit) ⋏ GI g w es lk) := by
  unfold GI
  last (loadInt_spec (p := g) ?_)
  rename_i r
  rw [pand_sep]; exact entails_refl _

theorem gballoc_malloc_spec {g n : Nat} {ok : Bool} {w : World} {es : List Ent} :
    Triple rel (GB g w es) (gballoc_malloc g ok n) (Post g (fun r w' _ => GetE rel w ok n (List.replicate n .undef) r w')) := by
  unfold gballoc_malloc
  rcases hi : w.init with _ | _
  · rw [GB_not hi]; hoist; intro t m lk hE hl
    step (loadInt_spec (p := g) ?_)
    rw [if_pos (by decide), ← bind_pure (Verif.malloc n)]
    refine Triple.malloc (fun hr => ?_) (fun r hr hn => ?_)
    · exact Triple.pure (get_null hi hl hr)
    · exact Triple.pure (get_other hi hl hr hn)
  · rw [GB_init hi]; hoist; intro lk hm
    step loadState_spec
    rw [if_neg (by simp)]
    refine Triple.lockGI (fun ho => ?_) (fun ho => ?_)
    · rw [if_pos rfl]
      exact Triple.pure (Post_intro w es (Or.inl ⟨rfl, rfl, Or.inr (Or.inr ⟨hi, ho⟩)⟩) (GI_GB hi hm))
    rw [if_neg (by simp)]
    refine Triple.mallocS (by omega) (fun hr => ?_) (fun a ha => ?_)
    · rw [if_pos rfl]
      exact unlock_end (w' := w) (es' := es) (Or.inl ⟨rfl, rfl, Or.inl hr⟩) (GI_GB hi hm)
    rw [if_neg ha]
    refine Triple.malloc (fun hr => ?_) (fun r hr hn => ?_)
    · rw [if_pos rfl]
      step (free_spec (p := a))
      exact unlock_end (w' := w) (es' := es) (Or.inl ⟨rfl, rfl, hr.imp id Or.inl⟩) (GI_GB hi hm)
    rw [if_neg hr]
    refine Triple.know (know_fresh (l := w.live) (p := r) (by pick) (by pick)) fun hf1 => ?_
    refine Triple.know (know_fresh (l := w.other) (p := r) (by pick) (by pick)) fun hf2 => ?_
    step (store_spec (p := a) ?_)
    step (store_spec (p := a) ?_)
    step (loadPtr_spec (p := g) ?_)
    step (store_spec (p := a) ?_)
    step (store_spec (p := g) ?_)
    step (loadInt_spec (p := g) ?_)
    step (store_spec (p := g) ?_)
    step (raiseMax_spec (g := g))
    refine (push_end (lk := lk) (a := a) (b := List.replicate n .undef) (ok := ok) hi hm hr hf1 hf2 hn (by simp) ho).pre ?_
    sep_cancel

theorem gballoc_calloc_spec {g n m : Nat} {ok : Bool} {w : World} {es : List Ent} :
    Triple rel (GB g w es) (gballoc_calloc g ok n m) (Post g (fun r w' _ => GetE rel w ok (n * m) (List.replicate (n * m) (.byte 0)) r w')) := by
  unfold gballoc_calloc
  rcases hi : w.init with _ | _
  · rw [GB_not hi]; hoist; intro t mx lk hE hl
    step (loadInt_spec (p := g) ?_)
    rw [if_pos (by decide), ← bind_pure (calloc n m)]
    refine Triple.calloc (fun hr => ?_) (fun r hr hn => ?_)
    · exact Triple.pure (get_null hi hl hr)
    · exact Triple.pure (get_other hi hl hr hn)
  · rw [GB_init hi]; hoist; intro lk hm
    step loadState_spec
    rw [if_neg (by simp)]
    refine Triple.lockGI (fun ho => ?_) (fun ho => ?_)
    · rw [if_pos rfl]
      exact Triple.pure (Post_intro w es (Or.inl ⟨rfl, rfl, Or.inr (Or.inr ⟨hi, ho⟩)⟩) (GI_GB hi hm))
    rw [if_neg (by simp)]
    refine Triple.mallocS (by omega) (fun hr => ?_) (fun a ha => ?_)
    · rw [if_pos rfl]
      exact unlock_end (w' := w) (es' := es) (Or.inl ⟨rfl, rfl, Or.inl hr⟩) (GI_GB hi hm)
    rw [if_neg ha]
    refine Triple.calloc (fun hr => ?_) (fun r hr hn => ?_)
    · rw [if_pos rfl]
      step (free_spec (p := a))
      exact unlock_end (w' := w) (es' := es) (Or.inl ⟨rfl, rfl, hr.imp id Or.inl⟩) (GI_GB hi hm)
    rw [if_neg hr]
    refine Triple.know (know_fresh (l := w.live) (p := r) (by pick) (by pick)) fun hf1 => ?_
    refine Triple.know (know_fresh (l := w.other) (p := r) (by pick) (by pick)) fun hf2 => ?_
    have hmod : n * m % szMod = n * m := Nat.mod_eq_of_lt (by simp only [szMod, maxObj] at *; omega)
    rw [hmod]
    step (store_spec (p := a) ?_)
    step (store_spec (p := a) ?_)
    step (loadPtr_spec (p := g) ?_)
    step (store_spec (p := a) ?_)
    step (store_spec (p := g) ?_)
    step (loadInt_spec (p := g) ?_)
    step (loadInt_spec (p := a) ?_)
    step (store_spec (p := g) ?_)
    step (raiseMax_spec (g := g))
    refine (push_end (lk := lk) (a := a) (b := List.replicate (n * m) (.byte 0)) (ok := ok) hi hm hr hf1 hf2 hn (by simp) ho).pre ?_
    sep_cancel

/-! ## Search -/

/-- where the search of `gballoc_realloc` ends -/
def Found (p : Nat) (es : List Ent) (r : Nat) : Prop :=
  (r = 0 ∧ p ∉ addrs (es.map Prod.snd)) ∨ ∃ l1 n l2, es = l1 ++ n :: l2 ∧ n.2.1 = p ∧ r = n.1 ∧ r ≠ 0

theorem findLoop_spec {p : Nat} {es : List Ent} :
    Triple rel (Nodes es 0) (findLoop p (first es 0)) (fun r => (Found p es r) ⋏ Nodes es 0) := by
  induction es with
  | nil =>
    rw [findLoop, if_neg (by simp [first])]
    exact Triple.pure (entails_pand_r (entails_refl _) (Or.inl ⟨rfl, by simp [addrs]⟩))
  | cons n es ih =>
    rw [findLoop]
    refine Triple.know know_Nodes fun hk => ?_
    have hn : n.1 ≠ 0 := fun h0 => hk (by simp [h0])
    rw [show first (n :: es) 0 = n.1 from rfl, if_pos hn, Nodes]
    step (loadPtr_spec (p := n.1) ?_)
    refine Triple.ite (fun he => ?_) (fun he => ?_)
    · exact Triple.pure (entails_pand_r (entails_refl _) (Or.inr ⟨[], n, es, rfl, he, rfl, hn⟩))
    · step (loadPtr_spec (p := n.1) ?_)
      last ih
      rename_i r
      rw [pand_sep]
      refine entails_pand_l fun hr => entails_pand_r (by sep_cancel) ?_
      rcases hr with ⟨h1, h2⟩ | ⟨l1, m, l2, h1, h2, h3, h4⟩
      · refine Or.inl ⟨h1, ?_⟩
        simp only [addrs, List.map_cons, List.mem_cons, not_or] at h2 ⊢
        exact ⟨fun h => he h.symm, h2⟩
      · exact Or.inr ⟨n :: l1, m, l2, by rw [h1]; rfl, h2, h3, h4⟩

theorem replace_at {L1 L2 : List Blk} {p : Nat} {b : Block} {x : Blk} (h1 : p ∉ addrs L1) (h2 : p ∉ addrs L2) :
    replaceBlk (L1 ++ (p, b) :: L2) p x = L1 ++ x :: L2 := by
  have keep : ∀ L : List Blk, p ∉ addrs L → replaceBlk L p x = L := by
    intro L hL
    unfold replaceBlk
    conv => rhs; rw [← List.map_id L]
    apply List.map_congr_left
    intro e he
    rw [if_neg]; rfl
    rintro rfl; exact hL (List.mem_map.2 ⟨e, he, rfl⟩)
  have h1' := keep L1 h1
  have h2' := keep L2 h2
  unfold replaceBlk at *
  rw [List.map_append, List.map_cons, h1', h2', if_pos rfl]

theorem drop_at {L1 L2 : List Blk} {p : Nat} {b : Block} (h1 : p ∉ addrs L1) (h2 : p ∉ addrs L2) :
    dropBlk (L1 ++ (p, b) :: L2) p = L1 ++ L2 := by
  have keep : ∀ L : List Blk, p ∉ addrs L → dropBlk L p = L := by
    intro L hL
    unfold dropBlk
    rw [List.filter_eq_self]
    intro e he
    simp only [decide_eq_true_eq]
    rintro rfl; exact hL (List.mem_map.2 ⟨e, he, rfl⟩)
  have h1' := keep L1 h1
  have h2' := keep L2 h2
  unfold dropBlk at *
  rw [List.filter_append, List.filter_cons, h1', h2', if_neg (by simp)]

theorem drop_none {L : List Blk} {p : Nat} (h : p ∉ addrs L) : dropBlk L p = L := by
  unfold dropBlk
  rw [List.filter_eq_self]
  intro e he
  simp only [decide_eq_true_eq]
  rintro rfl; exact h (List.mem_map.2 ⟨e, he, rfl⟩)

theorem nodup_split {L1 L2 : List Blk} {p : Nat} {b : Block} (h : (addrs (L1 ++ (p, b) :: L2)).Nodup) : p ∉ addrs L1 ∧ p ∉ addrs L2 := by
  simp only [addrs, List.map_append, List.map_cons] at h ⊢
  obtain ⟨_, h2, h3⟩ := List.nodup_append.1 h
  exact ⟨fun hm => h3 p hm p (by simp) rfl, (List.nodup_cons.1 h2).1⟩

theorem bytes_split {L1 L2 : List Blk} {x : Blk} : bytes (L1 ++ x :: L2) = bytes L1 + x.2.length + bytes L2 := by
  simp only [bytes, List.map_append, List.map_cons, List.sum_append, List.sum_cons]; omega
theorem bytes_append {L1 L2 : List Blk} : bytes (L1 ++ L2) = bytes L1 + bytes L2 := by
  simp only [bytes, List.map_append, List.sum_append]

theorem not_mem_split {L1 L2 : List Blk} {p r : Nat} {b : Block} (h : r ∉ addrs (L1 ++ L2)) (hp : r ≠ p) : r ∉ addrs (L1 ++ (p, b) :: L2) := by
  simp only [addrs, List.map_append, List.map_cons, List.mem_append, List.mem_cons, not_or] at h ⊢
  exact ⟨h.1, hp, h.2⟩

theorem sub_mod {a b c : Nat} (hb : b ≤ maxObj) : ((a + b + c) % szMod + szMod - b) % szMod = (a + c) % szMod := by
  simp only [szMod, maxObj] at *; omega
theorem add_mod' {a b c : Nat} : ((a + c) % szMod + b) % szMod = (a + b + c) % szMod := by
  simp only [szMod] at *; omega

theorem first_mid {l1 l2 : List Ent} {a e : Nat} {x : Blk} : first (l1 ++ (a, x) :: l2) e = first l1 a := by cases l1 <;> rfl
theorem first_cons {l : List Ent} {a e : Nat} {x : Blk} : first ((a, x) :: l) e = a := rfl
theorem withLive_used {w : World} {l : List Blk} : (w.withLive l).used = bytes l % szMod := rfl
theorem withLive_peak {w : World} {l : List Blk} : (w.withLive l).peak = max w.peak (bytes l % szMod) := rfl

/-- C30, C31: `gballoc_realloc`. -/
theorem gballoc_realloc_spec {g p n : Nat} {ok : Bool} {w : World} {es : List Ent} (hleg : Legal w (.realloc ok p n)) :
    Triple rel (GB g w es) (gballoc_realloc g ok p n)
      (Post g fun r w' es' => if p = 0 then GetE rel w ok n (List.replicate n .undef) r w' else (ResizeE rel w ok p n r w' ∧ first es' 0 = first es 0)) := by
  unfold gballoc_realloc
  rcases hi : w.init with _ | _
  · rw [GB_not hi]; hoist; intro t m lk hE hl
    step (loadInt_spec (p := g) ?_)
    rw [if_pos (by decide), ← bind_pure (Verif.realloc p n)]
    by_cases hp : p = 0
    · subst hp
      simp only [if_true]
      refine Triple.realloc_null (fun hr => ?_) (fun r hr hn => ?_)
      · exact Triple.pure (get_null hi hl hr)
      · exact Triple.pure (get_other hi hl hr hn)
    · simp only [if_neg hp]
      have hmem := (hleg.2 hi).resolve_left hp
      obtain ⟨⟨p', b⟩, hb, he⟩ := List.mem_map.1 hmem
      simp only at he; subst he
      obtain ⟨L1, L2, hL⟩ := List.append_of_mem hb
      have hn0 : n ≠ 0 := fun h0 => (hleg.1 h0).2 hmem
      refine Triple.know (know_pick (A := Blocks w.other) know_Blocks (by pick)) fun hk => ?_
      have hs := hk.1
      rw [hL] at hs
      obtain ⟨hs1, hs2⟩ := nodup_split hs
      rw [hL, Blocks_split]
      refine Triple.realloc (p := p') hn0 (by pick) (fun hr => ?_) (fun r hr hn => ?_)
      · refine Triple.pure (Post_intro w [] ⟨Or.inl ⟨rfl, rfl, hr.imp id Or.inl⟩, by rw [hE]⟩ (entails_trans ?_ (GN_GB (g := g) (t := t) (m := m) (lk := lk) hi hl)))
        simp only [GN]; rw [hL, Blocks_split]; sep_cancel
      · refine Triple.pure fun hp hP => ?_
        have hf := know_fresh (l := L1 ++ L2) (p := r) (by pick) (by pick) hp hP
        have hA : r = p' ∨ r ∉ addrs w.live ∧ r ∉ addrs w.other := by
          by_cases hrp : r = p'
          · exact Or.inl hrp
          · exact Or.inr ⟨by rw [hl]; simp [addrs], by rw [hL]; exact not_mem_split hf hrp⟩
        refine Post_intro { w with other := L1 ++ (r, resized b n) :: L2 } [] ⟨Or.inr ⟨hr, hA, hn, by simp [hi], b, by simp [hi, hb], ?_⟩, by rw [hE]⟩
          (entails_trans ?_ (GN_GB (g := g) (t := t) (m := m) (lk := lk) hi hl)) hp hP
        · simp only [GN]; rw [Blocks_split]; simp only [resized]; sep_cancel
        · simp only [hi, Bool.false_eq_true, if_false]
          rw [hL, replace_at hs1 hs2]
  · rw [GB_init hi]; hoist; intro lk hm
    step loadState_spec
    rw [if_neg (by simp)]
    refine Triple.lockGI (fun ho => ?_) (fun ho => ?_)
    · rw [if_pos rfl]
      refine Triple.pure (Post_intro w es ?_ (GI_GB hi hm))
      by_cases hp : p = 0
      · rw [if_pos hp]; exact Or.inl ⟨rfl, rfl, Or.inr (Or.inr ⟨hi, ho⟩)⟩
      · rw [if_neg hp]; exact ⟨Or.inl ⟨rfl, rfl, Or.inr (Or.inr ⟨hi, Or.inl ho⟩)⟩, rfl⟩
    rw [if_neg (by simp)]
    step (loadPtr_spec (p := g) ?_)
    by_cases hp : p = 0
    · subst hp
      simp only [if_true]
      refine Triple.mallocS (by omega) (fun hr => ?_) (fun a ha => ?_)
      · rw [if_pos rfl]
        exact unlock_end (w' := w) (es' := es) (Or.inl ⟨rfl, rfl, Or.inl hr⟩) (GI_GB hi hm)
      rw [if_neg ha]
      refine Triple.realloc_null (fun hr => ?_) (fun r hr hn => ?_)
      · rw [if_pos rfl]
        step (free_spec (p := a))
        exact unlock_end (w' := w) (es' := es) (Or.inl ⟨rfl, rfl, hr.imp id Or.inl⟩) (GI_GB hi hm)
      rw [if_neg hr]
      refine Triple.know (know_fresh (l := w.live) (p := r) (by pick) (by pick)) fun hf1 => ?_
      refine Triple.know (know_fresh (l := w.other) (p := r) (by pick) (by pick)) fun hf2 => ?_
      step (store_spec (p := a) ?_)
      rw [if_neg (by simp)]
      try simp only [bind_assoc]
      step (store_spec (p := a) ?_)
      step (loadPtr_spec (p := g) ?_)
      step (store_spec (p := a) ?_)
      step (store_spec (p := g) ?_)
      step (loadInt_spec (p := g) ?_)
      step (store_spec (p := g) ?_)
      step (raiseMax_spec (g := g))
      refine (push_end (lk := lk) (a := a) (b := List.replicate n .undef) (ok := ok) hi hm hr hf1 hf2 hn (by simp) ho).pre ?_
      sep_cancel
    · simp only [if_neg hp]
      step (findLoop_spec (p := p)) into a
      rintro (⟨rfl, hnot⟩ | ⟨l1, ⟨a', p', b⟩, l2, hes, hpe, hra, ha⟩)
      · rw [if_pos rfl]
        rw [hm] at hnot
        refine (unlock_end (F := Nodes es 0 ∗ Blocks w.live ∗ Blocks w.other) (w' := w) (es' := es) (lk := lk)
          ⟨Or.inl ⟨rfl, rfl, Or.inr (Or.inr ⟨hi, Or.inr hnot⟩)⟩, rfl⟩ (GI_GB hi hm)).pre ?_
        sep_cancel
      · simp only at hpe ha hra ⊢; subst hpe; subst hra
        rw [if_neg ha]
        have hL : w.live = l1.map Prod.snd ++ (p', b) :: l2.map Prod.snd := by rw [← hm, hes]; simp
        generalize hg1 : l1.map Prod.snd = L1 at hL
        generalize hg2 : l2.map Prod.snd = L2 at hL
        refine Triple.know (know_pick (A := Blocks w.live) know_Blocks (by pick)) fun hk => ?_
        have hs := hk.1
        have hbl : b.length ≤ maxObj := hk.2.2 (p', b) (by rw [hL]; simp)
        rw [hL] at hs
        obtain ⟨hs1, hs2⟩ := nodup_split hs
        have hmem : p' ∈ addrs w.live := by rw [hL]; simp [addrs]
        have hn0 : n ≠ 0 := fun h0 => (hleg.1 h0).1 hmem
        rw [hL, Blocks_split]
        simp only [sep_assoc]
        refine Triple.realloc (p := p') hn0 (by pick) (fun hr => ?_) (fun r hr hn => ?_)
        · rw [if_pos rfl]
          refine (unlock_end (F := Nodes es 0 ∗ Blocks w.live ∗ Blocks w.other) (w' := w) (es' := es) (lk := lk)
            ⟨Or.inl ⟨rfl, rfl, hr.imp id Or.inl⟩, rfl⟩ (GI_GB hi hm)).pre ?_
          rw [hL, Blocks_split]; sep_cancel
        · rw [if_neg hr]
          refine Triple.know (know_fresh (l := L1 ++ L2) (p := r) (by pick) (by pick)) fun hf1 => ?_
          refine Triple.know (know_fresh (l := w.other) (p := r) (by pick) (by pick)) fun hf2 => ?_
          rw [hes, Nodes_append, Nodes]
          simp only [sep_assoc]
          step (store_spec (p := a) ?_)
          rw [if_pos hp]
          try simp only [bind_assoc]
          step (loadInt_spec (p := g) ?_)
          step (loadInt_spec (p := a) ?_)
          step (store_spec (p := g) ?_)
          step (store_spec (p := a) ?_)
          step (loadInt_spec (p := g) ?_)
          step (store_spec (p := g) ?_)
          step (raiseMax_spec (g := g))
          have hlen : (resized b n).length = n := by simp only [resized, List.length_append, List.length_take, List.length_replicate]; omega
          have hu : ((w.used + szMod - b.length) % szMod + n) % szMod = bytes (L1 ++ (r, resized b n) :: L2) % szMod := by
            rw [World.used, hL, bytes_split, bytes_split, sub_mod hbl, hlen, add_mod']
          rw [hu]
          have hA : r = p' ∨ r ∉ addrs w.live ∧ r ∉ addrs w.other := by
            by_cases hrp : r = p'
            · exact Or.inl hrp
            · exact Or.inr ⟨by rw [hL]; exact not_mem_split hf1 hrp, hf2⟩
          have hB : w.withLive (L1 ++ (r, resized b n) :: L2) = if w.init = true then w.withLive (replaceBlk w.live p' (r, resized b n))
              else { w with other := replaceBlk w.other p' (r, resized b n) } := by
            rw [if_pos hi, hL, replace_at hs1 hs2]
          have hC : (l1 ++ (a, r, resized b n) :: l2).map Prod.snd = (w.withLive (L1 ++ (r, resized b n) :: L2)).live := by
            simp [World.withLive, hg1, hg2]
          refine (unlock_end (lk := lk) (w' := w.withLive (L1 ++ (r, resized b n) :: L2)) (es' := l1 ++ (a, r, resized b n) :: l2)
            (F := Nodes (l1 ++ (a, r, resized b n) :: l2) 0 ∗ Blocks (L1 ++ (r, resized b n) :: L2) ∗ Blocks w.other)
            ⟨Or.inr ⟨hr, hA, hn, fun _ => ho, b, by rw [if_pos hi, hL]; simp, hB⟩, by rw [first_mid, first_mid]⟩ (GI_GB (w := w.withLive (L1 ++ (r, resized b n) :: L2)) hi hC)).pre ?_
          · rw [Nodes_append, Nodes, Blocks_split, first_mid, first_mid, first_cons, first_cons, hlen, withLive_used, withLive_peak]
            rw [show List.take n b ++ List.replicate (n - b.length) Val.undef = resized b n from rfl]
            simp only [sep_assoc]
            sep_cancel

/-- the record before the cursor -/
def prevOf (l1 : List Ent) : Nat := match l1.getLast? with
  | none => 0
  | some x => x.1

/-- what the loop of `gballoc_free` does to the records and the total -/
def Freed (p : Nat) (es : List Ent) (t : Nat) (es' : List Ent) (t' : Nat) : Prop :=
  (p ∉ addrs (es.map Prod.snd) ∧ es' = es ∧ t' = t) ∨
  ∃ l1 a b l2, es = l1 ++ (a, p, b) :: l2 ∧ es' = l1 ++ l2 ∧ t' = (t + szMod - b.length) % szMod

def FreePost (g p : Nat) (es : List Ent) (t : Nat) (x2 x3 x4 : Val) : HProp :=
  ∃∃ es' t', (Freed p es t es' t') ⋏ g ↦ [.ptr (first es' 0), .int t', x2, x3, x4] ∗ Nodes es' 0 ∗ Blocks (es'.map Prod.snd)

theorem freeLoop_spec {g p t : Nat} {x2 x3 x4 : Val} {l2 : List Ent} : ∀ {l1 : List Ent}, p ∉ addrs (l1.map Prod.snd) →
    Triple rel (g ↦ [.ptr (first (l1 ++ l2) 0), .int t, x2, x3, x4] ∗ Nodes (l1 ++ l2) 0 ∗ Blocks ((l1 ++ l2).map Prod.snd))
      (freeLoop g p (first l2 0) (prevOf l1)) (fun _ => FreePost g p (l1 ++ l2) t x2 x3 x4) := by
  induction l2 with
  | nil =>
    intro l1 h1
    rw [freeLoop, if_neg (by simp [first])]
    refine Triple.pure (entails_ex_r (l1 ++ []) (entails_ex_r t (entails_pand_r (entails_refl _) (Or.inl ⟨?_, rfl, rfl⟩))))
    simpa using h1
  | cons n l2 ih =>
    intro l1 h1
    obtain ⟨a, q, b⟩ := n
    rw [first_cons, freeLoop]
    refine Triple.know (know_pick (A := Nodes (l1 ++ (a, q, b) :: l2) 0) know_Nodes (by pick)) fun hk => ?_
    have ha : a ≠ 0 := fun h0 => hk (by simp [h0])
    rw [if_pos ha]
    have hN : Nodes (l1 ++ (a, q, b) :: l2) 0 = (a ↦ [.int b.length, .ptr q, .ptr (first l2 0)] ∗ Nodes l1 a ∗ Nodes l2 0) := by
      rw [Nodes_append, Nodes, first_cons]; simp only [sep_left_comm]
    rw [hN]
    simp only [sep_assoc]
    step (loadPtr_spec (p := a) ?_)
    refine Triple.ite (fun he => ?_) (fun he => ?_)
    · subst he
      rw [List.map_append, List.map_cons, Blocks_split]
      step (free_spec (p := q))
      step (loadInt_spec (p := g) ?_)
      step (loadInt_spec (p := a) ?_)
      step (store_spec (p := g) ?_)
      step (loadPtr_spec (p := a) ?_)
      have fin : (g ↦ [.ptr (first (l1 ++ l2) 0), .int ((t + szMod - b.length) % szMod), x2, x3, x4] ∗ Nodes (l1 ++ l2) 0 ∗
          Blocks (l1.map Prod.snd ++ l2.map Prod.snd)) ⊢ₕ FreePost g q (l1 ++ (a, q, b) :: l2) t x2 x3 x4 := by
        refine entails_ex_r (l1 ++ l2) (entails_ex_r _ (entails_pand_r ?_ (Or.inr ⟨l1, a, b, l2, rfl, rfl, rfl⟩)))
        rw [List.map_append]; exact entails_refl _
      rcases hl : l1.getLast? with _ | x
      · have : l1 = [] := by simpa using hl
        subst this
        rw [if_neg (by simp [prevOf])]
        simp only [List.nil_append, Nodes]
        step (store_spec (p := g) ?_)
        last (free_spec (p := a))
        refine entails_trans ?_ fin
        simp only [List.nil_append, List.map_nil, emp_sep]
        sep_cancel
      · obtain ⟨l, rfl⟩ : ∃ l, l1 = l ++ [x] := by
          obtain ⟨l, h⟩ := List.getLast?_eq_some_iff.1 hl; exact ⟨l, h⟩
        obtain ⟨xa, xb⟩ := x
        have hp : prevOf (l ++ [(xa, xb)]) = xa := by simp [prevOf]
        have hx : xa ≠ 0 := fun h0 => hk (by simp [h0])
        rw [hp, if_pos hx]
        rw [Nodes_append, show Nodes [(xa, xb)] a = (xa ↦ [.int xb.2.length, .ptr xb.1, .ptr a]) from by simp [Nodes, first, sep_emp], first_cons]
        simp only [sep_assoc]
        step (store_spec (p := xa) ?_)
        last (free_spec (p := a))
        refine entails_trans ?_ fin
        rw [List.append_assoc, List.append_assoc, List.singleton_append, List.singleton_append, first_mid, first_mid, Nodes_append, Nodes, first_cons]
        simp only [sep_assoc, emp_sep]
        sep_cancel
    · step (loadPtr_spec (p := a) ?_)
      have := ih (l1 := l1 ++ [(a, q, b)]) (by
        simp only [addrs, List.map_append, List.map_cons, List.map_nil, List.mem_append, List.mem_singleton]
        exact fun h => h.elim h1 fun h => he h.symm)
      rw [List.append_assoc, List.singleton_append, show prevOf (l1 ++ [(a, q, b)]) = a from by simp [prevOf]] at this
      refine this.pre ?_
      rw [hN]; simp only [sep_assoc]; sep_cancel

/-- the critical section of `gballoc_free`, entered with the current head -/
theorem freeFrom_spec {g p : Nat} {ok : Bool} {w : World} {es : List Ent} (hleg : Legal w (.free ok p)) :
    Triple rel (GB g w es) (freeFrom g ok p (first es 0)) (fun r => ∃∃ es', (r = 0) ⋏
      GB g (if w.init then (if ok then { w with live := dropBlk w.live p } else w) else { w with other := dropBlk w.other p }) es') := by
  unfold freeFrom
  rcases hi : w.init with _ | _
  · simp only [Bool.false_eq_true, if_false]
    rw [GB_not hi]; hoist; intro t m lk hE hl
    step (loadInt_spec (p := g) ?_)
    rw [if_pos (by decide)]
    have fin : ∀ o, o = dropBlk w.other p → GN g ⟨false, w.live, o, w.peak⟩ t m lk ⊢ₕ ∃∃ es', ((0 : Nat) = 0) ⋏ GB g ⟨false, w.live, dropBlk w.other p, w.peak⟩ es' := by
      rintro o rfl
      refine entails_ex_r [] (entails_pand_r ?_ rfl)
      exact GN_GB (w := ⟨false, w.live, dropBlk w.other p, w.peak⟩) rfl hl
    by_cases hp : p = 0
    · subst hp
      refine Triple.know (know_pick (A := Blocks w.other) know_Blocks (by pick)) fun hk => ?_
      step free_null_spec
      exact Triple.pure (fin w.other (drop_none hk.2.1).symm)
    · obtain ⟨⟨p', b⟩, hb, he⟩ := List.mem_map.1 ((hleg hi).resolve_left hp)
      simp only at he; subst he
      obtain ⟨L1, L2, hL⟩ := List.append_of_mem hb
      refine Triple.know (know_pick (A := Blocks w.other) know_Blocks (by pick)) fun hk => ?_
      have hs := hk.1
      rw [hL] at hs
      obtain ⟨hs1, hs2⟩ := nodup_split hs
      have := fin (L1 ++ L2) (by rw [hL, drop_at hs1 hs2])
      rw [hL, Blocks_split]
      step (free_spec (p := p'))
      rw [← hL]
      exact Triple.pure this
  · simp only [if_true]
    rw [GB_init hi]; hoist; intro lk hm
    step loadState_spec
    rw [if_neg (by simp)]
    refine Triple.lockGI (fun ho => ?_) (fun ho => ?_)
    · rw [if_pos rfl, ho]
      simp only [Bool.false_eq_true, if_false]
      exact Triple.pure (entails_ex_r es (entails_pand_r (GI_GB hi hm) rfl))
    rw [if_neg (by simp), ho]
    simp only [if_true]
    refine Triple.know (know_pick (A := Blocks w.live) know_Blocks (by pick)) fun hk => ?_
    have hfl := freeLoop_spec (rel := rel) (g := g) (p := p) (t := w.used) (x2 := .int w.peak) (x3 := .int stInit) (x4 := .ptr lk) (l1 := []) (l2 := es) (by simp [addrs])
    simp only [List.nil_append] at hfl
    rw [show prevOf [] = 0 from rfl, hm] at hfl
    unfold FreePost at hfl
    step hfl into u
    intro es' t' hF
    have hw : (es'.map Prod.snd = dropBlk w.live p) ∧ t' = World.used { w with live := dropBlk w.live p } := by
      rcases hF with ⟨h1, rfl, rfl⟩ | ⟨l1, a, b, l2, h1, rfl, rfl⟩
      · rw [hm] at h1
        rw [drop_none h1]; exact ⟨hm, rfl⟩
      · have hL : w.live = l1.map Prod.snd ++ (p, b) :: l2.map Prod.snd := by rw [← hm, h1]; simp
        have hs := hk.1
        rw [hL] at hs
        obtain ⟨hs1, hs2⟩ := nodup_split hs
        have hbl : b.length ≤ maxObj := hk.2.2 (p, b) (by rw [hL]; simp)
        simp only [World.used]
        rw [hL, drop_at hs1 hs2, bytes_split, bytes_append, sub_mod hbl]
        exact ⟨by simp, rfl⟩
    rw [hw.1, hw.2]
    last (unlockRet_spec (g := g) (lk := lk))
    rename_i r
    rw [pand_sep]
    refine entails_pand_l fun hr => entails_ex_r es' (entails_pand_r (entails_trans ?_ (GI_GB (w := ⟨true, dropBlk w.live p, w.other, w.peak⟩) (lk := lk) rfl hw.1)) hr)
    unfold GI; simp only [World.used, sep_assoc]; sep_cancel

/-- C30: `gballoc_free`, for any pointer. -/
theorem gballoc_free_spec {g p : Nat} {ok : Bool} {w : World} {es : List Ent} (hleg : Legal w (.free ok p)) :
    Triple rel (GB g w es) (gballoc_free g ok p) (Post g fun r w' _ => Step rel w (.free ok p) (.num r) w') := by
  unfold gballoc_free
  have hd : Triple rel (GB g w es) (loadPtr g fHead) (fun r => (r = first es 0) ⋏ GB g w es) := by
    unfold GB; hoist; intro t m lk hF
    last (loadPtr_spec (p := g) ?_)
    rename_i r
    rw [pand_sep]
    exact entails_pand_l fun hr => entails_pand_r (entails_ex_r t (entails_ex_r m (entails_ex_r lk (entails_pand_r (entails_refl _) hF)))) hr
  step hd
  refine (freeFrom_spec hleg).conseq (entails_refl _) fun r => ?_
  refine entails_ex_l fun es' => entails_pand_l fun hr => ?_
  subst hr
  exact Post_intro _ es' ⟨rfl, rfl⟩ (entails_refl _)

theorem gballoc_getMax_spec {g : Nat} {ok : Bool} {w : World} {es : List Ent} :
    Triple rel (GB g w es) (gballoc_getMaximumMemoryUsed g ok) (fun r => (r = if w.init ∧ ok then w.peak else SIZE_MAX) ⋏ GB g w es) := by
  unfold gballoc_getMaximumMemoryUsed
  rcases hi : w.init with _ | _
  · rw [GB_not hi]; hoist; intro t m lk hE hl
    step (loadInt_spec (p := g) ?_)
    rw [if_pos (by decide)]
    refine Triple.pure (entails_pand_r ?_ (by simp))
    exact entails_ex_r t (entails_ex_r m (entails_ex_r lk (entails_pand_r (entails_refl _) ⟨hE, hl⟩)))
  · rw [GB_init hi]; hoist; intro lk hm
    step loadState_spec
    rw [if_neg (by simp)]
    refine Triple.lockGI (fun ho => ?_) (fun ho => ?_)
    · rw [if_pos rfl]
      exact Triple.pure (entails_pand_r (entails_ex_r lk (entails_pand_r (entails_refl _) hm)) (by simp [ho]))
    · rw [if_neg (by simp)]
      step (loadInt_spec (p := g) ?_)
      last (unlockRet_spec (g := g) (lk := lk))
      rename_i r
      rw [pand_sep]
      refine entails_pand_l fun hr => entails_pand_r (entails_ex_r lk (entails_pand_r ?_ hm)) (by simp [ho, hr])
      unfold GI; rw [sep_assoc]; exact entails_refl _

theorem gballoc_getCur_spec {g : Nat} {ok : Bool} {w : World} {es : List Ent} :
    Triple rel (GB g w es) (gballoc_getCurrentMemoryUsed g ok) (fun r => (r = if w.init ∧ ok then w.used else SIZE_MAX) ⋏ GB g w es) := by
  unfold gballoc_getCurrentMemoryUsed
  rcases hi : w.init with _ | _
  · rw [GB_not hi]; hoist; intro t m lk hE hl
    step (loadInt_spec (p := g) ?_)
    rw [if_pos (by decide)]
    refine Triple.pure (entails_pand_r ?_ (by simp))
    exact entails_ex_r t (entails_ex_r m (entails_ex_r lk (entails_pand_r (entails_refl _) ⟨hE, hl⟩)))
  · rw [GB_init hi]; hoist; intro lk hm
    step loadState_spec
    rw [if_neg (by simp)]
    refine Triple.lockGI (fun ho => ?_) (fun ho => ?_)
    · rw [if_pos rfl]
      exact Triple.pure (entails_pand_r (entails_ex_r lk (entails_pand_r (entails_refl _) hm)) (by simp [ho]))
    · rw [if_neg (by simp)]
      step (loadInt_spec (p := g) ?_)
      last (unlockRet_spec (g := g) (lk := lk))
      rename_i r
      rw [pand_sep]
      refine entails_pand_l fun hr => entails_pand_r (entails_ex_r lk (entails_pand_r ?_ hm)) (by simp [ho, hr])
      unfold GI; rw [sep_assoc]; exact entails_refl _

theorem gballoc_init_spec {g : Nat} {mok : Bool} {w : World} {es : List Ent} :
    Triple rel (GB g w es) (gballoc_init g mok) (Post g fun r w' _ => Step rel w (.init mok) (.num r) w') := by
  unfold gballoc_init
  rcases hi : w.init with _ | _
  · rw [GB_not hi]; hoist; intro t m lk hE hl
    step (loadInt_spec (p := g) ?_)
    rw [if_neg (by simp)]
    unfold Lock_Init
    simp only [bind_assoc]
    refine Triple.mallocS (by omega) (fun hr => ?_) (fun l hl0 => ?_)
    · rw [if_neg (by simp), pure_bind]
      step (store_spec (p := g) ?_)
      rw [if_pos rfl]
      exact Triple.pure (Post_intro w [] (Or.inl ⟨50, by decide, rfl, rfl, Or.inr (Or.inr hr)⟩) (GN_GB (t := t) (m := m) (lk := 0) hi hl))
    · rw [if_pos hl0]
      cases mok with
      | false =>
        simp only [Bool.false_eq_true, if_false, bind_assoc, pure_bind]
        step (free_spec (p := l))
        step (store_spec (p := g) ?_)
        rw [if_pos trivial]
        exact Triple.pure (Post_intro w [] (Or.inl ⟨50, by decide, rfl, rfl, Or.inr (Or.inl rfl)⟩) (GN_GB (t := t) (m := m) (lk := 0) hi hl))
      | true =>
        simp only [if_true, bind_assoc, pure_bind]
        step (store_spec (p := l) ?_)
        step (store_spec (p := g) ?_)
        rw [if_neg hl0]
        step (store_spec (p := g) ?_)
        step (store_spec (p := g) ?_)
        step (store_spec (p := g) ?_)
        refine Triple.pure (Post_intro ⟨true, w.live, w.other, 0⟩ [] (Or.inr ⟨rfl, hi, rfl, rfl⟩)
          (entails_trans ?_ (GI_GB (w := ⟨true, w.live, w.other, 0⟩) (lk := l) rfl (by simp [hl]))))
        unfold GI
        simp only [World.used, hl, Nodes, Blocks, first, emp_sep]
        rw [show bytes [] % szMod = 0 from rfl]
        sep_cancel
  · rw [GB_init hi]; hoist; intro lk hm
    step loadState_spec
    rw [if_pos (by decide)]
    exact Triple.pure (Post_intro w es (Or.inl ⟨44, by decide, rfl, rfl, Or.inl hi⟩) (GI_GB hi hm))

theorem gballoc_deinit_spec {g : Nat} {w : World} {es : List Ent} (hleg : Legal w .deinit) :
    Triple rel (GB g w es) (gballoc_deinit g) (fun _ => GB g { w with init := false } []) := by
  unfold gballoc_deinit
  rcases hi : w.init with _ | _
  · rw [GB_not hi]; hoist; intro t m lk hE hl
    step (loadInt_spec (p := g) ?_)
    rw [if_neg (by decide)]
    lastd (store_spec (p := g) ?_)
    rw [sep_comm]
    exact entails_trans (by sep_cancel) (GN_GB (w := { w with init := false }) (t := t) (m := m) (lk := lk) rfl hl)
  · rw [GB_init hi]; hoist; intro lk hm
    step loadState_spec
    rw [if_pos rfl]
    have hl : w.live = [] := hleg
    have he : es = [] := by rw [hl] at hm; simpa using hm
    subst he
    unfold GI Lock_Deinit
    rw [hl]
    simp only [Nodes, Blocks, emp_sep, first]
    step (loadPtr_spec (p := g) ?_)
    refine Triple.know (know_pts (p := lk) (φ := lk ≠ 0) (by pick) fun h1 _ => h1) fun h0 => ?_
    rw [if_neg h0]
    simp only [bind_assoc]
    step (loadInt_spec (p := lk) ?_)
    rw [if_pos rfl]
    simp only [bind_assoc, pure_bind]
    step (free_spec (p := lk))
    lastd (store_spec (p := g) ?_)
    exact entails_trans (by sep_cancel) (GN_GB (w := ⟨false, [], w.other, w.peak⟩) (t := w.used) (m := w.peak) (lk := lk) rfl rfl)

end Verif.Gballoc
