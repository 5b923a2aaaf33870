import Verif.Gballoc.Props
import Verif.Pool
/-! # C30, C31 over histories: every client program, every allocator -/
set_option linter.unusedSimpArgs false
set_option linter.unusedVariables false
namespace Verif.Gballoc
open Verif
variable {rel : Prop}

def exec (g : Ptr) : Op → M Out
  | .init mok => do let r ← gballoc_init g mok; pure (.num r)
  | .deinit => do gballoc_deinit g; pure (.num 0)
  | .malloc ok n => do let r ← gballoc_malloc g ok n; pure (.num r)
  | .calloc ok n m => do let r ← gballoc_calloc g ok n m; pure (.num r)
  | .realloc ok p n => do let r ← gballoc_realloc g ok p n; pure (.num r)
  | .free ok p => do let r ← gballoc_free g ok p; pure (.num r)
  | .getMax ok => do let r ← gballoc_getMaximumMemoryUsed g ok; pure (.num r)
  | .getCur ok => do let r ← gballoc_getCurrentMemoryUsed g ok; pure (.num r)
  | .poke p off v => do store p off v; pure (.num 0)
  | .peek p off => do let v ← load p off; pure (.val v)

/-- run a client; the log records its calls and what they returned -/
def run (g : Ptr) : Client → M (List (Op × Out))
  | .done => pure []
  | .call op k => do
    let o ← exec g op
    let l ← run g (k o)
    pure ((op, o) :: l)

theorem Post_to {g : Ptr} {w : World} {op : Op} {S : Nat → World → List Ent → Prop} {c : M Nat} {es : List Ent}
    (h : Triple rel (GB g w es) c (Post g S)) (hS : ∀ r w' es', S r w' es' → Step rel w op (.num r) w') :
    Triple rel (GB g w es) (do let r ← c; pure (.num r)) (fun o => ∃∃ w' es', (Step rel w op o w') ⋏ GB g w' es') := by
  refine Triple.bind' h fun r => ?_
  unfold Post; hoist; intro w' es' hr
  exact Triple.pure (entails_ex_r w' (entails_ex_r es' (entails_pand_r (entails_refl _) (hS r w' es' hr))))

theorem bytes_replace {L1 L2 : List Blk} {p : Nat} {b c : Block} (h : c.length = b.length) : bytes (L1 ++ (p, c) :: L2) = bytes (L1 ++ (p, b) :: L2) := by
  rw [bytes_split, bytes_split, h]

/-- the client writes to a block -/
theorem poke_spec {g p off : Nat} {v : Val} {w : World} {es : List Ent} (hleg : Legal w (.poke p off v)) :
    Triple rel (GB g w es) (exec g (.poke p off v)) (fun o => ∃∃ w' es', (Step rel w (.poke p off v) o w') ⋏ GB g w' es') := by
  obtain ⟨b, hb, hlen⟩ := hleg
  unfold exec GB
  hoist; intro t m lk ⟨h1, h2, h3⟩
  rcases List.mem_append.1 hb with hb | hb
  · obtain ⟨L1, L2, hL⟩ := List.append_of_mem hb
    refine Triple.know (know_pick (A := Blocks w.live) know_Blocks (by pick)) fun hk => ?_
    have hs := hk.1
    rw [hL] at hs
    obtain ⟨hs1, hs2⟩ := nodup_split hs
    obtain ⟨l1, es2, rfl, he1, he2⟩ := List.map_eq_append_iff.1 (h1.trans hL)
    obtain ⟨⟨a, x⟩, l2, rfl, he3, he4⟩ := List.map_eq_cons_iff.1 he2
    simp only at he3; subst he3
    rw [hL, Blocks_split]
    simp only [sep_assoc]
    stepd (store_spec (p := p) (b := b) (off := off) (v := v) ?_)
    refine Triple.pure (entails_ex_r { w with live := L1 ++ (p, b.set off v) :: L2 } (entails_ex_r (l1 ++ (a, p, b.set off v) :: l2)
      (entails_pand_r (entails_ex_r t (entails_ex_r m (entails_ex_r lk (entails_pand_r ?_ ⟨?_, ?_, ?_⟩)))) ?_)))
    · simp only
      rw [Blocks_split, first_mid, first_mid, Nodes_append, Nodes_append, Nodes, Nodes, first_cons, first_cons, List.length_set]
      simp only [sep_assoc]
      sep_cancel
    · simp only; rw [List.map_append, List.map_cons, he1, he4]
    · intro h; have := h2 h; rw [hL] at this; simp at this
    · intro h
      obtain ⟨r1, r2⟩ := h3 h
      refine ⟨?_, r2⟩
      rw [r1, World.used, World.used, hL]
      simp only
      rw [bytes_replace (b := b) (c := b.set off v) (by simp)]
    · exact ⟨b, rfl, Or.inl ⟨hb, by rw [hL, replace_at hs1 hs2]⟩⟩
  · obtain ⟨L1, L2, hL⟩ := List.append_of_mem hb
    refine Triple.know (know_pick (A := Blocks w.other) know_Blocks (by pick)) fun hk => ?_
    have hs := hk.1
    rw [hL] at hs
    obtain ⟨hs1, hs2⟩ := nodup_split hs
    rw [hL, Blocks_split]
    stepd (store_spec (p := p) (b := b) (off := off) (v := v) ?_)
    refine Triple.pure (entails_ex_r { w with other := L1 ++ (p, b.set off v) :: L2 } (entails_ex_r es
      (entails_pand_r (entails_ex_r t (entails_ex_r m (entails_ex_r lk (entails_pand_r ?_ ⟨h1, h2, h3⟩)))) ?_)))
    · simp only
      rw [Blocks_split]
      sep_cancel
    · exact ⟨b, rfl, Or.inr ⟨hb, by rw [hL, replace_at hs1 hs2]⟩⟩

theorem peek_spec {g p off : Nat} {w : World} {es : List Ent} (hleg : Legal w (.peek p off)) :
    Triple rel (GB g w es) (exec g (.peek p off)) (fun o => ∃∃ w' es', (Step rel w (.peek p off) o w') ⋏ GB g w' es') := by
  obtain ⟨b, hb, hlen⟩ := hleg
  unfold exec
  have hv : b[off]? = some b[off] := List.getElem?_eq_getElem hlen
  have h : Triple rel (GB g w es) (load p off) (fun v => (v = b[off]) ⋏ GB g w es) := by
    unfold GB
    hoist; intro t m lk hF
    rcases List.mem_append.1 hb with hb | hb
    · obtain ⟨L1, L2, hL⟩ := List.append_of_mem hb
      rw [hL, Blocks_split]
      simp only [sep_assoc]
      lastd (load_spec (p := p) (b := b) (off := off) (v := b[off]) ?_)
      rename_i r
      rw [pand_sep]
      refine entails_pand_l fun hr => entails_pand_r (entails_ex_r t (entails_ex_r m (entails_ex_r lk (entails_pand_r ?_ hF)))) hr
      sep_cancel
    · obtain ⟨L1, L2, hL⟩ := List.append_of_mem hb
      rw [hL, Blocks_split]
      simp only [sep_assoc]
      lastd (load_spec (p := p) (b := b) (off := off) (v := b[off]) ?_)
      rename_i r
      rw [pand_sep]
      refine entails_pand_l fun hr => entails_pand_r (entails_ex_r t (entails_ex_r m (entails_ex_r lk (entails_pand_r ?_ hF)))) hr
      sep_cancel
  step h
  exact Triple.pure (entails_ex_r w (entails_ex_r es (entails_pand_r (entails_refl _) ⟨b, b[off], hb, hv, rfl, rfl⟩)))

/-- Every legal call does what `Step` says. -/
theorem exec_spec {g : Ptr} {w : World} {op : Op} {es : List Ent} (hleg : Legal w op) :
    Triple rel (GB g w es) (exec g op) (fun o => ∃∃ w' es', (Step rel w op o w') ⋏ GB g w' es') := by
  cases op with
  | init mok => exact Post_to gballoc_init_spec fun r w' es' h => h
  | deinit =>
    unfold exec
    refine Triple.bind' (gballoc_deinit_spec hleg) fun _ => ?_
    exact Triple.pure (entails_ex_r _ (entails_ex_r [] (entails_pand_r (entails_refl _) ⟨rfl, rfl⟩)))
  | malloc ok n => exact Post_to gballoc_malloc_spec fun r w' es' h => ⟨r, rfl, h⟩
  | calloc ok n m => exact Post_to gballoc_calloc_spec fun r w' es' h => ⟨r, rfl, h⟩
  | realloc ok p n => 
    refine Post_to (gballoc_realloc_spec hleg) fun r w' es' h => ⟨r, rfl, ?_⟩
    by_cases h0 : p = 0
    · rw [if_pos h0] at h ⊢; exact h
    · rw [if_neg h0] at h ⊢; exact h.1
  | free ok p => exact Post_to (gballoc_free_spec hleg) fun r w' es' h => h
  | getMax ok =>
    unfold exec
    refine Triple.bind' gballoc_getMax_spec fun r => ?_
    hoist; intro hr
    exact Triple.pure (entails_ex_r w (entails_ex_r es (entails_pand_r (entails_refl _) ⟨by rw [hr], rfl⟩)))
  | getCur ok =>
    unfold exec
    refine Triple.bind' gballoc_getCur_spec fun r => ?_
    hoist; intro hr
    exact Triple.pure (entails_ex_r w (entails_ex_r es (entails_pand_r (entails_refl _) ⟨by rw [hr], rfl⟩)))
  | poke p off v => exact poke_spec hleg
  | peek p off => exact peek_spec hleg

/-- the log of a history -/
def calls (l : List (Op × Out × World)) : List (Op × Out) := l.map fun e => (e.1, e.2.1)

theorem run_spec {g : Ptr} (c : Client) : ∀ (w : World) (es : List Ent), Safe rel w c →
    Triple rel (GB g w es) (run g c) (fun log => ∃∃ l w' es', (Hist rel w l w' ∧ calls l = log) ⋏ GB g w' es') := by
  induction c with
  | done =>
    intro w es _
    exact Triple.pure (entails_ex_r [] (entails_ex_r w (entails_ex_r es (entails_pand_r (entails_refl _) ⟨.nil w, rfl⟩))))
  | call op k ih =>
    intro w es hs
    cases hs with
    | call hl hk =>
      unfold run
      refine Triple.bind' (exec_spec hl) fun o => ?_
      hoist; intro w1 es1 h1
      refine Triple.bind' (ih o w1 es1 (hk o w1 h1)) fun log => ?_
      hoist; intro l w2 es2 h2 h3
      exact Triple.pure (entails_ex_r ((op, o, w1) :: l) (entails_ex_r w2 (entails_ex_r es2 (entails_pand_r (entails_refl _) ⟨.cons h1 h2, by rw [← h3]; rfl⟩))))

theorem globals_spec : Triple rel emp globals (fun g => if g = 0 then ((¬ rel) ⋏ emp) else GB g World.start []) := by
  unfold globals
  refine Triple.mallocS (by omega) (fun hr => ?_) (fun g hg => ?_)
  · rw [if_neg (by simp)]; refine Triple.pure ?_; rw [if_pos rfl]; exact entails_pand_r (entails_refl _) hr
  · rw [if_pos hg]
    stepd (storeN_spec' (p := g) (off := 0) (vs := [.ptr 0, .int 0, .int 0, .int stNotInit, .ptr 0]) ?_)
    refine Triple.pure ?_
    rw [if_neg hg, patch_full (by simp)]
    rw [GB_not (by rfl)]
    refine entails_ex_r 0 (entails_ex_r 0 (entails_ex_r 0 (entails_pand_r ?_ ⟨rfl, rfl⟩)))
    simp only [World.start, Blocks, sep_emp]; exact entails_refl _

/-- what a client can see and what is left in memory at its end: `r` is the log, `h` the memory -/
def EndOk (rel : Prop) (r : Option (Nat × List (Op × Out))) (h : Heap) : Prop :=
  (r = none ∧ ¬ rel ∧ h = Heap.empty) ∨
  ∃ g l w', r = some (g, calls l) ∧ Hist rel World.start l w' ∧
    (∀ p b, (p, b) ∈ w'.live ++ w'.other → h p = some b) ∧
    (w'.init = false ∧ w'.live = [] ∧ w'.other = [] → ∀ p, p ≠ g → h p = none)

theorem Blocks_get {l : List Blk} {p : Nat} {b : Block} {h : Heap} {P F : HProp} (pk : Pick P (Blocks l) F) (hP : P h) (hm : (p, b) ∈ l) : h p = some b := by
  unfold Pick at pk; rw [pk] at hP
  obtain ⟨L1, L2, rfl⟩ := List.append_of_mem hm
  rw [Blocks_split, sep_assoc] at hP
  exact sep_pts_get hP

theorem GB_end {g : Ptr} {w : World} {es : List Ent} {h : Heap} (hG : GB g w es h) :
    (∀ p b, (p, b) ∈ w.live ++ w.other → h p = some b) ∧ (w.init = false ∧ w.live = [] ∧ w.other = [] → ∀ p, p ≠ g → h p = none) := by
  refine ⟨?_, ?_⟩
  · intro p b hm
    obtain ⟨t, m, lk, _, h1⟩ := hG
    rcases List.mem_append.1 hm with hm | hm
    · exact Blocks_get (l := w.live) (by pick) h1 hm
    · exact Blocks_get (l := w.other) (by pick) h1 hm
  · rintro ⟨hi, _, ho⟩ p hp
    rw [GB_not hi] at hG
    obtain ⟨t, m, lk, _, h1⟩ := hG
    rw [ho, Blocks, sep_emp] at h1
    obtain ⟨_, _, h3⟩ := h1
    rw [h3]; simp [Heap.single, hp]

/-- C30/C31: every client that makes only legal calls runs from program start to its end without undefined behaviour, everything it
sees is a history of the specification, its blocks hold what the specification says, and after all blocks were freed and
`gballoc_deinit` nothing is left allocated (besides the variables `g`). -/
theorem gballoc_history (c : Client) (hc : Safe rel World.start c) (al : Nat → Heap → Nat → Nat) (hal : rel → Reliable al) :
    ∃ r s', (do let g ← globals; if g = 0 then pure none else do let l ← run g c; pure (some (g, l))) (St.start al) = some (.ok (r, s')) ∧
      EndOk rel r s'.heap := by
  have t : Triple rel emp (do let g ← globals; if g = 0 then pure none else do let l ← run g c; pure (some (g, l))) (EndOk rel) := by
    refine Triple.bind' globals_spec fun g => ?_
    by_cases hg : g = 0
    · rw [if_pos hg, if_pos hg]
      hoist; intro hr
      exact Triple.pure fun hp h => Or.inl ⟨rfl, hr, h⟩
    · rw [if_neg hg, if_neg hg]
      refine Triple.bind' (run_spec c _ _ hc) fun log => ?_
      hoist; intro l w' es' h1 h2
      exact Triple.pure fun hp hG => Or.inr ⟨g, l, w', by rw [h2], h1, (GB_end hG).1, (GB_end hG).2⟩
  obtain ⟨r, s', h1, h2⟩ := t.run (St.start al) Heap.fin_empty hal rfl
  exact ⟨r, s', h1, h2⟩

/-! ## What the histories say about usage -/

/-- C30: in any history, the usage reported while initialised is the total size of the blocks obtained and not yet freed. -/
theorem current_is_live {w w' : World} {l : List (Op × Out × World)} (h : Hist rel w l w') {o : Out} {w1 : World}
    (hm : (.getCur true, o, w1) ∈ l) (hi : w1.init = true) (hb : bytes w1.live < szMod) : o = .num (bytes w1.live) := by
  induction h with
  | nil => simp at hm
  | cons hs _ ih =>
    rcases List.mem_cons.1 hm with he | hm
    · cases he
      obtain ⟨h1, rfl⟩ := hs
      rw [h1, if_pos ⟨hi, rfl⟩, World.used, Nat.mod_eq_of_lt hb]
    · exact ih hm

/-- C31: in any history, the maximum reported while initialised is `peak`. -/
theorem maximum_is_peak {w w' : World} {l : List (Op × Out × World)} (h : Hist rel w l w') {o : Out} {w1 : World}
    (hm : (.getMax true, o, w1) ∈ l) (hi : w1.init = true) : o = .num w1.peak := by
  induction h with
  | nil => simp at hm
  | cons hs _ ih =>
    rcases List.mem_cons.1 hm with he | hm
    · cases he
      obtain ⟨h1, rfl⟩ := hs
      rw [h1, if_pos ⟨hi, rfl⟩]
    · exact ih hm

theorem bytes_filter {l : List Blk} {f : Blk → Bool} : bytes (l.filter f) ≤ bytes l := by
  induction l with
  | nil => simp [bytes]
  | cons b l ih =>
    simp only [List.filter_cons]
    split <;> simp only [bytes, List.map_cons, List.sum_cons] at * <;> omega

theorem bytes_set {l : List Blk} {p off : Nat} {b : Block} {v : Val} (hn : (addrs l).Nodup) (hm : (p, b) ∈ l) :
    bytes (replaceBlk l p (p, b.set off v)) = bytes l := by
  obtain ⟨L1, L2, rfl⟩ := List.append_of_mem hm
  obtain ⟨h1, h2⟩ := nodup_split hn
  rw [replace_at h1 h2, bytes_split, bytes_split]
  simp

/-- C31, one call: the peak becomes the maximum of the peak and the usage. -/
theorem step_peak {w w' : World} {op : Op} {o : Out} (h : Step rel w op o w') (hn : (addrs w.live).Nodup) (hi : w.init = true) (hi' : w'.init = true)
    (hb : bytes w.live < szMod) (hp : w.used ≤ w.peak) : w'.peak = max w.peak w'.used := by
  have same : w.peak = max w.peak w.used := by omega
  have wl : ∀ l, (w.withLive l).peak = max w.peak (w.withLive l).used := fun l => rfl
  have get : ∀ ok n b r, GetE rel w ok n b r w' → w'.peak = max w.peak w'.used := by
    rintro ok n b r (⟨_, rfl, _⟩ | ⟨_, _, _, _, _, rfl⟩)
    · exact same
    · rw [if_pos hi]; exact wl _
  cases op with
  | init mok =>
    rcases h with ⟨_, _, _, rfl, _⟩ | ⟨_, h2, _⟩
    · exact same
    · rw [hi] at h2; cases h2
  | deinit => obtain ⟨_, rfl⟩ := h; cases hi'
  | malloc ok n => obtain ⟨r, _, h⟩ := h; exact get _ _ _ _ h
  | calloc ok n m => obtain ⟨r, _, h⟩ := h; exact get _ _ _ _ h
  | realloc ok p n =>
    obtain ⟨r, _, h⟩ := h
    by_cases h0 : p = 0
    · rw [if_pos h0] at h; exact get _ _ _ _ h
    · rw [if_neg h0] at h
      rcases h with ⟨_, rfl, _⟩ | ⟨_, _, _, _, b, _, rfl⟩
      · exact same
      · rw [if_pos hi]; exact wl _
  | free ok p =>
    obtain ⟨_, rfl⟩ := h
    rw [if_pos hi]
    cases ok with
    | false => exact same
    | true =>
      simp only [if_true, World.used]
      have h1 : bytes (dropBlk w.live p) ≤ bytes w.live := bytes_filter
      rw [World.used, Nat.mod_eq_of_lt hb] at hp
      rw [Nat.mod_eq_of_lt (by omega)]; omega
  | getMax ok => obtain ⟨_, rfl⟩ := h; exact same
  | getCur ok => obtain ⟨_, rfl⟩ := h; exact same
  | poke p off v =>
    obtain ⟨b, _, ⟨hb', rfl⟩ | ⟨_, rfl⟩⟩ := h
    · simp only [World.used]
      rw [bytes_set hn hb']; exact same
    · exact same
  | peek p off => obtain ⟨_, _, _, _, _, rfl⟩ := h; exact same

theorem addrs_replace_same {l : List Blk} {p : Nat} {b : Block} : addrs (replaceBlk l p (p, b)) = addrs l := by
  induction l with
  | nil => rfl
  | cons e l ih =>
    simp only [addrs, replaceBlk, List.map_cons] at ih ⊢
    rw [ih]
    by_cases h : e.1 = p
    · rw [if_pos h, h]
    · rw [if_neg h]

/-- addresses of live blocks stay distinct -/
theorem step_nodup {w w' : World} {op : Op} {o : Out} (h : Step rel w op o w') (hn : (addrs w.live).Nodup) : (addrs w'.live).Nodup := by
  have get : ∀ ok n b r, GetE rel w ok n b r w' → (addrs w'.live).Nodup := by
    rintro ok n b r (⟨_, rfl, _⟩ | ⟨_, h1, _, _, _, rfl⟩)
    · exact hn
    · split
      · simp only [World.withLive, addrs, List.map_cons, List.nodup_cons]; exact ⟨h1, hn⟩
      · exact hn
  cases op with
  | init mok =>
    rcases h with ⟨_, _, _, rfl, _⟩ | ⟨_, h2, _, rfl⟩ <;> exact hn
  | deinit => obtain ⟨_, rfl⟩ := h; exact hn
  | malloc ok n => obtain ⟨r, _, h⟩ := h; exact get _ _ _ _ h
  | calloc ok n m => obtain ⟨r, _, h⟩ := h; exact get _ _ _ _ h
  | realloc ok p n =>
    obtain ⟨r, _, h⟩ := h
    by_cases h0 : p = 0
    · rw [if_pos h0] at h; exact get _ _ _ _ h
    · rw [if_neg h0] at h
      rcases h with ⟨_, rfl, _⟩ | ⟨_, hr, _, _, b, hb, rfl⟩
      · exact hn
      · split
        · rename_i hi
          simp only [World.withLive]
          rw [if_pos hi] at hb
          rcases hr with rfl | ⟨hr, _⟩
          · rw [addrs_replace_same]; exact hn
          · obtain ⟨L1, L2, hL⟩ := List.append_of_mem hb
            rw [hL] at hn hr ⊢
            obtain ⟨h1, h2⟩ := nodup_split hn
            rw [replace_at h1 h2]
            simp only [addrs, List.map_append, List.map_cons, List.mem_append, List.mem_cons, not_or] at hn hr ⊢
            obtain ⟨n1, n2, n3⟩ := List.nodup_append.1 hn
            obtain ⟨n4, n5⟩ := List.nodup_cons.1 n2
            refine List.nodup_append.2 ⟨n1, List.nodup_cons.2 ⟨hr.2.2, n5⟩, ?_⟩
            intro x hx y hy hxy
            rcases List.mem_cons.1 hy with rfl | hy
            · exact hr.1 (hxy ▸ hx)
            · exact n3 x hx y (by simp [hy]) hxy
        · exact hn
  | free ok p =>
    obtain ⟨_, rfl⟩ := h
    split
    · split
      · exact (List.filter_sublist.map Prod.fst).nodup hn
      · exact hn
    · exact hn
  | getMax ok => obtain ⟨_, rfl⟩ := h; exact hn
  | getCur ok => obtain ⟨_, rfl⟩ := h; exact hn
  | poke p off v =>
    obtain ⟨b, _, ⟨hb', rfl⟩ | ⟨_, rfl⟩⟩ := h
    · simp only; rw [addrs_replace_same]; exact hn
    · exact hn
  | peek p off => obtain ⟨_, _, _, _, _, rfl⟩ := h; exact hn

/-- C31: over any history within one session (from a state where the peak is the usage, e.g. right after `gballoc_init`), the peak is
the largest usage there was: at least every usage on the way, and equal to one of them. -/
theorem peak_is_high_water {w w' : World} {l : List (Op × Out × World)} (h : Hist rel w l w') (hn : (addrs w.live).Nodup) (hi : w.init = true)
    (hp : w.used ≤ w.peak) (hb : bytes w.live < szMod) (hall : ∀ e ∈ l, e.2.2.init = true ∧ bytes e.2.2.live < szMod) :
    (w.peak ≤ w'.peak ∧ ∀ e ∈ l, e.2.2.used ≤ w'.peak) ∧ (w'.peak = w.peak ∨ ∃ e ∈ l, w'.peak = e.2.2.used) := by
  induction h with
  | nil w => exact ⟨⟨Nat.le_refl _, by simp⟩, Or.inl rfl⟩
  | @cons w op o w1 l w2 hs _ ih =>
    obtain ⟨hi1, hb1⟩ := hall (op, o, w1) (by simp)
    have e := step_peak hs hn hi hi1 hb hp
    obtain ⟨⟨i1, i2⟩, i3⟩ := ih (step_nodup hs hn) hi1 (by omega) hb1 (fun x hx => hall x (by simp [hx]))
    refine ⟨⟨by omega, ?_⟩, ?_⟩
    · intro x hx
      rcases List.mem_cons.1 hx with rfl | hx
      · show w1.used ≤ w2.peak; omega
      · exact i2 x hx
    · rcases i3 with i3 | ⟨x, hx, i3⟩
      · by_cases h0 : w.used ≤ w.peak ∧ w1.used ≤ w.peak
        · left; omega
        · right; exact ⟨(op, o, w1), by simp, by show w2.peak = w1.used; omega⟩
      · right; exact ⟨x, by simp [hx], i3⟩

/-- right after a successful `gballoc_init` the hypotheses of `peak_is_high_water` hold: nothing is in use and the peak is 0 -/
theorem after_init {w w' : World} {mok : Bool} (h : Step rel w (.init mok) (.num 0) w') (hl : w.live = []) :
    w'.init = true ∧ w'.live = [] ∧ w'.used = 0 ∧ w'.peak = 0 := by
  rcases h with ⟨r, h0, h1, _⟩ | ⟨_, _, _, rfl⟩
  · injection h1 with h1; exact absurd h1.symm h0
  · exact ⟨rfl, hl, by simp only [World.used, hl]; rfl, rfl⟩

/-! ## Non-vacuity and witnesses -/

/-- a legal client: init, allocate, grow, free, read the maximum -/
def demo : Client :=
  .call (.init true) fun o => if o = .num 0 then
    .call (.malloc true 10) fun o1 => match o1 with
      | .num p => .call (.calloc true 3 4) fun _ => .call (.free true p) fun _ => .call (.free true 77) fun _ =>
          .call (.getMax true) fun _ => .call (.getCur true) fun _ => .done
      | _ => .done
  else .done

theorem demo_safe : Safe False World.start demo := by
  refine .call trivial fun o w h => ?_
  split
  · rename_i ho
    rcases h with ⟨r, h0, h1, _⟩ | ⟨_, _, _, rfl⟩
    · rw [ho] at h1; injection h1 with h1; exact absurd h1.symm h0
    have in1 : ∀ (w w' : World) ok n b r, w.init = true → GetE False w ok n b r w' → w'.init = true := by
      rintro w w' ok n b r hi (⟨_, rfl, _⟩ | ⟨_, _, _, _, _, rfl⟩)
      · exact hi
      · rw [if_pos hi]; exact hi
    refine .call trivial fun o1 w1 h1 => ?_
    obtain ⟨r, rfl, h1⟩ := h1
    have i1 := in1 _ _ _ _ _ _ rfl h1
    refine .call trivial fun o2 w2 h2 => ?_
    obtain ⟨r2, rfl, h2⟩ := h2
    have i2 := in1 _ _ _ _ _ _ i1 h2
    refine .call (fun h => by rw [i2] at h; cases h) fun o3 w3 h3 => ?_
    obtain ⟨_, rfl⟩ := h3
    refine .call (fun h => by simp [i2] at h) fun o4 w4 h4 => ?_
    exact .call trivial fun _ _ _ => .call trivial fun _ _ _ => .done _
  · exact .done _

/-- the loop of `gballoc_free` unrolled three times, so that concrete runs can be evaluated by the kernel -/
def freeBody (rec : Ptr → Ptr → Ptr → Ptr → M Unit) (g ptr curr prev : Ptr) : M Unit := do
  if curr ≠ 0 then
    let p ← loadPtr curr aPtr
    if p = ptr then
      free ptr
      let t ← loadInt g fTotal
      let s ← loadInt curr aSize
      store g fTotal (.int ((t + szMod - s) % szMod))
      let next ← loadPtr curr aNext
      if prev ≠ 0 then
        store prev aNext (.ptr next)
        free curr
      else
        store g fHead (.ptr next)
        free curr
    else
      let next ← loadPtr curr aNext
      rec g ptr next curr
  else pure ()

theorem freeLoop_eq : freeLoop = freeBody freeLoop := by
  funext g p c v; rw [freeLoop]; rfl

theorem freeLoop_eq3 : freeLoop = freeBody (freeBody (freeBody freeLoop)) := by
  rw [← freeLoop_eq, ← freeLoop_eq, ← freeLoop_eq]

/-- the calls of `demo` run: 22 bytes at the peak, 12 in the end, the free of an unknown pointer has no effect -/
example : (outcome (do
    let g ← globals
    let a ← gballoc_init g true
    let p ← gballoc_malloc g true 10
    let q ← gballoc_calloc g true 3 4
    let _ ← gballoc_free g true p
    let _ ← gballoc_free g true 77
    let m ← gballoc_getMaximumMemoryUsed g true
    let c ← gballoc_getCurrentMemoryUsed g true
    pure [a, p, q, m, c]) (St.start bump)) = some (.ok [0, 4, 6, 22, 12]) := by
  unfold gballoc_free freeFrom
  rw [freeLoop_eq3]
  decide +kernel

/-- Why `gballoc_deinit` is legal only when nothing is tracked: `gballoc_deinit` and `gballoc_init` keep the old records, so a
block of the first session freed in the second makes the reported usage `2^64 - 10` although nothing is in use. -/
theorem gballoc_deinit_live : (outcome (do
    let g ← globals
    let _ ← gballoc_init g true
    let p ← gballoc_malloc g true 10
    gballoc_deinit g
    let _ ← gballoc_init g true
    let _ ← gballoc_free g true p
    gballoc_getCurrentMemoryUsed g true) (St.start bump)) = some (.ok (2 ^ 64 - 10)) := by
  unfold gballoc_free freeFrom
  rw [freeLoop_eq3]
  decide +kernel

end Verif.Gballoc
