import Verif.Const.Buffer
/-! # C14 under concurrency: threads sharing one CONSTBUFFER

Each thread executes clone / destroy / read operations on the same handle.  Every memory access of the code is a separate atomic
action (the count updates are atomic by refcount.h), and a schedule interleaves them arbitrarily. -/
set_option linter.unusedSimpArgs false
set_option linter.unusedVariables false
namespace Verif.Const
open Verif Verif.Buffer
variable {rel : Prop}

/-- constbuffer.c:106-119 as atomic actions -/
def cloneP {O} (h : Ptr) (k : Prog O) : Prog O :=
  if h = 0 then k else .act (incRef h cCount) fun _ => k

/-- constbuffer.c:138-152 as atomic actions -/
def destroyP {O} (h : Ptr) (k : Prog O) : Prog O :=
  if h ≠ 0 then
    .act (decRef h cCount) fun n =>
    if n = 0 then
      .act (loadPtr h cBuffer) fun b =>
      .act (do free b; pure 0) fun _ =>
      .act (do free h; pure 0) fun _ => k
    else k
  else k

/-- the client reads the bytes one by one and reports them -/
def readP (b : Ptr) : Nat → Nat → List Nat → Prog (List Nat) → Prog (List Nat)
  | 0, _, acc, k => .emit acc k
  | m + 1, j, acc, k => .act (do let x ← loadByte b j; pure x.toNat) fun x => readP b m (j + 1) (acc ++ [x]) k

/-- constbuffer.c:121-136 followed by the client's reading of `size`, `buffer` and the bytes -/
def getP (h : Ptr) (k : Prog (List Nat)) : Prog (List Nat) :=
  if h = 0 then k
  else .act (loadInt h cSize) fun n => .act (loadPtr h cBuffer) fun b => readP b n 0 [] k

/-- the atomic actions, run by one thread alone, are the functions of the sequential model -/
theorem destroyP_run (h : Ptr) : (destroyP h (.done : Prog (List Nat))).run = (do CONSTBUFFER_Destroy h; pure []) := by
  unfold destroyP CONSTBUFFER_Destroy
  by_cases hh : h = 0
  · simp [hh, Prog.run]
  · simp only [ne_eq, hh, not_false_eq_true, if_true, Prog.run, bind_assoc]
    congr 1; funext n
    by_cases hn : n = 0
    · simp [hn, Prog.run]
    · simp [hn, Prog.run]

theorem cloneP_run (h : Ptr) : (cloneP h (.done : Prog (List Nat))).run = (do let _ ← CONSTBUFFER_Clone h; pure []) := by
  unfold cloneP CONSTBUFFER_Clone
  by_cases hh : h = 0
  · simp [hh, Prog.run]
  · simp [hh, Prog.run]

inductive TOp where
  | clone | destroy | get
  deriving DecidableEq

/-- a thread's program -/
def thread (h : Ptr) : List TOp → Prog (List Nat)
  | [] => .done
  | .clone :: ops => cloneP h (thread h ops)
  | .destroy :: ops => destroyP h (thread h ops)
  | .get :: ops => getP h (thread h ops)

/-- References left when a thread that starts with `r` references has executed `ops`; `none` if it would use the buffer without
holding a reference (the protocol of the API). -/
def left : Nat → List TOp → Option Nat
  | r, [] => some r
  | r + 1, .clone :: ops => left (r + 2) ops
  | r + 1, .destroy :: ops => left r ops
  | r + 1, .get :: ops => left (r + 1) ops
  | 0, _ :: _ => none

def nClones : List TOp → Nat
  | [] => 0
  | .clone :: ops => nClones ops + 1
  | _ :: ops => nClones ops

/-! ## Where a thread can be -/

inductive Loc where
  | idle (r : Nat) (ops : List TOp)
  | g1 (r : Nat) (ops : List TOp)
  | g2 (r : Nat) (ops : List TOp) (j : Nat)

namespace Loc
def refs : Loc → Nat
  | idle r _ => r | g1 r _ => r + 1 | g2 r _ _ => r + 1
def ops : Loc → List TOp
  | idle _ o => o | g1 _ o => o | g2 _ o _ => o
def clones (l : Loc) : Nat := nClones l.ops
def lft (l : Loc) : Option Nat := left l.refs l.ops
end Loc

/-- the program at a location; `p` is the storage, `bs` the contents -/
def Loc.prog (h p : Ptr) (bs : List UInt8) : Loc → Prog (List Nat)
  | .idle _ ops => thread h ops
  | .g1 _ ops => .act (loadPtr h cBuffer) fun b => readP b bs.length 0 [] (thread h ops)
  | .g2 _ ops j => readP p (bs.length - j) j ((bs.take j).map UInt8.toNat) (thread h ops)

def Loc.ok (bs : List UInt8) : Loc → Prop
  | .g2 _ _ j => j ≤ bs.length
  | _ => True

/-- what we claim at the end of a schedule: every report was the contents, and if all threads have finished, the memory is
exactly that of a buffer with the references left over (none: nothing) -/
def Claim (h : Ptr) (bs : List UInt8) (F : Nat) (r : List (Nat × List Nat) × List (Prog (List Nat))) : HProp :=
  (∀ e ∈ r.1, e.2 = bs.map UInt8.toNat) ⋏ fun hp => (∀ t ∈ r.2, t = .done) → Sh CB h (F, bytesV bs) hp

theorem claim_intro {h : Ptr} {bs : List UInt8} {F : Nat} {ts : List (Prog (List Nat))} {P : HProp}
    (hp : (∀ t ∈ ts, t = .done) → P ⊢ₕ Sh CB h (F, bytesV bs)) : P ⊢ₕ Claim h bs F ([], ts) :=
  fun hp' hP => ⟨by simp, fun hd => hp hd hp' hP⟩

theorem claim_log {h : Ptr} {bs : List UInt8} {F i : Nat} {l : List (Nat × List Nat) × List (Prog (List Nat))} :
    Claim h bs F l ⊢ₕ Claim h bs F ((i, bs.map UInt8.toNat) :: l.1, l.2) := by
  intro hp hP
  refine ⟨?_, hP.2⟩
  intro e he
  simp at he
  rcases he with rfl | he
  · rfl
  · exact hP.1 e he

/-- all threads finished -/
theorem sched_done {h : Ptr} {bs : List UInt8} {F : Nat} {P : HProp} (hP : P ⊢ₕ Sh CB h (F, bytesV bs)) (sched : List Nat) :
    ∀ ts : List (Prog (List Nat)), (∀ t ∈ ts, t = .done) → Triple rel P (runSched sched ts) (Claim h bs F) := by
  induction sched with
  | nil => intro ts hts; exact Triple.pure (claim_intro fun _ => hP)
  | cons i sched ih =>
    intro ts hts
    unfold runSched
    rcases hi : ts[i]? with _ | t
    · exact ih ts hts
    · have := hts t (List.mem_of_getElem? hi); subst this
      exact ih ts hts

/-- one step of the thread at position `i` -/
theorem sched_act {h : Ptr} {bs : List UInt8} {F i : Nat} {P : HProp} {Q : Nat → HProp} {sched : List Nat} {ts : List (Prog (List Nat))} {c : M Nat} {k : Nat → Prog (List Nat)}
    (hi : ts[i]? = some (.act c k)) (hc : Triple rel P c Q) (hn : ∀ r, Triple rel (Q r) (runSched sched (ts.set i (k r))) (Claim h bs F)) :
    Triple rel P (runSched (i :: sched) ts) (Claim h bs F) := by
  unfold runSched
  rw [hi]
  exact Triple.bind' hc hn

/-- the other threads have finished, this one is freeing the buffer -/
theorem sched_dying {h p : Ptr} {bs : List UInt8} (hne : h ≠ 0) (sched : List Nat) : ∀ (ts : List (Prog (List Nat))) (i : Nat),
    (∀ (j : Nat) t, j ≠ i → ts[j]? = some t → t = .done) →
    (ts[i]? = some (.act (loadPtr h cBuffer) fun b => .act (do free b; pure 0) fun _ => .act (do free h; pure 0) fun _ => .done) →
      Triple rel (h ↦ [.ptr p, .int bs.length, .int 0] ∗ Store p (bytesV bs)) (runSched sched ts) (Claim h bs 0)) ∧
    (ts[i]? = some (.act (do free p; pure 0) fun _ => .act (do free h; pure 0) fun _ => .done) →
      Triple rel (h ↦ [.ptr p, .int bs.length, .int 0] ∗ Store p (bytesV bs)) (runSched sched ts) (Claim h bs 0)) ∧
    (ts[i]? = some (.act (do free h; pure 0) fun _ => .done) →
      Triple rel (h ↦ [.ptr p, .int bs.length, .int 0]) (runSched sched ts) (Claim h bs 0)) := by
  have e0 : Sh CB h (0, bytesV bs) = emp := if_pos rfl
  induction sched with
  | nil =>
    intro ts i hts
    have nd : ∀ {c k}, ts[i]? = some (.act c k) → ¬ ∀ t ∈ ts, t = .done := by
      intro c k hi hd
      have := hd _ (List.mem_of_getElem? hi); simp at this
    refine ⟨fun hi => ?_, fun hi => ?_, fun hi => ?_⟩ <;> exact Triple.pure (claim_intro fun hd => absurd hd (nd hi))
  | cons j sched ih =>
    intro ts i hts
    have keep : ∀ k : Prog (List Nat), ∀ (j : Nat) t, j ≠ i → (ts.set i k)[j]? = some t → t = .done := by
      intro k j t hj ht
      rw [List.getElem?_set_ne (Ne.symm hj)] at ht
      exact hts j t hj ht
    have hlt : ∀ {t}, ts[i]? = some t → i < ts.length := fun h => (List.getElem?_eq_some_iff.1 h).1
    by_cases hij : j = i
    · subst hij
      refine ⟨fun hi => ?_, fun hi => ?_, fun hi => ?_⟩
      · refine sched_act hi (Q := fun r => (r = p) ⋏ h ↦ [.ptr p, .int bs.length, .int 0] ∗ Store p (bytesV bs)) ?_ fun r => ?_
        · last (loadPtr_spec (p := h) ?_)
          rename_i r
          rw [pand_sep]; exact entails_refl _
        · hoist; rintro rfl
          exact (ih _ j (keep _)).2.1 (by simp [hlt hi])
      · refine sched_act hi (Q := fun r => h ↦ [.ptr p, .int bs.length, .int 0]) ?_ fun r => ?_
        · by_cases hb : bs = []
          · subst hb
            simp only [Store, bytesV, List.map_nil, if_true]; hoist; rintro rfl
            step free_null_spec
            exact Triple.pure (entails_refl _)
          · rw [Store, if_neg (by simpa [bytesV] using hb)]
            step (free_spec (p := p))
            exact Triple.pure (entails_refl _)
        · exact (ih _ j (keep _)).2.2 (by simp [hlt hi])
      · refine sched_act hi (Q := fun r => emp) ?_ fun r => ?_
        · step (free_spec (p := h))
          exact Triple.pure (entails_refl _)
        · refine sched_done (by rw [e0]; exact entails_refl _) sched _ fun t ht => ?_
          obtain ⟨m, hm⟩ := List.getElem?_of_mem ht
          by_cases hmj : m = j
          · subst hmj; simp [hlt hi] at hm; exact hm.symm
          · exact keep _ m t hmj hm
    · have skip : runSched (j :: sched) ts = runSched sched ts := by
        rcases hj : ts[j]? with _ | t
        · simp only [runSched, hj]
        · have := hts j t hij hj; subst this
          simp only [runSched, hj]
      rw [skip]
      exact ih ts i hts

/-! ## The main invariant -/

theorem sum_set {f : Loc → Nat} {locs : List Loc} {i : Nat} {l : Loc} (h : locs[i]? = some l) :
    ∃ S, (locs.map f).sum = f l + S ∧ ∀ l', ((locs.set i l').map f).sum = f l' + S := by
  induction locs generalizing i with
  | nil => simp at h
  | cons x xs ih =>
    cases i with
    | zero => simp at h; subst h; exact ⟨(xs.map f).sum, by simp, fun l' => by simp⟩
    | succ i =>
      simp at h
      obtain ⟨S, h1, h2⟩ := ih h
      exact ⟨f x + S, by simp [h1]; omega, fun l' => by have := h2 l'; simp only [List.set_cons_succ, List.map_cons, List.sum_cons]; omega⟩

theorem sum_zero {l : List Nat} (h : ∀ x ∈ l, x = 0) : l.sum = 0 := by
  induction l with
  | nil => rfl
  | cons a l ih => simp [h a (by simp), ih fun x hx => h x (by simp [hx])]

theorem mem_le_sum {f : Loc → Nat} {locs : List Loc} {l : Loc} (h : l ∈ locs) : f l ≤ (locs.map f).sum := by
  induction locs with
  | nil => simp at h
  | cons x xs ih =>
    simp at h ⊢
    rcases h with rfl | h
    · omega
    · have := ih h; omega

def tot (locs : List Loc) : Nat := (locs.map Loc.refs).sum
def totC (locs : List Loc) : Nat := (locs.map Loc.clones).sum
/-- references left in the end -/
def fin (l : Loc) : Nat := l.lft.getD 0

theorem left_zero {ops : List TOp} (h : left 0 ops ≠ none) : ops = [] := by
  cases ops with
  | nil => rfl
  | cons o ops => simp [left] at h

theorem sched_alive {h p : Ptr} {bs : List UInt8} (hne : h ≠ 0) (sched : List Nat) : ∀ (locs : List Loc),
    (∀ l ∈ locs, l.lft ≠ none ∧ l.ok bs) → 0 < tot locs → tot locs + totC locs < u32 →
    Triple rel (h ↦ [.ptr p, .int bs.length, .int (tot locs)] ∗ Store p (bytesV bs)) (runSched sched (locs.map (Loc.prog h p bs)))
      (Claim h bs (locs.map fin).sum) := by
  induction sched with
  | nil =>
    intro locs hl ht hc
    refine Triple.pure (claim_intro fun hd => ?_)
    have : (locs.map fin).sum = tot locs := by
      unfold tot
      congr 1
      apply List.map_congr_left
      intro l hm
      have hp := hd _ (List.mem_map_of_mem hm)
      cases l with
      | idle r ops =>
        cases ops with
        | nil => rfl
        | cons o ops =>
          cases o with
          | clone => simp [Loc.prog, thread, cloneP, hne] at hp
          | destroy => simp [Loc.prog, thread, destroyP, hne] at hp
          | get => simp [Loc.prog, thread, getP, hne] at hp
      | g1 r ops => simp [Loc.prog] at hp
      | g2 r ops j =>
        simp only [Loc.prog] at hp
        cases hb : bs.length - j with
        | zero => rw [hb] at hp; simp [readP] at hp
        | succ m => rw [hb] at hp; simp [readP] at hp
    rw [this, Sh, if_neg (by omega)]
    refine entails_ex_r p (entails_pand_r ?_ (by omega))
    simp only [bytesV, List.length_map]; exact entails_refl _
  | cons i sched ih =>
    intro locs hl ht hc
    rcases hi : locs[i]? with _ | l
    · unfold runSched; simp only [List.getElem?_map, hi, Option.map_none]; exact ih locs hl ht hc
    have hm := List.mem_of_getElem? hi
    have hlt : i < locs.length := (List.getElem?_eq_some_iff.1 hi).1
    have hw := hl l hm
    have hpi : (locs.map (Loc.prog h p bs))[i]? = some (l.prog h p bs) := by simp [hi]
    have setp : ∀ l' : Loc, (locs.map (Loc.prog h p bs)).set i (l'.prog h p bs) = (locs.set i l').map (Loc.prog h p bs) := by
      intro l'; rw [List.map_set]
    obtain ⟨S, hS1, hS2⟩ := sum_set (f := Loc.refs) hi
    obtain ⟨C, hC1, hC2⟩ := sum_set (f := Loc.clones) hi
    obtain ⟨L, hL1, hL2⟩ := sum_set (f := fin) hi
    have keepl : ∀ l' : Loc, (l'.lft ≠ none ∧ l'.ok bs) → ∀ x ∈ locs.set i l', x.lft ≠ none ∧ x.ok bs := by
      intro l' h' x hx
      rcases List.mem_or_eq_of_mem_set hx with hx | rfl
      · exact hl x hx
      · exact h'
    -- a move to a location with the same accounts
    have same : ∀ l' : Loc, l'.refs = l.refs → l'.ops = l.ops → l'.ok bs →
        Triple rel (h ↦ [.ptr p, .int bs.length, .int (tot locs)] ∗ Store p (bytesV bs)) (runSched sched ((locs.map (Loc.prog h p bs)).set i (l'.prog h p bs)))
          (Claim h bs (locs.map fin).sum) := by
      intro l' h1 h2 h3
      have hlft : l'.lft = l.lft := by simp [Loc.lft, h1, h2]
      have e1 : tot (locs.set i l') = tot locs := by unfold tot; rw [hS2, hS1, h1]
      have e2 : totC (locs.set i l') = totC locs := by unfold totC; rw [hC2, hC1]; simp [Loc.clones, h2]
      have e3 : ((locs.set i l').map fin).sum = (locs.map fin).sum := by rw [hL2, hL1]; simp [fin, hlft]
      have := ih (locs.set i l') (keepl l' ⟨by rw [hlft]; exact hw.1, h3⟩) (by omega) (by omega)
      rw [e1, e3] at this
      rw [setp]; exact this
    cases l with
    | g1 r ops =>
      refine sched_act hpi (Q := fun x => (x = p) ⋏ h ↦ [.ptr p, .int bs.length, .int (tot locs)] ∗ Store p (bytesV bs)) ?_ fun x => ?_
      · last (loadPtr_spec (p := h) ?_)
        rename_i x
        rw [pand_sep]; exact entails_refl _
      · hoist; rintro rfl
        exact same (.g2 r ops 0) rfl rfl (Nat.zero_le _)
    | g2 r ops j =>
      have hj : j ≤ bs.length := hw.2
      by_cases hjl : j = bs.length
      · subst hjl
        have hpe : (Loc.g2 r ops bs.length).prog h p bs = .emit (bs.map UInt8.toNat) (thread h ops) := by
          simp [Loc.prog, readP]
        rw [hpe] at hpi
        unfold runSched
        rw [hpi]
        refine Triple.bind' (same (.idle (r + 1) ops) rfl rfl trivial) fun l => ?_
        exact Triple.pure claim_log
      · obtain ⟨b, hb⟩ : ∃ b, bs[j]? = some b := ⟨_, List.getElem?_eq_getElem (by omega)⟩
        have hpe : (Loc.g2 r ops j).prog h p bs = .act (do let x ← loadByte p j; pure x.toNat) fun x =>
            readP p (bs.length - (j + 1)) (j + 1) ((bs.take j).map UInt8.toNat ++ [x]) (thread h ops) := by
          have : bs.length - j = (bs.length - (j + 1)) + 1 := by omega
          simp only [Loc.prog, this, readP]
        rw [hpe] at hpi
        have hbn : bs ≠ [] := by intro h; subst h; simp at hb
        refine sched_act hpi (Q := fun x => (x = b.toNat) ⋏ h ↦ [.ptr p, .int bs.length, .int (tot locs)] ∗ Store p (bytesV bs)) ?_ fun x => ?_
        · rw [Store, if_neg (by simpa [bytesV] using hbn)]
          step (loadByte_spec (p := p) (b := bytesV bs) (off := j) (x := b) (by simp [bytesV, hb]))
          exact Triple.pure (entails_pand_r (by sep_cancel) rfl)
        · hoist; rintro rfl
          have e : (bs.take j).map UInt8.toNat ++ [b.toNat] = (bs.take (j + 1)).map UInt8.toNat := by
            obtain ⟨h1, h2⟩ := List.getElem?_eq_some_iff.1 hb
            rw [List.take_succ_eq_append_getElem h1, h2]; simp
          rw [e]
          exact same (.g2 r ops (j + 1)) rfl rfl (by show j + 1 ≤ bs.length; omega)
    | idle r ops =>
      cases ops with
      | nil =>
        have hpe : (Loc.idle r []).prog h p bs = .done := rfl
        rw [hpe] at hpi
        have skip : runSched (i :: sched) (locs.map (Loc.prog h p bs)) = runSched sched (locs.map (Loc.prog h p bs)) := by
          simp only [runSched, hpi]
        rw [skip]; exact ih locs hl ht hc
      | cons o ops =>
        have hr : r ≠ 0 := by rintro rfl; exact hw.1 (by simp [Loc.lft, Loc.refs, Loc.ops, left])
        obtain ⟨r, rfl⟩ := Nat.exists_eq_succ_of_ne_zero hr
        cases o with
        | get =>
          have hpe : (Loc.idle (r + 1) (.get :: ops)).prog h p bs = .act (loadInt h cSize) fun n => .act (loadPtr h cBuffer) fun b => readP b n 0 [] (thread h ops) := by
            simp [Loc.prog, thread, getP, hne]
          have e1 : tot (locs.set i (.g1 r ops)) = tot locs := by unfold tot; rw [hS2, hS1]; simp [Loc.refs]
          have e2 : totC (locs.set i (.g1 r ops)) = totC locs := by unfold totC; rw [hC2, hC1]; simp [Loc.clones, Loc.ops, nClones]
          have e3 : ((locs.set i (.g1 r ops)).map fin).sum = (locs.map fin).sum := by rw [hL2, hL1]; simp [fin, Loc.lft, Loc.refs, Loc.ops, left]
          have next := ih (locs.set i (.g1 r ops)) (keepl _ ⟨by have := hw.1; simpa [Loc.lft, Loc.refs, Loc.ops, left] using this, trivial⟩) (by omega) (by omega)
          rw [e1, e3, ← setp] at next
          rw [hpe] at hpi
          refine sched_act hpi (Q := fun x => (x = bs.length) ⋏ h ↦ [.ptr p, .int bs.length, .int (tot locs)] ∗ Store p (bytesV bs)) ?_ fun x => ?_
          · last (loadInt_spec (p := h) ?_)
            rename_i x
            rw [pand_sep]; exact entails_refl _
          · hoist; rintro rfl
            exact next
        | clone =>
          have hpe : (Loc.idle (r + 1) (.clone :: ops)).prog h p bs = .act (incRef h cCount) fun _ => thread h ops := by
            simp [Loc.prog, thread, cloneP, hne]
          have e1 : tot (locs.set i (.idle (r + 2) ops)) = tot locs + 1 := by unfold tot; rw [hS2, hS1]; simp only [Loc.refs]; omega
          have e2 : totC (locs.set i (.idle (r + 2) ops)) + 1 = totC locs := by unfold totC; rw [hC2, hC1]; simp only [Loc.clones, Loc.ops, nClones]; omega
          have e3 : ((locs.set i (.idle (r + 2) ops)).map fin).sum = (locs.map fin).sum := by rw [hL2, hL1]; simp [fin, Loc.lft, Loc.refs, Loc.ops, left]
          have next := ih (locs.set i (.idle (r + 2) ops)) (keepl _ ⟨by have := hw.1; simpa [Loc.lft, Loc.refs, Loc.ops, left] using this, trivial⟩) (by omega) (by omega)
          rw [e1, e3, ← setp] at next
          rw [hpe] at hpi
          refine sched_act hpi (Q := fun x => h ↦ [.ptr p, .int bs.length, .int (tot locs + 1)] ∗ Store p (bytesV bs)) ?_ fun x => next
          last (incRef_spec (h := h) (off := cCount) (n := tot locs) (b := [.ptr p, .int bs.length, .int (tot locs)]) rfl (by omega))
          rw [pand_sep]
          exact entails_pand_l fun _ => entails_refl _
        | destroy =>
          have hpe : (Loc.idle (r + 1) (.destroy :: ops)).prog h p bs = .act (decRef h cCount) fun n =>
              if n = 0 then .act (loadPtr h cBuffer) fun b => .act (do free b; pure 0) fun _ => .act (do free h; pure 0) fun _ => thread h ops else thread h ops := by
            simp [Loc.prog, thread, destroyP, hne]
          have e1 : tot (locs.set i (.idle r ops)) + 1 = tot locs := by unfold tot; rw [hS2, hS1]; simp only [Loc.refs]; omega
          have e2 : totC (locs.set i (.idle r ops)) = totC locs := by unfold totC; rw [hC2, hC1]; simp [Loc.clones, Loc.ops, nClones]
          have e3 : ((locs.set i (.idle r ops)).map fin).sum = (locs.map fin).sum := by rw [hL2, hL1]; simp [fin, Loc.lft, Loc.refs, Loc.ops, left]
          have hk := keepl (.idle r ops) ⟨by have := hw.1; simpa [Loc.lft, Loc.refs, Loc.ops, left] using this, trivial⟩
          obtain ⟨m, hm'⟩ : ∃ m, tot locs = m + 1 := ⟨_, e1.symm⟩
          rw [hpe] at hpi
          refine sched_act hpi (Q := fun x => (x = m) ⋏ h ↦ [.ptr p, .int bs.length, .int m] ∗ Store p (bytesV bs)) ?_ fun x => ?_
          · rw [hm']
            last (decRef_spec (h := h) (off := cCount) (n := m) (b := [.ptr p, .int bs.length, .int (m + 1)]) rfl (by omega))
            rename_i x
            rw [pand_sep]; exact entails_refl _
          · hoist; rintro rfl
            by_cases h0 : x = 0
            · subst h0
              rw [if_pos rfl]
              -- every other thread has finished
              have hz : ∀ l' ∈ locs.set i (.idle r ops), l' = .idle 0 [] := by
                intro l' hl'
                have h1 := mem_le_sum (f := Loc.refs) hl'
                have h2 : ((locs.set i (.idle r ops)).map Loc.refs).sum = 0 := by have : tot (locs.set i (.idle r ops)) = 0 := by omega
                                                                                  exact this
                have h3 : l'.refs = 0 := by omega
                have h4 := (hk l' hl').1
                cases l' with
                | idle r' ops' =>
                  simp only [Loc.refs] at h3; subst h3
                  have := left_zero h4
                  simp only [Loc.ops] at this; subst this; rfl
                | g1 _ _ => simp [Loc.refs] at h3
                | g2 _ _ _ => simp [Loc.refs] at h3
              have hops : ops = [] := by
                have : Loc.idle r ops = Loc.idle 0 [] := hz _ (by
                  have : (locs.set i (.idle r ops))[i]? = some (.idle r ops) := by simp [hlt]
                  exact List.mem_of_getElem? this)
                cases this; rfl
              subst hops
              have hF : (locs.map fin).sum = 0 := by
                rw [← e3]
                have : ∀ x ∈ (locs.set i (Loc.idle r [])).map fin, x = 0 := by
                  intro x hx
                  obtain ⟨l', hl', rfl⟩ := List.mem_map.1 hx
                  rw [hz l' hl']; rfl
                exact sum_zero this
              rw [hF]
              refine (sched_dying (bs := bs) hne sched _ i ?_).1 (by simp [hlt, thread])
              intro j t hji hj
              rw [List.getElem?_set_ne (Ne.symm hji)] at hj
              rw [List.getElem?_map] at hj
              rcases hlj : locs[j]? with _ | lj
              · rw [hlj] at hj; simp at hj
              · rw [hlj] at hj; simp at hj
                have : lj ∈ locs.set i (.idle r []) := by
                  have : (locs.set i (.idle r []))[j]? = some lj := by rw [List.getElem?_set_ne (Ne.symm hji)]; exact hlj
                  exact List.mem_of_getElem? this
                rw [← hj, hz lj this]; rfl
            · rw [if_neg h0]
              have hx : tot (locs.set i (.idle r ops)) = x := by omega
              have next := ih (locs.set i (.idle r ops)) hk (by omega) (by omega)
              rw [hx, e3, ← setp] at next
              exact next

/-- C14, any number of threads, any schedule: threads share one buffer with contents `bs`; thread `k` starts with `r` references
and runs `ops`, using the buffer only while it holds a reference.  Then no schedule reaches undefined behaviour (no use after
free, no double free), every read reports the original bytes, and when all threads have finished the buffer's memory is in use
exactly if references are left. -/
theorem CONSTBUFFER_threads {h : Ptr} {bs : List UInt8} (ts : List (Nat × List TOp)) (fs : List Nat)
    (hproto : ts.map (fun t => left t.1 t.2) = fs.map some)
    (hpos : 0 < (ts.map Prod.fst).sum) (hmax : (ts.map Prod.fst).sum + (ts.map fun t => nClones t.2).sum < u32) (sched : List Nat) :
    Triple rel (CB h (ts.map Prod.fst).sum (bytesV bs)) (runSched sched (ts.map fun t => thread h t.2))
      (fun r => (∀ e ∈ r.1, e.2 = bs.map UInt8.toNat) ⋏ fun hp => (∀ t ∈ r.2, t = .done) → Sh CB h (fs.sum, bytesV bs) hp) := by
  refine Triple.know (know_CB (h := h) (by pick)) fun hk => ?_
  simp only [CB]; hoist; intro p _
  have e1 : tot (ts.map fun t => Loc.idle t.1 t.2) = (ts.map Prod.fst).sum := by simp only [tot, List.map_map]; rfl
  have e2 : totC (ts.map fun t => Loc.idle t.1 t.2) = (ts.map fun t => nClones t.2).sum := by simp only [totC, List.map_map]; rfl
  have e3 : ((ts.map fun t => Loc.idle t.1 t.2).map fin).sum = fs.sum := by
    have : (ts.map fun t => Loc.idle t.1 t.2).map fin = (ts.map fun t => left t.1 t.2).map (·.getD 0) := by simp only [List.map_map]; rfl
    rw [this, hproto, List.map_map]
    have : ((fun x : Option Nat => x.getD 0) ∘ some) = id := rfl
    rw [this, List.map_id]
  have := sched_alive (rel := rel) (p := p) (bs := bs) hk.1 sched (ts.map fun t => Loc.idle t.1 t.2) (by
    intro l hl
    obtain ⟨t, ht, rfl⟩ := List.mem_map.1 hl
    refine ⟨?_, trivial⟩
    have : left t.1 t.2 ∈ fs.map some := by rw [← hproto]; exact List.mem_map.2 ⟨t, ht, rfl⟩
    obtain ⟨f, _, hf⟩ := List.mem_map.1 this
    show left t.1 t.2 ≠ none
    rw [← hf]; simp) (by omega) (by omega)
  rw [e1, e3] at this
  rw [show (ts.map fun t => Loc.idle t.1 t.2).map (Loc.prog h p bs) = ts.map fun t => thread h t.2 from by simp only [List.map_map]; rfl] at this
  simp only [bytesV, List.length_map] at this ⊢
  exact this

/-- Non-vacuity: two threads, one reference each, fully interleaved; the second to destroy frees. -/
example : left 1 [.clone, .get, .destroy, .destroy] = some 0 ∧ left 1 [.get, .destroy] = some 0 := by decide

example : outcome (do
    let h ← CONSTBUFFER_Create (.lit [7, 9]) 2
    let _ ← CONSTBUFFER_Clone h
    let r ← runSched [0, 1, 0, 1, 0, 1, 0, 1, 0, 1, 0, 1, 0, 1, 0, 1, 0, 1, 0, 1] [thread h [.clone, .get, .destroy, .destroy], thread h [.get, .destroy]]
    pure r.1) (St.start bump) = some (.ok [(1, [7, 9]), (0, [7, 9])]) := by decide +kernel

end Verif.Const
