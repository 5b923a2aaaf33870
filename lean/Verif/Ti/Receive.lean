import Verif.Ti.Props
import Verif.Ex.Build
/-! # Receiving a response -/
set_option linter.unusedSimpArgs false
set_option linter.unusedVariables false
namespace Verif.Ti
open Verif.Headers (Hdrs HdrR OHdr Pair StoreE HTTPHeaders_AddHeaderNameValuePair store_header_pair know_OHdr HTTPHeaders_GetHeaderCount_spec)
open Verif.Buffer (Content Buf OBuf BufAt BUFFER_enlarge_spec_partial BUFFER_content_spec BufAt_OBuf)
open Verif.Curl (Args At StatR ContentR OutX OutX_eq ArgsR ArgsR_eq know_Content)
open Verif.Sas (text)
open Verif.Map (know_Arg)
variable {rel : Prop} {lib : Lib} {Net : List Ev → HProp} {Cli : Nat → Nat → HProp}

/-! ## The block in which a header is put together -/

/-- a block that can be released -/
def Free (p : Ptr) : HProp := if p = 0 then emp else ∃∃ b : Block, p ↦ b
theorem Free_zero : Free 0 = emp := rfl
theorem Free_intro {p : Ptr} {b : Block} (h : p ≠ 0) : p ↦ b ⊢ₕ Free p := by
  unfold Free; rw [if_neg h]; exact entails_ex_r b (entails_refl _)
theorem free_Free {p : Ptr} : Triple rel (Free p) (free p) (fun _ => emp) := by
  unfold Free
  by_cases h : p = 0
  · subst h; rw [if_pos rfl]; exact free_null_spec
  · rw [if_neg h]; hoist; intro b; exact free_spec

/-- blocks that nothing refers to -/
def Lost : Nat → HProp
  | 0 => emp
  | n + 1 => (∃∃ (p : Ptr) (b : Block), p ↦ b) ∗ Lost n
theorem Lost_zero : Lost 0 = emp := rfl

/-- the block `h` of `cnt` bytes, with `cur` at the beginning -/
def HBuf (h : Ptr) (cnt : Nat) (cur : Text) : HProp := ∃∃ rest : List Val, (h ≠ 0 ∧ cur.length + rest.length = cnt) ⋏ h ↦ bytesV cur ++ rest
theorem HBuf_eq {h : Ptr} {cnt : Nat} {cur : Text} : HBuf h cnt cur = ∃∃ rest : List Val, (h ≠ 0 ∧ cur.length + rest.length = cnt) ⋏ h ↦ bytesV cur ++ rest := rfl

/-- no block yet, or a block -/
def OBlk (h : Ptr) (cnt : Nat) (cur : Text) : HProp := if h = 0 then (cnt = 0 ∧ cur = []) ⋏ emp else HBuf h cnt cur

theorem OBlk_Free {h : Ptr} {cnt : Nat} {cur : Text} : OBlk h cnt cur ⊢ₕ Free h := by
  unfold OBlk Free
  by_cases h0 : h = 0
  · rw [if_pos h0, if_pos h0]; exact entails_pand_l fun _ => entails_refl _
  · rw [if_neg h0, if_neg h0]
    exact entails_ex_l fun rest => entails_pand_l fun _ => entails_ex_r _ (entails_refl _)

theorem HBuf_OBlk {h : Ptr} {cnt : Nat} {cur : Text} : HBuf h cnt cur ⊢ₕ OBlk h cnt cur := by
  unfold OBlk
  rw [HBuf_eq]
  exact entails_ex_l fun rest => entails_pand_l fun hh => by rw [if_neg hh.1]; exact entails_ex_r rest (entails_pand_r (entails_refl _) hh)

theorem know_HBuf {h : Ptr} {cnt : Nat} {cur : Text} {P F : HProp} (pk : Pick P (HBuf h cnt cur) F) : ∀ g, P g → h ≠ 0 := by
  intro g hP
  have h2 := (pk.symm ▸ hP : (HBuf h cnt cur ∗ F) g)
  obtain ⟨h1, _, _, _, ⟨rest, hh, _⟩, _⟩ := h2
  exact hh.1

theorem grow_spec {h : Ptr} {cnt need : Nat} {cur : Text} (hn : 0 < need) (hc : cur.length ≤ need) :
    Triple rel (OBlk h cnt cur) (grow h cnt need) (fun g => match g with
      | none => (¬ rel ∨ maxObj < need) ⋏ Free h
      | some (q, n) => (need ≤ n) ⋏ HBuf q n cur) := by
  unfold grow
  by_cases h0 : h = 0
  · subst h0
    rw [OBlk, if_pos rfl]; hoist; rintro rfl rfl
    rw [if_pos hn]
    refine Triple.realloc_null (fun hr => ?_) fun q hq hm => ?_
    · rw [if_pos rfl]; exact Triple.pure (entails_pand_r (by rw [Free_zero]; exact entails_refl _) hr)
    · rw [if_neg hq]
      refine Triple.pure (entails_pand_r (entails_ex_r (List.replicate need .undef) (entails_pand_r ?_ ⟨hq, by simp⟩)) (Nat.le_refl _))
      simp [bytesV, sep_emp]
      exact entails_refl _
  · rw [OBlk, if_neg h0, HBuf_eq]; hoist; intro rest _ hl
    refine Triple.ite (fun hlt => ?_) fun hlt => ?_
    · refine Triple.realloc (by omega) (by pick) (fun hr => ?_) fun q hq hm => ?_
      · rw [if_pos rfl]; exact Triple.pure (entails_pand_r (by rw [sep_emp]; exact Free_intro h0) hr)
      · rw [if_neg hq]
        have e : (bytesV cur ++ rest).take need = bytesV cur ++ rest := List.take_of_length_le (by simp [bytesV]; omega)
        refine Triple.pure (entails_pand_r (entails_ex_r (rest ++ List.replicate (need - (bytesV cur ++ rest).length) .undef) (entails_pand_r ?_ ⟨hq, ?_⟩)) (Nat.le_refl _))
        · rw [e, sep_emp, List.append_assoc]; exact entails_refl _
        · simp [bytesV]; omega
    · exact Triple.pure (entails_pand_r (entails_ex_r rest (entails_pand_r (entails_refl _) ⟨h0, hl⟩)) (by omega))

/-- a piece is copied behind what is there -/
theorem copy_spec {h cb : Ptr} {cnt : Nat} {cur bs : Text} {tail : List Val} (hn : cur.length + bs.length ≤ cnt) :
    Triple rel (HBuf h cnt cur ∗ cb ↦ bytesV bs ++ tail) (memcpy h cur.length (.heap cb 0) bs.length)
      (fun _ => HBuf h cnt (cur ++ bs) ∗ cb ↦ bytesV bs ++ tail) := by
  rw [HBuf_eq]; hoist; intro rest h0 hl
  refine (memcpy_heap (b := bytesV cur ++ rest) (vs := bytesV bs ++ tail) (by simp [bytesV]) (by simp [bytesV]; omega)).conseq (entails_refl _) fun _ => ?_
  rw [HBuf_eq]
  simp only [hex_sep, pand_sep]
  refine entails_ex_r (rest.drop bs.length) (entails_pand_r (entails_of_eq ?_) ⟨h0, by simp; omega⟩)
  congr 2
  have e : (List.drop 0 (bytesV bs ++ tail)).take bs.length = bytesV bs := by
    rw [List.drop_zero, List.take_left' (by simp [bytesV])]
  rw [e]
  unfold patch
  rw [List.take_left' (by simp [bytesV]), show (bytesV bs).length = bs.length by simp [bytesV],
    show (bytesV cur ++ rest).drop (cur.length + bs.length) = rest.drop bs.length by
      rw [List.drop_append]; simp [bytesV]]
  simp [bytesV]

/-! ## Headers -/

theorem addHeader_spec {rh h : Ptr} {cnt : Nat} {l : Text} {hs : Hdrs} (hn : NoNul l) :
    Triple rel (HdrR rh hs ∗ HBuf h cnt (l ++ [0])) (addHeader rh h)
      (fun r => ∃∃ hs' : Hdrs, (if 58 ∈ l then ∃ r1, StoreE rel false (some hs) (some (split l).1) (some (split l).2) r1 (some hs') ∧
          r = if r1 = .ok then .ok else .httpHeadersFailed
        else r = .httpHeadersFailed ∧ hs' = hs) ⋏ HdrR rh hs' ∗ HBuf h cnt []) := by
  unfold addHeader
  rw [HBuf_eq]; hoist; intro rest h0 hl
  have hs1 := splitHeader_spec (rel := rel) (p := h) (At_of hn rest)
  have close : ∀ b : Block, b.length = cnt → h ↦ b ⊢ₕ HBuf h cnt [] := fun b hb =>
    entails_ex_r b (entails_pand_r (by simp [bytesV]; exact entails_refl _) ⟨h0, by simpa using hb⟩)
  have hlen : (bytesV (l ++ [0]) ++ rest).length = cnt := by simp [bytesV] at hl ⊢; omega
  by_cases hc : 58 ∈ l
  · simp only [if_pos hc] at hs1 ⊢
    step hs1
    intro v b' hr hb h1 h2
    subst hr
    dsimp only
    step (store_header_pair (h := rh) (hs := hs) (At.pair (p := h) h1 h2) (replace := false)) into r
    intro hs' hE
    refine Triple.ite (fun h3 => ?_) fun h3 => ?_
    · refine Triple.pure (entails_ex_r hs' (entails_pand_r (sep_mono (entails_refl _) (close b' (by omega))) ⟨r, hE, by rw [if_neg h3]⟩))
    · refine Triple.pure (entails_ex_r hs' (entails_pand_r (sep_mono (entails_refl _) (close b' (by omega))) ⟨r, hE, by rw [if_pos (Decidable.not_not.1 h3)]⟩))
  · simp only [if_neg hc] at hs1 ⊢
    step hs1
    exact Triple.pure (entails_ex_r hs (entails_pand_r (entails_trans (by sep_cancel) (sep_mono (entails_refl _) (close _ hlen))) ⟨rfl, rfl⟩))

theorem lineSoFar_snoc {c : Nat} {tr : List Ev} {e : Ev} : lineSoFar c (tr ++ [e]) = lineStep c (lineSoFar c tr) e := by
  unfold lineSoFar; rw [List.foldl_append]; rfl

theorem Array128_intro {cb : Ptr} {b : Block} (h : b.length = CONTENT_BUF_LEN) : cb ↦ b ⊢ₕ Array128 cb := entails_ex_r b (entails_pand_r (entails_refl _) h)

theorem Free_Lost {h : Ptr} : Free h ⊢ₕ Lost (leaks .allocFailed (decide (h ≠ 0 ∨ 2 ≤ 1))) := by
  unfold Free leaks
  by_cases h0 : h = 0
  · simp [h0, Lost_zero]; exact entails_refl _
  · simp [h0, Lost, sep_emp]
    exact entails_ex_l fun b => entails_ex_r h (entails_ex_r b (entails_refl _))

theorem HeadersE_ne {rel : Prop} {cur : Text} {xs : List Read} {hs hs' : Hdrs} {r : Res} (h : HeadersE rel cur xs hs r hs') : 1 ≤ xs.length := by
  cases xs with
  | nil => exact h.elim
  | cons => simp

theorem headerLoop_spec (H : Honours rel lib Net Cli) {c : Nat} {rh cb : Ptr} : ∀ (n : Nat) (h : Ptr) (cnt : Nat) (cur : Text) (hs : Hdrs) (tr : List Ev),
    lineSoFar c tr = cur → NoNul cur → cur.length < 2 ^ 31 →
    Triple rel (Net tr ∗ Cli c n ∗ Array128 cb ∗ HdrR rh hs ∗ OBlk h cnt cur) (headerLoop lib c rh cb h cnt cur.length)
      (fun y => ∃∃ (xs : List Read) (hs' : Hdrs), (HeadersE rel cur xs hs y.2 hs') ⋏
        Net (tr ++ xs.map (.header c)) ∗ Conn Cli c ∗ Array128 cb ∗ HdrR rh hs' ∗ Free y.1 ∗ Lost (leaks y.2 (decide (h ≠ 0 ∨ 2 ≤ xs.length)))) := by
  intro n
  induction n using Nat.strongRecOn with
  | _ n ih =>
  intro h cnt cur hs tr hcur hnn hlt
  unfold headerLoop
  step (H.readResponseHeader c n cb tr) into x
  unfold Got
  by_cases hneg : x.1 < 0
  · simp only [if_pos hneg]
    refine Triple.pure (entails_ex_r [.err x.1] (entails_ex_r hs (entails_pand_r ?_ ?_)))
    · simp only [leaks, reduceCtorEq, false_and, if_false, Lost_zero, sep_emp, List.map_cons, List.map_nil, sep_assoc]
      refine sep_mono (entails_refl _) (sep_mono (entails_refl _) (sep_mono (entails_refl _) (sep_mono (entails_refl _) OBlk_Free)))
    · exact ⟨hneg, rfl, rfl, rfl⟩
  · simp only [if_neg hneg]
    hoist; intro bs tail m hx hlen hp hm
    obtain ⟨x1, more⟩ := x
    dsimp only at hx hneg hp hm ⊢
    subst hx
    by_cases hb : bs = []
    · subst hb
      simp only [List.length_nil, Int.ofNat_zero, Int.natCast_zero, if_true]
      refine Triple.pure (entails_ex_r [.data [] more] (entails_ex_r hs (entails_pand_r ?_ ?_)))
      · simp only [leaks, reduceCtorEq, false_and, if_false, Lost_zero, sep_emp, List.map_cons, List.map_nil, sep_assoc]
        refine sep_mono (entails_refl _) (sep_mono (entails_ex_r m (entails_refl _)) (sep_mono (Array128_intro (by simp [bytesV] at hlen ⊢; omega)) (sep_mono (entails_refl _) OBlk_Free)))
      · simp [HeadersE]
    · have hb0 : 0 < bs.length := List.length_pos_iff.2 hb
      have hpl : (cur ++ bs).length < 2 ^ 31 := by rw [← hcur]; exact hp.2
      rw [if_neg (by omega), if_neg (by simp only [Int.toNat_natCast, intMax]; simp at hpl; omega)]
      simp only [Int.toNat_natCast]
      step (grow_spec (rel := rel) (h := h) (cnt := cnt) (need := cur.length + bs.length) (cur := cur) (by omega) (by omega)) into g
      match g with
      | none =>
        dsimp only
        hoist; intro hr
        have hr : ¬ rel := by
          rcases hr with hr | hr
          · exact hr
          · exfalso; simp [maxObj] at hr hpl; omega
        refine Triple.pure (entails_ex_r [.data bs more] (entails_ex_r hs (entails_pand_r ?_ ?_)))
        · simp only [List.map_cons, List.map_nil, Free_zero, emp_sep]
          refine entails_trans (Q := Net (tr ++ [Ev.header c (Read.data bs more)]) ∗ Cli c m ∗ cb ↦ (bytesV bs ++ tail) ∗ HdrR rh hs ∗ Free h) (by sep_cancel) ?_
          refine sep_mono (entails_refl _) (sep_mono (entails_ex_r m (entails_refl _)) (sep_mono (Array128_intro (by simp [bytesV] at hlen ⊢; omega)) (sep_mono (entails_refl _) Free_Lost)))
        · simp [HeadersE, hb, hr]
      | some (q, k) =>
        dsimp only
        hoist; intro hk
        refine Triple.know (know_HBuf (h := q) (cnt := k) (cur := cur) (by pick)) fun hq => ?_
        step (copy_spec (rel := rel) (h := q) (cb := cb) (cnt := k) (cur := cur) (bs := bs) (tail := tail) (by simpa using hk))
        cases more with
        | true =>
          simp only [if_true]
          have hn2 : NoNul (cur ++ bs) := by have := hp.1; simp [NoNul] at this hnn ⊢; exact ⟨hnn, this⟩
          have hm := hm hb
          rw [← List.length_append]
          have post : ∀ y : Ptr × Res, (∃∃ (xs : List Read) (hs' : Hdrs), (HeadersE rel (cur ++ bs) xs hs y.2 hs') ⋏
              Net ((tr ++ [.header c (.data bs true)]) ++ xs.map (.header c)) ∗ Conn Cli c ∗ Array128 cb ∗ HdrR rh hs' ∗ Free y.1 ∗ Lost (leaks y.2 (decide (q ≠ 0 ∨ 2 ≤ xs.length)))) ⊢ₕ
              (∃∃ (xs : List Read) (hs' : Hdrs), (HeadersE rel cur xs hs y.2 hs') ⋏
              Net (tr ++ xs.map (.header c)) ∗ Conn Cli c ∗ Array128 cb ∗ HdrR rh hs' ∗ Free y.1 ∗ Lost (leaks y.2 (decide (h ≠ 0 ∨ 2 ≤ xs.length)))) := by
            intro y
            refine entails_ex_l fun xs => entails_ex_l fun hs' => entails_pand_l fun hE => ?_
            refine entails_ex_r (.data bs true :: xs) (entails_ex_r hs' (entails_pand_r ?_ ?_))
            · have h1 := HeadersE_ne hE
              have e1 : decide (q ≠ 0 ∨ 2 ≤ xs.length) = true := decide_eq_true (.inl hq)
              have e2 : decide (h ≠ 0 ∨ 2 ≤ (Read.data bs true :: xs).length) = true := decide_eq_true (.inr (by simpa using h1))
              rw [e1, e2, List.map_cons, List.append_assoc]
              exact entails_refl _
            · simp only [HeadersE, if_neg hb, if_true]; exact .inr hE
          refine (Triple.pre (ih m hm q k (cur ++ bs) hs (tr ++ [.header c (.data bs true)]) ?_ hn2 hpl) ?_).conseq (entails_refl _) post
          · rw [lineSoFar_snoc, hcur]; simp [lineStep]
          · refine entails_trans (Q := Net (tr ++ [Ev.header c (Read.data bs true)]) ∗ Cli c m ∗ cb ↦ (bytesV bs ++ tail) ∗ HdrR rh hs ∗ HBuf q k (cur ++ bs)) (by sep_cancel) ?_
            refine sep_mono (entails_refl _) (sep_mono (entails_refl _) (sep_mono (Array128_intro (by simp [bytesV] at hlen ⊢; omega)) (sep_mono (entails_refl _) HBuf_OBlk)))
        | false =>
          simp only [Bool.false_eq_true, if_false]
          have hm := hm hb
          obtain ⟨t, rfl, hnt⟩ : ∃ t, bs = t ++ [0] ∧ 0 ∉ t := by
            have := hp.1; simp only [Bool.false_eq_true, if_false] at this
            exact this.resolve_left hb
          have hnl : NoNul (cur ++ t) := by simp only [NoNul, List.mem_append] at hnn ⊢; exact fun hh => hh.elim hnn hnt
          rw [← List.append_assoc]
          step (addHeader_spec (rel := rel) (rh := rh) (h := q) (cnt := k) (l := cur ++ t) (hs := hs) hnl) into e
          intro hs1 hE
          refine Triple.ite (fun he => ?_) fun he => ?_
          · refine Triple.pure (entails_ex_r [.data (t ++ [0]) false] (entails_ex_r hs1 (entails_pand_r ?_ ?_)))
            · simp only [List.map_cons, List.map_nil]
              have e1 : leaks e (decide (h ≠ 0 ∨ 2 ≤ [Read.data (t ++ [0]) false].length)) = 0 := by
                have : e = .httpHeadersFailed := by
                  split at hE
                  · obtain ⟨r1, _, h2⟩ := hE; rw [h2] at he ⊢; split at he
                    · exact absurd rfl he
                    · rename_i h3; rw [if_neg h3]
                  · exact hE.1
                simp [leaks, this]
              rw [e1, Lost_zero, sep_emp]
              refine entails_trans (Q := Net (tr ++ [Ev.header c (Read.data (t ++ [0]) false)]) ∗ Cli c m ∗ cb ↦ (bytesV (t ++ [0]) ++ tail) ∗ HdrR rh hs1 ∗ HBuf q k []) (by sep_cancel) ?_
              refine sep_mono (entails_refl _) (sep_mono (entails_ex_r m (entails_refl _)) (sep_mono (Array128_intro (by simp [bytesV] at hlen ⊢; omega)) (sep_mono (entails_refl _) (entails_trans HBuf_OBlk OBlk_Free))))
            · simp only [HeadersE, if_neg hb, Bool.false_eq_true, if_false]
              refine .inr ⟨cur ++ t, by simp, ?_⟩
              split at hE
              · rename_i h58
                rw [if_pos h58]
                obtain ⟨r1, h1, h2⟩ := hE
                refine ⟨r1, hs1, h1, ?_⟩
                by_cases h3 : r1 = .ok
                · rw [if_pos h3] at h2; exact absurd h2 he
                · rw [if_neg h3] at h2 ⊢; exact ⟨trivial, h2, rfl⟩
              · rename_i h58
                rw [if_neg h58]
                exact ⟨trivial, hE.1, hE.2⟩
          · have he : e = .ok := Decidable.not_not.1 he
            subst he
            have post : ∀ y : Ptr × Res, (∃∃ (xs : List Read) (hs' : Hdrs), (HeadersE rel [] xs hs1 y.2 hs') ⋏
                Net ((tr ++ [.header c (.data (t ++ [0]) false)]) ++ xs.map (.header c)) ∗ Conn Cli c ∗ Array128 cb ∗ HdrR rh hs' ∗ Free y.1 ∗ Lost (leaks y.2 (decide (q ≠ 0 ∨ 2 ≤ xs.length)))) ⊢ₕ
                (∃∃ (xs : List Read) (hs' : Hdrs), (HeadersE rel cur xs hs y.2 hs') ⋏
                Net (tr ++ xs.map (.header c)) ∗ Conn Cli c ∗ Array128 cb ∗ HdrR rh hs' ∗ Free y.1 ∗ Lost (leaks y.2 (decide (h ≠ 0 ∨ 2 ≤ xs.length)))) := by
              intro y
              refine entails_ex_l fun xs => entails_ex_l fun hs' => entails_pand_l fun hE2 => ?_
              refine entails_ex_r (.data (t ++ [0]) false :: xs) (entails_ex_r hs' (entails_pand_r ?_ ?_))
              · have h1 := HeadersE_ne hE2
                have e1 : decide (q ≠ 0 ∨ 2 ≤ xs.length) = true := decide_eq_true (.inl hq)
                have e2 : decide (h ≠ 0 ∨ 2 ≤ (Read.data (t ++ [0]) false :: xs).length) = true := decide_eq_true (.inr (by simpa using h1))
                rw [e1, e2, List.map_cons, List.append_assoc]
                exact entails_refl _
              · simp only [HeadersE, if_neg hb, Bool.false_eq_true, if_false]
                refine .inr ⟨cur ++ t, by simp, ?_⟩
                split at hE
                · rename_i h58
                  rw [if_pos h58]
                  obtain ⟨r1, h1, h2⟩ := hE
                  refine ⟨r1, hs1, h1, ?_⟩
                  by_cases h3 : r1 = .ok
                  · rw [if_pos h3]; exact hE2
                  · rw [if_neg h3] at h2; cases h2
                · exact absurd hE.1 (by simp)
            refine (Triple.pre (ih m (by first | exact hm hb | exact hm) q k [] hs1 (tr ++ [.header c (.data (t ++ [0]) false)]) ?_ (by simp [NoNul]) (by simp)) ?_).conseq (entails_refl _) post
            · rw [lineSoFar_snoc]; simp [lineStep]
            · refine entails_trans (Q := Net (tr ++ [Ev.header c (Read.data (t ++ [0]) false)]) ∗ Cli c m ∗ cb ↦ (bytesV (t ++ [0]) ++ tail) ∗ HdrR rh hs1 ∗ HBuf q k []) (by sep_cancel) ?_
              refine sep_mono (entails_refl _) (sep_mono (entails_refl _) (sep_mono (Array128_intro (by simp [bytesV] at hlen ⊢; omega)) (sep_mono (entails_refl _) HBuf_OBlk)))

/-! ## The body -/

theorem over_getD (c : Content) (got : Text) : (over c got).getD [] = bytesV got ++ (c.getD [] ++ List.replicate got.length Val.undef).drop got.length := by
  unfold over
  split
  · rename_i h; subst h; simp [bytesV]
  · rfl

theorem over_nil (c : Content) : over c [] = c := rfl

theorem clen_getD (c : Content) : Buffer.clen c = (c.getD []).length := by cases c <;> rfl

theorem over_len (c : Content) (got : Text) : Buffer.clen (over c got) = (c.getD []).length + got.length := by
  rw [clen_getD, over_getD]; simp [bytesV]; omega

theorem patch_mid (A R U B : List Val) : patch (A ++ R ++ U) A.length B = A ++ (B ++ (R ++ U).drop B.length) := by
  unfold patch
  rw [List.append_assoc A R U, List.take_left' rfl, List.drop_append]
  simp

/-- after growing by `bs.length`, `bs` behind `got` -/
theorem over_patch (c : Content) (got bs : Text) (hb : bs ≠ []) :
    some (patch ((over c got).getD [] ++ List.replicate bs.length Val.undef) got.length (bytesV bs)) = over c (got ++ bs) := by
  rw [over_getD]
  have hne : got ++ bs ≠ [] := by simp [hb]
  unfold over
  rw [if_neg hne]
  congr 1
  have hp := patch_mid (bytesV got) ((c.getD [] ++ List.replicate got.length Val.undef).drop got.length) (List.replicate bs.length Val.undef) (bytesV bs)
  rw [show (bytesV got).length = got.length by simp [bytesV], show (bytesV bs).length = bs.length by simp [bytesV]] at hp
  rw [hp, ← List.drop_append_of_le_length (by rw [List.length_append, List.length_replicate]; omega), List.drop_drop, List.append_assoc (c.getD []),
    List.replicate_append_replicate, List.length_append]
  simp [bytesV]

theorem storePiece_spec {b cb : Ptr} {c : Content} {got bs : Text} {tail : List Val} (hb : bs ≠ []) (hl : (got ++ bs).length < 2 ^ 31) :
    Triple rel (OBuf b (some (over c got)) ∗ cb ↦ bytesV bs ++ tail) (storePiece b cb bs.length got.length)
      (fun r => ∃∃ c' : Content, ((r = 0 ∧ c' = over c (got ++ bs)) ∨ (r = 14 ∧ c' = over c got ∧ (¬ rel ∨ maxObj < (c.getD []).length + (got ++ bs).length))) ⋏
        OBuf b (some c') ∗ cb ↦ bytesV bs ++ tail) := by
  unfold storePiece
  have hb0 : 0 < bs.length := List.length_pos_iff.2 hb
  rw [Buffer.OBuf_some]
  refine Triple.know (Ex.know_Buf (b := b) (c := over c got) (by pick)) fun hc => ?_
  rw [← Buffer.OBuf_some]
  step (BUFFER_enlarge_spec_partial (rel := rel) (h := b) (a := some (over c got)) (n := bs.length) (by
    intro c1 h1; cases h1; simp at hl; simp [maxObj, szMod] at hc ⊢; omega)) into r
  intro a' hE
  rcases hE with ⟨h1, h2, c1, c2, h3, h4, h5⟩ | ⟨h1, h2, h3⟩
  · subst h1 h4 h5
    cases h3
    rw [if_neg (by simp)]
    step (BUFFER_content_spec (rel := rel) (h := b)) into x
    simp only [reduceCtorEq, false_or, Bool.true_eq_false, if_false]
    hoist; rintro p rfl
    dsimp only [BufAt]
    simp only [sep_assoc]
    step (memcpy_heap (rel := rel) (dst := p) (p := cb) (off := got.length) (o := 0) (n := bs.length) (b := (over c got).getD [] ++ List.replicate bs.length Val.undef)
      (vs := bytesV bs ++ tail) (by simp [bytesV]) (by rw [over_getD]; simp [bytesV]))
    rw [List.drop_zero, List.take_left' (by simp [bytesV])]
    refine Triple.pure (entails_ex_r (over c (got ++ bs)) (entails_pand_r ?_ (.inl ⟨rfl, rfl⟩)))
    rw [← over_patch c got bs hb]
    refine entails_trans (Q := (BufAt b p (some (some (patch ((over c got).getD [] ++ List.replicate bs.length Val.undef) got.length (bytesV bs))))) ∗ cb ↦ bytesV bs ++ tail) ?_ (sep_mono BufAt_OBuf (entails_refl _))
    dsimp only [BufAt]
    have e : (patch ((over c got).getD [] ++ List.replicate bs.length Val.undef) got.length (bytesV bs)).length = ((over c got).getD [] ++ List.replicate bs.length Val.undef).length := by
      rw [over_getD]; simp [patch, bytesV]; omega
    rw [e]
    simp only [sep_assoc]
    sep_cancel
  · subst h2
    rw [if_pos h1]
    refine Triple.pure (entails_ex_r (over c got) (entails_pand_r (entails_refl _) (.inr ⟨rfl, rfl, ?_⟩)))
    rcases h3 with h3 | h3 | ⟨c1, h3, h4⟩
    · rcases h3 with h3 | h3
      · cases h3
      · omega
    · exact .inl h3
    · cases h3; rw [over_len] at h4; simp; right; omega

theorem bodySoFar_snoc {c : Nat} {tr : List Ev} {e : Ev} : bodySoFar c (tr ++ [e]) = bodyStep c (bodySoFar c tr) e := by
  unfold bodySoFar; rw [List.foldl_append]; rfl

theorem bodyLoop_spec (H : Honours rel lib Net Cli) {c : Nat} {b cb : Ptr} {c0 : Content} : ∀ (n : Nat) (got : Text) (tr : List Ev),
    bodySoFar c tr = got →
    Triple rel (Net tr ∗ Cli c n ∗ Array128 cb ∗ OBuf b (some (over c0 got))) (bodyLoop lib c b cb got.length)
      (fun r => ∃∃ (xs : List Read) (c' : Content), (0 ≤ r ∧ BodyE rel c0 got xs c') ⋏
        Net (tr ++ xs.map (.content c)) ∗ Conn Cli c ∗ Array128 cb ∗ OBuf b (some c')) := by
  intro n
  induction n using Nat.strongRecOn with
  | _ n ih =>
  intro got tr hgot
  have rest : ∀ (m : Nat) (bs : Text) (more : Bool) (tail : List Val), (more = true → m < n) → bs.length + tail.length = CONTENT_BUF_LEN →
      Triple rel (Net (tr ++ [.content c (.data bs more)]) ∗ Cli c m ∗ cb ↦ (bytesV bs ++ tail) ∗ OBuf b (some (over c0 (got ++ bs))))
        (if more = true then bodyLoop lib c b cb (got ++ bs).length else pure 0)
        (fun r => ∃∃ (xs : List Read) (c' : Content), (0 ≤ r ∧ BodyE rel c0 got xs c') ⋏
          Net (tr ++ xs.map (.content c)) ∗ Conn Cli c ∗ Array128 cb ∗ OBuf b (some c')) := by
    intro m bs more tail hm hlen
    cases more with
    | true =>
      rw [if_pos rfl]
      refine (Triple.pre (ih m (hm rfl) (got ++ bs) (tr ++ [.content c (.data bs true)]) ?_) ?_).conseq (entails_refl _) fun r => ?_
      · rw [bodySoFar_snoc, hgot]; simp [bodyStep]
      · exact sep_mono (entails_refl _) (sep_mono (entails_refl _) (sep_mono (Array128_intro (by simp [bytesV] at hlen ⊢; omega)) (entails_refl _)))
      · refine entails_ex_l fun xs => entails_ex_l fun c' => entails_pand_l fun hE => ?_
        refine entails_ex_r (.data bs true :: xs) (entails_ex_r c' (entails_pand_r (by rw [List.map_cons, List.append_assoc]; exact entails_refl _) ⟨hE.1, ?_⟩))
        simp only [BodyE, if_true]; exact .inr hE.2
    | false =>
      rw [if_neg (by simp)]
      refine Triple.pure (entails_ex_r [.data bs false] (entails_ex_r (over c0 (got ++ bs)) (entails_pand_r ?_ ⟨Int.le_refl _, ?_⟩)))
      · exact sep_mono (entails_refl _) (sep_mono (entails_ex_r m (entails_refl _)) (sep_mono (Array128_intro (by simp [bytesV] at hlen ⊢; omega)) (entails_refl _)))
      · simp [BodyE]
  unfold bodyLoop
  step (H.readResponseBody c n cb tr) into x
  unfold Got
  by_cases hneg : x.1 < 0
  · simp only [if_pos hneg]
    refine Triple.pure (entails_ex_r [.err x.1] (entails_ex_r (over c0 got) (entails_pand_r (by simp only [sep_assoc]; exact entails_refl _) ⟨by simp [code], hneg, rfl, rfl⟩)))
  · simp only [if_neg hneg]
    hoist; intro bs tail m hx hlen hp hm
    obtain ⟨x1, more⟩ := x
    dsimp only at hx hneg hp hm ⊢
    subst hx
    rw [hgot] at hp
    by_cases hb : bs = []
    · subst hb
      rw [if_neg (by simp)]
      refine Triple.pre (rest m [] more tail hm hlen |> fun h => by simpa using h) ?_
      exact entails_refl _
    · rw [if_pos (by simpa using hb)]
      simp only [Int.toNat_natCast]
      step (storePiece_spec (rel := rel) (b := b) (cb := cb) (c := c0) (got := got) (bs := bs) (tail := tail) hb hp) into r
      rintro c' (⟨rfl, rfl⟩ | ⟨rfl, rfl, hr⟩)
      · rw [if_neg (by simp), if_neg (by simp only [intMax]; simp at hp; omega)]
        rw [← List.length_append]
        refine Triple.pre (rest m bs more tail hm hlen) (by sep_cancel)
      · rw [if_pos (by simp)]
        refine Triple.pure (entails_ex_r [.data bs more] (entails_ex_r (over c0 got) (entails_pand_r ?_ ⟨by simp, ?_⟩)))
        · refine entails_trans (Q := Net (tr ++ [Ev.content c (Read.data bs more)]) ∗ Cli c m ∗ cb ↦ (bytesV bs ++ tail) ∗ OBuf b (some (over c0 got))) (by sep_cancel) ?_
          exact sep_mono (entails_refl _) (sep_mono (entails_ex_r m (entails_refl _)) (sep_mono (Array128_intro (by simp [bytesV] at hlen ⊢; omega)) (entails_refl _)))
        · unfold BodyE; exact .inl ⟨hb, rfl, rfl, hr⟩

theorem know_Stat {p : Ptr} {v : Option Val} {P F : HProp} (pk : Pick P (StatR p v) F) : ∀ h, P h → (p = 0 ↔ v = none) := by
  intro h hp
  unfold Pick at pk; rw [pk] at hp
  cases v with
  | none => simp only [StatR, pand_sep] at hp; simp [hp.1]
  | some w =>
    have := know_pts (p := p) (b := [w]) (P := p ↦ [w] ∗ F) (R := F) (φ := p ≠ 0) (by pick) (fun h _ => h) h hp
    simp [this]

theorem readBody_spec (H : Honours rel lib Net Cli) {c : Nat} {rc cb : Ptr} {a : Option Content} {tr : List Ev} (ht : bodySoFar c tr = []) :
    Triple rel (Net tr ∗ Conn Cli c ∗ Array128 cb ∗ OBuf rc a) (readBody lib c cb rc)
      (fun r => ∃∃ (ys : List Read) (a' : Option Content), (r = .ok ∧ match a with
          | none => ys = [] ∧ a' = none
          | some b => ∃ b', BodyE rel b [] ys b' ∧ a' = some b') ⋏
        Net (tr ++ ys.map (.content c)) ∗ Conn Cli c ∗ Array128 cb ∗ OBuf rc a') := by
  unfold readBody
  cases a with
  | none =>
    rw [Buffer.OBuf_none]; hoist; rintro rfl
    rw [if_neg (by simp)]
    refine Triple.pure (entails_ex_r [] (entails_ex_r none (entails_pand_r ?_ ⟨rfl, rfl, rfl⟩)))
    rw [Buffer.OBuf_none, eq_self, true_pand]
    simp only [List.map_nil, List.append_nil, sep_emp]
    exact entails_refl _
  | some b =>
    have hne : ∀ g, (Net tr ∗ Conn Cli c ∗ Array128 cb ∗ OBuf rc (some b)) g → rc ≠ 0 := by
      rw [Buffer.OBuf_some]
      cases b with
      | none => rw [Buffer.Buf_none]; exact know_pts (p := rc) (by pick) fun h _ => h
      | some vs =>
        rw [Buffer.Buf_some]
        intro g hg
        simp only [sep_hex] at hg
        obtain ⟨p, hg⟩ := hg
        exact know_pts (p := rc) (b := [.ptr p, .int vs.length]) (by pick) (fun h _ => h) g hg
    refine Triple.know hne fun h0 => ?_
    rw [if_pos h0, Conn_eq]; hoist; intro n
    step (bodyLoop_spec H (c := c) (b := rc) (cb := cb) (c0 := b) n [] tr ht) into r
    intro ys b' hr hE
    rw [if_neg (by omega)]
    exact Triple.pure (entails_ex_r ys (entails_ex_r (some b') (entails_pand_r (entails_refl _) ⟨rfl, b', hE, rfl⟩)))

theorem bodySoFar_headers {c : Nat} {tr : List Ev} {e : Int} {xs : List Read} : bodySoFar c (tr ++ [.status c e] ++ xs.map (.header c)) = [] := by
  unfold bodySoFar
  rw [List.foldl_append, List.foldl_append]
  generalize List.foldl (bodyStep c) [] tr = k
  simp only [List.foldl_cons, List.foldl_nil, bodyStep, if_true]
  induction xs with
  | nil => rfl
  | cons y ys ih => rw [List.map_cons, List.foldl_cons]; exact ih

theorem receive_spec (H : Honours rel lib Net Cli) {c : Nat} {cb st rh rc : Ptr} {x : Args} {v : Val} {hs : Hdrs} {tr : List Ev}
    (hst : x.status = some v) (hrh : x.rhdrs = some hs) :
    Triple rel (Net tr ∗ Conn Cli c ∗ Array128 cb ∗ OutX st rh rc x) (receive lib c cb st rh rc)
      (fun r => ∃∃ (x' : Args) (evs : List Ev) (k : Nat), (ReceiveE rel c x hs r x' evs k ∧ x'.path = x.path ∧ x'.hdrs = x.hdrs ∧ x'.content = x.content) ⋏
        Net (tr ++ evs) ∗ Conn Cli c ∗ Array128 cb ∗ OutX st rh rc x' ∗ Lost k) := by
  unfold receive
  rw [OutX_eq, hst, hrh, show StatR st (some v) = (st ↦ [v]) from rfl, OHdr, ORep_some]
  step (getResponseStatus_c H (c := c)) into e
  refine Triple.ite (fun he => ?_) fun he => ?_
  · refine Triple.pure (entails_ex_r x (entails_ex_r _ (entails_ex_r 0 (entails_pand_r ?_ ⟨.inl ⟨e, he, rfl, rfl, rfl, rfl⟩, rfl, rfl, rfl⟩))))
    rw [Lost_zero, sep_emp, OutX_eq, hst, hrh, show StatR st (some v) = (st ↦ [v]) from rfl, OHdr, ORep_some]
    sep_cancel
  step (store_spec (p := st) (off := 0) (b := [v]) (v := .int e.toNat) (by simp))
  conv => arg 2; rw [Conn_eq]
  hoist; intro n
  have hl := headerLoop_spec H (c := c) (rh := rh) (cb := cb) n 0 0 [] hs (tr ++ [.status c e]) (by rw [lineSoFar_snoc]; simp [lineStep]) (by simp [NoNul]) (by simp)
  rw [show OBlk 0 0 [] = emp by simp [OBlk, true_pand], sep_emp] at hl
  step hl into y
  intro xs hs' hE
  step (free_Free (rel := rel) (p := y.1))
  have hlk : leaks y.2 (decide ((0 : Nat) ≠ 0 ∨ 2 ≤ xs.length)) = leaks y.2 (decide (2 ≤ xs.length)) := by simp
  refine Triple.ite (fun hy => ?_) fun hy => ?_
  · refine Triple.pure (entails_ex_r { x with status := some (.int e.toNat), rhdrs := some hs' } (entails_ex_r _ (entails_ex_r _ (entails_pand_r ?_
      ⟨.inr ⟨e, xs, y.2, hs', by omega, hE, rfl, .inl ⟨hy, rfl, rfl, rfl⟩⟩, rfl, rfl, rfl⟩))))
    rw [OutX_eq, show StatR st (some (.int e.toNat)) = (st ↦ [.int e.toNat]) from rfl, OHdr, ORep_some, ← hlk]
    simp only [List.append_assoc, List.cons_append, List.nil_append]
    sep_cancel
  · have hy : y.2 = .ok := Decidable.not_not.1 hy
    rw [hy, show leaks .ok (decide ((0 : Nat) ≠ 0 ∨ 2 ≤ xs.length)) = 0 by simp [leaks], Lost_zero]
    try simp only [sep_emp]
    rw [hy] at hE
    refine (readBody_spec H (c := c) (rc := rc) (cb := cb) (a := x.rcontent) (tr := tr ++ [.status c e] ++ xs.map (.header c)) bodySoFar_headers).frame (st ↦ [.int e.toNat] ∗ HdrR rh hs') |>.conseq (by
      sep_cancel) fun r => ?_
    simp only [hex_sep, pand_sep]
    refine entails_ex_l fun ys => entails_ex_l fun a' => entails_pand_l fun hb => ?_
    obtain ⟨hr, hb⟩ := hb
    refine entails_ex_r { x with status := some (.int e.toNat), rhdrs := some hs', rcontent := a' } (entails_ex_r (.status c e :: (xs.map (.header c) ++ ys.map (.content c))) (entails_ex_r 0 (entails_pand_r ?_
      ⟨.inr ⟨e, xs, .ok, hs', by omega, hE, by simp [leaks], .inr ⟨rfl, hr, ?_⟩⟩, rfl, rfl, rfl⟩)))
    · rw [Lost_zero, sep_emp, OutX_eq, show StatR st (some (.int e.toNat)) = (st ↦ [.int e.toNat]) from rfl, OHdr, ORep_some]
      simp only [List.append_assoc, List.cons_append, List.nil_append, sep_assoc]
      sep_cancel
    · cases hrc : x.rcontent with
      | none => rw [hrc] at hb; dsimp only at hb ⊢; obtain ⟨rfl, rfl⟩ := hb; rw [← hrc]; exact ⟨by cases x; simp, by simp⟩
      | some b => rw [hrc] at hb; dsimp only at hb ⊢; obtain ⟨b', h1, rfl⟩ := hb; exact ⟨ys, b', h1, rfl, rfl⟩

/-- C85–C88: `HTTPAPI_ExecuteRequest` -/
theorem HTTPAPI_ExecuteRequest_spec (H : Honours rel lib Net Cli) {cb handle hd st rh rc : Ptr} {rp p : CharPtr} {a : Option Nat} {x : Args} {tr : List Ev} {len : Nat}
    (hlen : len = match x.content with | some bs => bs.length | none => x.len) :
    Triple rel (Net tr ∗ OConn Cli handle a ∗ Array128 cb ∗ ArgsR rp hd p st rh rc x)
      (HTTPAPI_ExecuteRequest lib cb handle x.type rp hd p len st rh rc)
      (fun r => ∃∃ (x' : Args) (evs : List Ev) (k : Nat), (ExecE rel a x r x' evs k) ⋏
        Net (tr ++ evs) ∗ OConn Cli handle a ∗ Array128 cb ∗ ArgsR rp hd p st rh rc x' ∗ Lost k) := by
  unfold HTTPAPI_ExecuteRequest
  rw [ArgsR_eq]
  conv => arg 2; rw [Array128]
  hoist; intro b hb
  step (storeN_spec (p := cb) (off := 0) (b := b) (vs := List.replicate CONTENT_BUF_LEN (.byte 0)) (by simp [hb]))
  refine Triple.pre (?_ : Triple rel (Array128 cb ∗ Net tr ∗ OConn Cli handle a ∗ Arg rp x.path ∗ OHdr hd x.hdrs ∗ ContentR p x.content ∗ OutX st rh rc x) _ _)
    (sep_mono (Array128_intro (by simp [patch, hb])) (entails_refl _))
  rw [OutX_eq]
  refine Triple.know (know_OConn (p := handle) (a := a) (by pick)) fun k1 => ?_
  refine Triple.know (know_Arg (s := rp) (o := x.path) (by pick)) fun k2 => ?_
  refine Triple.know (know_OHdr (h := rh) (a := x.rhdrs) (by pick)) fun k3 => ?_
  refine Triple.know (know_Content (p := p) (c := x.content) (by pick)) fun k4 => ?_
  refine Triple.know (know_Stat (p := st) (v := x.status) (by pick)) fun k5 => ?_
  rw [← OutX_eq]
  have km : getHttpMethod x.type = .null ↔ 5 ≤ x.type := by
    generalize x.type = t
    match t with
    | 0 | 1 | 2 | 3 | 4 => simp [getHttpMethod, CharPtr.str]
    | k + 5 => simp [getHttpMethod]
  have bad : ∀ {r : Res}, ExecE rel a x r x [] 0 → Array128 cb ∗ Net tr ∗ OConn Cli handle a ∗ Arg rp x.path ∗ OHdr hd x.hdrs ∗ ContentR p x.content ∗ OutX st rh rc x ⊢ₕ
      ∃∃ (x' : Args) (evs : List Ev) (k : Nat), (ExecE rel a x r x' evs k) ⋏ Net (tr ++ evs) ∗ OConn Cli handle a ∗ Array128 cb ∗ ArgsR rp hd p st rh rc x' ∗ Lost k :=
    fun h => entails_ex_r x (entails_ex_r [] (entails_ex_r 0 (entails_pand_r (by rw [List.append_nil, Lost_zero, sep_emp, ArgsR_eq]; sep_cancel) h)))
  refine Triple.ite (fun hb => ?_) (fun hb => ?_)
  · rw [k1, k2, k3, k5, km] at hb
    refine Triple.pure (bad ?_)
    unfold ExecE
    split
    · rename_i h1 h2 h3
      rw [if_pos (by simpa [h1, h2, h3] using hb)]; exact ⟨rfl, rfl, rfl, rfl⟩
    · exact ⟨rfl, rfl, rfl, rfl⟩
  · rw [k1, k2, k3, k5, km] at hb
    simp only [not_or] at hb
    obtain ⟨h1, h2, h3, h4, h5⟩ := hb
    obtain ⟨c, rfl⟩ := Option.ne_none_iff_exists'.1 h1
    obtain ⟨path, hpath⟩ := Option.ne_none_iff_exists'.1 h3
    obtain ⟨v, hst⟩ := Option.ne_none_iff_exists'.1 h4
    obtain ⟨rhs, hrh⟩ := Option.ne_none_iff_exists'.1 h5
    have hcnt := HTTPHeaders_GetHeaderCount_spec (rel := rel) (h := hd) (a := x.hdrs) (out := true)
    cases hhd : x.hdrs with
    | none =>
      rw [hhd] at hcnt; dsimp only at hcnt
      step hcnt
      dsimp only
      refine Triple.pure (entails_trans ?_ (bad ?_))
      · rw [hhd]; sep_cancel
      · unfold ExecE; rw [hpath, hst, hrh, hhd]; dsimp only; rw [if_neg h2]; exact ⟨rfl, rfl, rfl, rfl⟩
    | some hs =>
      rw [hhd] at hcnt; dsimp only at hcnt
      step hcnt
      dsimp only
      rw [hpath, Arg_some, OHdr, ORep_some, OConn, ORep_some, ConnR]
      hoist; intro hc hc0
      have hlen' : p ≠ .null → len = (x.content.getD []).length := by
        intro hp
        have : x.content ≠ none := fun h => hp (k4.1.2 h)
        obtain ⟨bs, hbs⟩ := Option.ne_none_iff_exists'.1 this
        rw [hlen, hbs]; rfl
      rw [hc]
      step (send_spec H (c := c) (type := x.type) (rp := rp) (path := path) (hd := hd) (hs := hs) (p := p) (o := x.content) (len := len) (by omega) hlen') into r1
      intro evs1 hS
      refine Triple.ite (fun hr => ?_) fun hr => ?_
      · refine Triple.pure (entails_ex_r x (entails_ex_r evs1 (entails_ex_r 0 (entails_pand_r ?_ ?_))))
        · rw [Lost_zero, sep_emp, ArgsR_eq, hpath, hhd, Arg_some, OHdr, ORep_some]
          rw [eq_true (show c = c ∧ c ≠ 0 from ⟨rfl, hc0⟩), true_pand]
          sep_cancel
        · unfold ExecE; rw [hpath, hst, hrh, hhd]; dsimp only; rw [if_neg h2]
          exact ⟨r1, evs1, hS, .inl ⟨hr, rfl, rfl, rfl, rfl⟩⟩
      · have hr : r1 = .ok := Decidable.not_not.1 hr
        subst hr
        have hrec := receive_spec H (c := c) (cb := cb) (st := st) (rh := rh) (rc := rc) (x := x) (tr := tr ++ evs1) hst hrh
        refine (hrec.frame (CStr rp path ∗ HdrR hd hs ∗ ContentR p x.content)).conseq (by sep_cancel) fun r => ?_
        simp only [hex_sep, pand_sep]
        refine entails_ex_l fun x' => entails_ex_l fun evs2 => entails_ex_l fun k => entails_pand_l fun hR => ?_
        obtain ⟨hR, e1, e2, e3⟩ := hR
        refine entails_ex_r x' (entails_ex_r (evs1 ++ evs2) (entails_ex_r k (entails_pand_r ?_ ?_)))
        · rw [ArgsR_eq, e1, e2, e3, hpath, hhd, Arg_some, OHdr, ORep_some]
          simp only [eq_self, ne_eq, hc0, not_false_eq_true, true_and, true_pand]
          rw [← List.append_assoc]
          simp only [sep_assoc]
          sep_cancel
        · unfold ExecE; rw [hpath, hst, hrh, hhd]; dsimp only; rw [if_neg h2]
          exact ⟨.ok, evs1, hS, .inr ⟨rfl, evs2, hR, rfl⟩⟩

end Verif.Ti
