import Verif.Tok.Model
import Verif.Tok.Spec
import Verif.Strings.Props
import Verif.Crt.Props
import Verif.Tac
/-!
# Properties of the string tokenizer (C24, C25)
-/
namespace Verif.Tok
open Verif Verif.Strings Verif.Crt

variable {rel : Prop}

/-- a tokenizer that has still `rest` to scan -/
def Tok (h : Ptr) (rest : List UInt8) : HProp :=
  ∃∃ (q pos : Nat), h ↦ [.ptr q, .int pos, .int (pos + rest.length)] ∗ CStr (.heap q pos) rest

theorem CStr_drop {q pos i : Nat} {t : List UInt8} (hi : i ≤ t.length) : CStr (.heap q pos) t ⊢ₕ CStr (.heap q (pos + i)) (t.drop i) := by
  unfold CStr
  refine entails_ex_l fun vs => entails_pand_l fun ⟨h1, h2⟩ => entails_ex_r vs (entails_pand_r (entails_refl _) ?_)
  obtain ⟨⟨w, hw⟩, hn⟩ := cstrV_prefix h2
  have hl := congrArg List.length hw
  simp only [List.length_append, bytesV_length, List.length_drop, List.length_cons, List.length_nil] at hl
  refine ⟨by omega, ?_⟩
  rw [← List.drop_drop, ← hw, List.drop_append_of_le_length (by simp [bytesV]; omega)]
  have e : (bytesV (t ++ [0])).drop i = bytesV (t.drop i ++ [0]) := by
    rw [bytesV, ← List.map_drop, List.drop_append_of_le_length hi]; rfl
  rw [e, bytesV_append, List.append_assoc]
  exact cstrV_bytes (fun hm => hn (List.mem_of_mem_drop hm)) _

/-! ## creation and destruction -/

/-- C24: a tokenizer made from a text has the whole text to scan. -/
theorem create_from_char_spec {s : CharPtr} {o : Option (List UInt8)} :
    Triple rel (Arg s o) (STRING_TOKENIZER_create_from_char s)
      (fun r => Made Tok (o = none ∨ ¬ rel) (fun t => o = some t) r ∗ Arg s o) := by
  unfold STRING_TOKENIZER_create_from_char
  cases o with
  | none =>
    rw [Arg_none]
    hoist
    rintro rfl
    rw [if_pos rfl]
    exact Triple.pure (Made_fail_sep (Or.inl rfl) (entails_pand_r (entails_refl _) rfl))
  | some t =>
    rw [Arg_some]
    refine Triple.know (know_CStr (by pick)) fun hk => ?_
    rw [if_neg hk.1]
    refine Triple.mallocS (by omega) (fun hr => ?_) (fun h hh => ?_)
    · rw [if_pos rfl]
      exact Triple.pure (Made_fail_sep (Or.inr hr) (entails_refl _))
    rw [if_neg hh]
    step mallocAndStrcpy_spec into r
    by_cases h0 : r.2 = 0
    · rw [if_pos h0]
      hoist
      intro h1 h2
      rw [if_pos (by rw [h1]; decide)]
      step free_spec
      exact Triple.pure (Made_fail_sep (Or.inr h2) (entails_refl _))
    · rw [if_neg h0]
      hoist
      intro h1
      rw [if_neg (by simp [h1])]
      step (store_spec ?_)
      step (store_spec ?_)
      rw [bytesV_append]
      refine Triple.pre ?_ (sep_mono (entails_refl _) (sep_mono (CStr_intro hk.2.1 []) (entails_refl _)))
      rw [ofPtr_ne h0]
      refine Triple.pre_eq (P' := CStr (.heap r.2 0) t ∗ h ↦ [Val.ptr r.2, Val.int 0, Val.undef] ∗ CStr s t) ?_ ?_
      · rw [sep_left_comm]
      refine Triple.step (strlen_spec (s := .heap r.2 0) (t := t)) (by fr) fun n => ?_
      hoist
      intro hn
      subst hn
      step (store_spec ?_)
      refine Triple.pure (Made_ok_sep t hh rfl ?_)
      unfold Tok
      rw [hex_sep]
      refine entails_ex_r r.2 ?_
      rw [hex_sep]
      refine entails_ex_r 0 ?_
      rw [Nat.zero_add]
      sep_cancel

theorem create_spec {handle : Ptr} {o : Option (List UInt8)} :
    Triple rel (OStr handle o) (STRING_TOKENIZER_create handle)
      (fun r => Made Tok (o = none ∨ ¬ rel) (fun t => o = some t) r ∗ OStr handle o) := by
  unfold STRING_TOKENIZER_create
  cases o with
  | none =>
    simp only [OStr, ORep_none]
    hoist
    rintro rfl
    rw [if_pos rfl]
    exact Triple.pure (Made_fail_sep (Or.inl trivial) (entails_pand_r (entails_refl _) rfl))
  | some t =>
    refine Triple.know (φ := handle ≠ 0) ?_ fun hne => ?_
    · simp only [OStr, ORep_some]
      rintro h ⟨p, hp⟩
      exact know_pts (p := handle) (φ := handle ≠ 0) (by pick) (fun h1 _ => h1) h hp
    rw [if_neg hne]
    step STRING_c_str_spec into p
    unfold StrAt
    refine Triple.know (know_heap0 (p := p) (by pick)) fun hp => ?_
    rw [ofPtr_ne hp]
    refine Triple.pre_eq (P' := handle ↦ [Val.ptr p] ∗ Arg (.heap p 0) (some t)) rfl ?_
    last create_from_char_spec
    rw [sep_assoc]
    refine sep_mono (entails_refl _) ?_
    refine entails_trans ?_ (StrAt_OStr (p := p) (a := some t))
    unfold StrAt
    rw [Arg_some]
    sep_cancel

theorem destroy_spec {h : Ptr} {rest : List UInt8} : Triple rel (Tok h rest) (STRING_TOKENIZER_destroy h) (fun _ => emp) := by
  unfold STRING_TOKENIZER_destroy Tok
  hoist
  intro q pos
  refine Triple.know (know_pts (p := h) (φ := h ≠ 0) (by pick) fun h1 _ => h1) fun hne => ?_
  rw [if_pos hne]
  step (loadPtr_spec ?_)
  unfold CStr
  hoist
  intro vs hvs1 hvs2
  step free_spec
  step (store_spec ?_)
  last free_spec
  rw [sep_emp]; exact entails_refl _

theorem destroy_null : STRING_TOKENIZER_destroy 0 = pure () := rfl

theorem know_OStr {h : Ptr} {c : List UInt8} {P R : HProp} (pk : Pick P (OStr h (some c)) R) : ∀ x, P x → h ≠ 0 := by
  intro x hx
  rw [pk] at hx
  simp only [OStr, ORep_some, Str, hex_sep] at hx
  obtain ⟨p, hp⟩ := hx
  rw [sep_assoc] at hp
  exact know_pts (p := h) (φ := h ≠ 0) (by pick) (fun h1 _ => h1) x hp

/-! ## the scanning loops -/

theorem isDelimiter_spec {cur dl : CharPtr} {rest : List UInt8} {i : Nat} {c : UInt8} (hc : rest[i]? = some c) : ∀ (u w : List UInt8),
    Triple rel (CStr cur rest ∗ CStr dl (w ++ u)) (isDelimiter cur i dl u.length w.length)
      (fun r => (r = decide (c ∈ u)) ⋏ CStr cur rest ∗ CStr dl (w ++ u)) := by
  have hi : i < rest.length := by
    rcases Nat.lt_or_ge i rest.length with h | h
    · exact h
    · rw [List.getElem?_eq_none h] at hc; simp at hc
  intro u
  induction u with
  | nil => intro w; exact Triple.pure (entails_pand_r (entails_refl _) (by simp))
  | cons d u ih =>
    intro w
    show Triple rel _ (isDelimiter cur i dl (u.length + 1) w.length) _
    unfold isDelimiter
    step (charAt_spec (s := cur) (t := rest) (c := c) (by rw [List.getElem?_append_left hi]; exact hc))
    step (charAt_spec (s := dl) (t := w ++ d :: u) (i := w.length) (c := d) (by simp))
    refine Triple.ite (fun h => ?_) (fun h => ?_)
    · subst h
      refine Triple.pure (entails_pand_r (by sep_cancel) (by simp))
    · have := ih (w ++ [d])
      simp only [List.append_assoc, List.cons_append, List.nil_append, List.length_append, List.length_cons, List.length_nil] at this
      refine this.conseq (by sep_cancel) fun r => entails_pand_l fun hr => entails_pand_r (entails_refl _) ?_
      rw [hr]; simp [h]

theorem skipLoop_spec {cur dl : CharPtr} {ds : List UInt8} : ∀ (u w : List UInt8),
    Triple rel (CStr cur (w ++ u) ∗ CStr dl ds) (skipLoop cur dl ds.length u.length w.length)
      (fun r => (r = w.length + (u.takeWhile fun x => decide (x ∈ ds)).length) ⋏ CStr cur (w ++ u) ∗ CStr dl ds) := by
  intro u
  induction u with
  | nil => intro w; exact Triple.pure (entails_pand_r (entails_refl _) (by simp))
  | cons c u ih =>
    intro w
    show Triple rel _ (skipLoop cur dl ds.length (u.length + 1) w.length) _
    unfold skipLoop
    have h0 := isDelimiter_spec (rel := rel) (cur := cur) (dl := dl) (rest := w ++ c :: u) (i := w.length) (c := c) (by simp) ds []
    simp only [List.nil_append, List.length_nil] at h0
    step h0
    by_cases h : c ∈ ds
    · rw [if_pos (by simpa using h)]
      have := ih (w ++ [c])
      simp only [List.append_assoc, List.cons_append, List.nil_append, List.length_append, List.length_cons, List.length_nil] at this
      refine this.conseq (entails_refl _) fun r => entails_pand_l fun hr => entails_pand_r (entails_refl _) ?_
      rw [hr, List.takeWhile_cons_of_pos (by simpa using h), List.length_cons]; omega
    · rw [if_neg (by simpa using h)]
      refine Triple.pure (entails_pand_r (entails_refl _) ?_)
      rw [List.takeWhile_cons_of_neg (by simpa using h)]; rfl

/-- where the code ends a token that starts `s`: at the first occurrence of the first delimiter, in the order of the delimiter string,
that occurs at all -/
def codeEnd : List UInt8 → List UInt8 → Option Nat
  | [], _ => none
  | d :: ds, s => match s.findIdx? (· = d) with
    | some k => some k
    | none => codeEnd ds s

theorem strchr_spec {cur : CharPtr} {s : List UInt8} {d : UInt8} (hd : d ≠ 0) :
    Triple rel (CStr cur s) (strchr cur d) (fun r => (r = s.findIdx? (· = d)) ⋏ CStr cur s) := by
  unfold strchr
  step cstr_spec
  refine Triple.pure (entails_pand_r (entails_refl _) ?_)
  rw [List.findIdx?_append]
  simp [Ne.symm hd]

theorem endLoop_spec {cur dl : CharPtr} {s : List UInt8} : ∀ (u w : List UInt8), NoNul (w ++ u) →
    Triple rel (CStr cur s ∗ CStr dl (w ++ u)) (endLoop cur dl u.length w.length)
      (fun r => (r = codeEnd u s) ⋏ CStr cur s ∗ CStr dl (w ++ u)) := by
  intro u
  induction u with
  | nil => intro w _; exact Triple.pure (entails_pand_r (entails_refl _) rfl)
  | cons d u ih =>
    intro w hn
    show Triple rel _ (endLoop cur dl (u.length + 1) w.length) _
    unfold endLoop
    step (charAt_spec (s := dl) (t := w ++ d :: u) (i := w.length) (c := d) (by simp))
    step (strchr_spec (cur := cur) (s := s) (d := d) (by rintro rfl; exact hn (by simp)))
    unfold codeEnd
    cases s.findIdx? (· = d) with
    | some k => exact Triple.pure (entails_pand_r (by sep_cancel) rfl)
    | none =>
      have := ih (w ++ [d])
      simp only [List.append_assoc, List.cons_append, List.nil_append, List.length_append, List.length_cons, List.length_nil] at this
      exact (this hn).conseq (by sep_cancel) fun r => entails_refl _

/-! ## `STRING_TOKENIZER_get_next_token` -/

/-- What a call does: `o` the delimiters, `rest`/`a` the text left and the output string before, `rest'`/`a'` after. -/
def Next (rel : Prop) (o : Option (List UInt8)) (rest : List UInt8) (a : Option (List UInt8)) (r : Nat) (rest' : List UInt8)
    (a' : Option (List UInt8)) : Prop :=
  match o, a with
  | some ds, some _ =>
    let s := rest.dropWhile fun x => decide (x ∈ ds)
    if ds = [] then r ≠ 0 ∧ rest' = rest ∧ a' = a
    else if s = [] then r ≠ 0 ∧ rest' = [] ∧ a' = a
    else (r ≠ 0 ∧ ¬ rel ∧ rest' = s ∧ a' = a) ∨
      (r = 0 ∧ a' = some (s.take ((codeEnd ds s).getD s.length)) ∧ rest' = s.drop ((codeEnd ds s).getD s.length + 1))
  | _, _ => r ≠ 0 ∧ rest' = rest ∧ a' = a

theorem codeEnd_lt : ∀ {ds s : List UInt8} {k : Nat}, codeEnd ds s = some k → k < s.length
  | [], s, k, h => by simp [codeEnd] at h
  | d :: ds, s, k, h => by
    unfold codeEnd at h
    cases e : s.findIdx? (· = d) with
    | some j =>
      rw [e] at h; cases h
      exact (List.findIdx?_eq_some_iff_findIdx_eq.mp e).1
    | none => rw [e] at h; exact codeEnd_lt h

/-- the state after a call -/
def NextPost (rel : Prop) (h out : Ptr) (dl : CharPtr) (o : Option (List UInt8)) (rest : List UInt8) (a : Option (List UInt8)) (r : Nat) : HProp :=
  ∃∃ (rest' : List UInt8) (a' : Option (List UInt8)), (Next rel o rest a r rest' a') ⋏ Tok h rest' ∗ OStr out a' ∗ Arg dl o

theorem get_next_token_spec {h out : Ptr} {dl : CharPtr} {o a : Option (List UInt8)} {rest : List UInt8} :
    Triple rel (Tok h rest ∗ OStr out a ∗ Arg dl o) (STRING_TOKENIZER_get_next_token h out dl)
      (NextPost rel h out dl o rest a) := by
  unfold STRING_TOKENIZER_get_next_token
  have fin : ∀ {P : HProp} {r : Nat} (rest' : List UInt8) (a' : Option (List UInt8)), Next rel o rest a r rest' a' →
      (P ⊢ₕ Tok h rest' ∗ OStr out a' ∗ Arg dl o) →
      Triple rel P (pure r) (NextPost rel h out dl o rest a) :=
    fun rest' a' hn hp => Triple.pure (entails_ex_r rest' (entails_ex_r a' (entails_pand_r hp hn)))
  cases a with
  | none =>
    simp only [OStr, ORep_none]
    hoist
    rintro rfl
    rw [if_pos (Or.inr (Or.inl rfl))]
    refine fin rest none (by cases o <;> simp [Next]) ?_
    rw [OStr, ORep_null, emp_sep]; exact entails_refl _
  | some c =>
  cases o with
  | none =>
    refine Triple.pre_eq (P' := Tok h rest ∗ OStr out (some c) ∗ ((dl = .null) ⋏ emp)) rfl ?_
    hoist
    rintro rfl
    rw [if_pos (Or.inr (Or.inr rfl))]
    refine fin rest (some c) (by simp [Next]) ?_
    rw [Arg_none]
    rw [show ((CharPtr.null = CharPtr.null) ⋏ emp) = emp by simp [true_pand], sep_emp]
    exact entails_refl _
  | some ds =>
    refine Triple.pre_eq (P' := Tok h rest ∗ OStr out (some c) ∗ CStr dl ds) rfl ?_
    refine Triple.know (φ := dl ≠ .null ∧ NoNul ds ∧ ds.length < maxObj) (know_CStr (s := dl) (t := ds) (by pick)) fun hk => ?_
    refine Triple.know (know_OStr (h := out) (c := c) (by pick)) fun hout => ?_
    unfold Tok
    hoist
    intro q pos
    refine Triple.know (know_pts (p := h) (φ := h ≠ 0) (by pick) fun h1 _ => h1) fun hne => ?_
    rw [if_neg (by simp [hne, hout, hk.1])]
    step (loadInt_spec ?_)
    step (loadInt_spec ?_)
    rw [Nat.add_sub_cancel_left]
    refine Triple.step (strlen_spec (s := dl) (t := ds)) (by fr) fun n => ?_
    hoist
    intro hn
    subst hn
    have tail : ∀ {F : HProp}, F ⊢ₕ F := fun {F} => entails_refl F
    by_cases hr0 : rest = []
    · subst hr0
      rw [if_pos (show ([] : List UInt8).length = 0 from rfl)]
      refine fin [] (some c) ?_ ?_
      · by_cases hd : ds = [] <;> simp [Next, hd]
      · unfold Tok
        rw [hex_sep]; refine entails_ex_r q ?_
        rw [hex_sep]; refine entails_ex_r pos ?_
        rw [Arg_some]; sep_cancel
    rw [if_neg (by cases rest <;> simp_all)]
    by_cases hd0 : ds = []
    · subst hd0
      rw [if_pos (show ([] : List UInt8).length = 0 from rfl)]
      refine fin rest (some c) (by simp [Next]) ?_
      unfold Tok
      rw [hex_sep]; refine entails_ex_r q ?_
      rw [hex_sep]; refine entails_ex_r pos ?_
      rw [Arg_some]; sep_cancel
    rw [if_neg (by cases ds <;> simp_all)]
    step (loadPtr_spec ?_)
    have hsk := skipLoop_spec (rel := rel) (cur := .heap q pos) (dl := dl) (ds := ds) rest []
    simp only [List.nil_append, List.length_nil, Nat.zero_add] at hsk
    step hsk
    step (store_spec ?_)
    have hsp : rest.dropWhile (fun x => decide (x ∈ ds)) = rest.drop (rest.takeWhile fun x => decide (x ∈ ds)).length := by
      have := congrArg (List.drop (rest.takeWhile fun x => decide (x ∈ ds)).length)
        (List.takeWhile_append_dropWhile (p := fun x => decide (x ∈ ds)) (l := rest))
      rw [List.drop_left] at this
      exact this
    generalize hi : (rest.takeWhile fun x => decide (x ∈ ds)).length = i at hsp ⊢
    have hile : i ≤ rest.length := by rw [← hi]; exact (List.takeWhile_sublist _).length_le
    refine Triple.pre ?_ (sep_mono (entails_refl _) (sep_mono (CStr_drop hile) (entails_refl _)))
    generalize hs : rest.drop i = s at hsp ⊢
    have hlen : rest.length - i = s.length := by rw [← hs]; simp
    have hsz : pos + rest.length = pos + i + s.length := by omega
    rw [hlen, hsz]
    have stay : ∀ {a' : Option (List UInt8)}, h ↦ [Val.ptr q, Val.int (pos + i), Val.int (pos + i + s.length)] ∗ CStr (.heap q (pos + i)) s ∗ OStr out a' ∗ CStr dl ds
        ⊢ₕ Tok h s ∗ OStr out a' ∗ Arg dl (some ds) := by
      intro a'
      unfold Tok
      rw [hex_sep]; refine entails_ex_r q ?_
      rw [hex_sep]; refine entails_ex_r (pos + i) ?_
      rw [Arg_some]; sep_cancel
    by_cases hs0 : s = []
    · subst hs0
      rw [if_pos (show ([] : List UInt8).length = 0 from rfl)]
      refine fin [] (some c) (by simp [Next, hd0, hsp]) ?_
      refine entails_trans ?_ stay
      sep_cancel
    rw [if_neg (by cases s <;> simp_all)]
    have hel := endLoop_spec (rel := rel) (cur := .heap q (pos + i)) (dl := dl) (s := s) ds [] hk.2.1
    simp only [List.nil_append, List.length_nil] at hel
    step hel
    rw [← Arg_some (s := .heap q (pos + i))]
    step STRING_copy_n_spec into r
    intro a' he
    rcases he with ⟨hr, -, c0, c', hc, ha', u, hu, hc'⟩ | ⟨hr, ha', hwhy⟩
    · subst hr ha' hc'
      cases hu
      rw [if_neg (by simp), Arg_some]
      step (store_spec ?_)
      refine fin (s.drop ((codeEnd ds s).getD s.length + 1)) (some (s.take ((codeEnd ds s).getD s.length))) ?_ ?_
      · simp only [Next, hd0, hsp, hs0, if_false]
        exact Or.inr ⟨by trivial, by trivial, by trivial⟩
      · unfold Tok
        rw [hex_sep]; refine entails_ex_r q ?_
        cases he : codeEnd ds s with
        | none =>
          rw [hex_sep]; refine entails_ex_r (pos + i + s.length) ?_
          have e : s.drop (s.length + 1) = [] := List.drop_eq_nil_of_le (by omega)
          simp only [Option.getD_none, Option.isSome_none, e, Bool.false_eq_true, if_false, List.length_nil, Nat.add_zero]
          refine entails_trans (sep_mono (entails_refl _) (sep_mono (entails_refl _) (sep_mono (CStr_drop (Nat.le_refl _)) (entails_refl _)))) ?_
          rw [List.drop_length, Arg_some]
          sep_cancel
        | some k =>
          have hk := codeEnd_lt he
          rw [hex_sep]; refine entails_ex_r (pos + i + (k + 1)) ?_
          simp only [Option.getD_some, Option.isSome_some, if_true, List.length_drop]
          rw [show pos + i + (k + 1) + (s.length - (k + 1)) = pos + i + s.length by omega]
          refine entails_trans (sep_mono (entails_refl _) (sep_mono (entails_refl _) (sep_mono (CStr_drop (i := k + 1) (by omega)) (entails_refl _)))) ?_
          rw [Arg_some]
          sep_cancel
    · subst ha'
      rw [if_pos hr, Arg_some]
      refine fin s (some c) ?_ ?_
      · simp only [Next, hd0, hsp, hs0, if_false]
        refine Or.inl ⟨by simp, ?_, by trivial, by trivial⟩
        rcases hwhy with (h | h) | h
        · simp at h
        · simp at h
        · exact h
      · refine entails_trans ?_ stay
        sep_cancel

/-- `STRING_TOKENIZER_get_next_token(NULL, …)` fails and touches nothing. -/
theorem get_next_token_null (out : Ptr) (dl : CharPtr) : STRING_TOKENIZER_get_next_token 0 out dl = pure 84 := rfl

end Verif.Tok
