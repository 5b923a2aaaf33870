import Verif.Tok.Props
/-!
# Histories of token requests (C24) and the end of a token (C25)
-/
namespace Verif.Tok
open Verif Verif.Strings Verif.Crt

variable {rel : Prop}

/-! ## One delimiter: the token ends where it should -/

theorem codeEnd_none : ∀ {ds s : List UInt8}, codeEnd ds s = none → ∀ c ∈ s, c ∉ ds
  | [], s, _, c, _ => by simp
  | d :: ds, s, h, c, hc => by
    unfold codeEnd at h
    cases e : s.findIdx? (· = d) with
    | some k => rw [e] at h; simp at h
    | none =>
      rw [e] at h
      have h1 := List.findIdx?_eq_none_iff.mp e c hc
      have h2 := codeEnd_none h c hc
      simp only [List.mem_cons, not_or]
      exact ⟨by simpa using h1, h2⟩

theorem codeEnd_some : ∀ {ds s : List UInt8} {k : Nat}, codeEnd ds s = some k → ∃ d ∈ ds, s[k]? = some d ∧ d ∉ s.take k
  | [], s, k, h => by simp [codeEnd] at h
  | d :: ds, s, k, h => by
    unfold codeEnd at h
    cases e : s.findIdx? (· = d) with
    | none =>
      rw [e] at h
      obtain ⟨d', h1, h2⟩ := codeEnd_some h
      exact ⟨d', List.mem_cons_of_mem _ h1, h2⟩
    | some j =>
      rw [e] at h; cases h
      obtain ⟨h1, h2⟩ := List.findIdx?_eq_some_iff_getElem.mp e
      refine ⟨d, by simp, ?_, fun hc => ?_⟩
      · rw [List.getElem?_eq_getElem h1]; simpa using h2.1
      · obtain ⟨i, hi, he⟩ := List.getElem_of_mem hc
        simp only [List.length_take] at hi
        rw [List.getElem_take] at he
        have := h2.2 i (by omega)
        simp [he] at this

/-- the text contains at most one of the delimiters (always so if there is one delimiter) -/
def OneKind (ds t : List UInt8) : Prop := ∀ c ∈ t, ∀ c' ∈ t, c ∈ ds → c' ∈ ds → c = c'

theorem OneKind.single (d : UInt8) (t : List UInt8) : OneKind [d] t := by
  intro c _ c' _ h h'
  simp only [List.mem_singleton] at h h'
  rw [h, h']

theorem OneKind.sub {ds t u : List UInt8} (h : OneKind ds t) (hs : ∀ c ∈ u, c ∈ t) : OneKind ds u :=
  fun c hc c' hc' => h c (hs c hc) c' (hs c' hc')

theorem codeEnd_first {ds s : List UInt8} (h1 : OneKind ds s) {k : Nat} (h : codeEnd ds s = some k) :
    (∀ c ∈ s.take k, c ∉ ds) ∧ ∃ d, s[k]? = some d ∧ d ∈ ds := by
  obtain ⟨d, hd, hk, hn⟩ := codeEnd_some h
  refine ⟨fun c hc hcd => hn ?_, d, hk, hd⟩
  rw [h1 d (List.mem_of_getElem? hk) c (List.mem_of_mem_take hc) hd hcd]
  exact hc

/-- how the code's step acts on the runs, when the token end it computes is the first delimiter of any kind -/
theorem runs_step {ds s : List UInt8} {toks : List (List UInt8)} {e : Option Nat} (hne : s ≠ []) (h0 : ∀ c, s.head? = some c → c ∉ ds)
    (hnone : e = none → ∀ c ∈ s, c ∉ ds) (hsome : ∀ k, e = some k → (∀ c ∈ s.take k, c ∉ ds) ∧ ∃ d, s[k]? = some d ∧ d ∈ ds)
    (h : IsRuns ds s toks) :
    ∃ toks', toks = s.take (e.getD s.length) :: toks' ∧ IsRuns ds (s.drop (e.getD s.length + 1)) toks' := by
  cases e with
  | none =>
    simp only [Option.getD_none, List.take_length]
    have hd : s.drop (s.length + 1) = [] := List.drop_eq_nil_of_le (by omega)
    rw [hd]
    have h1 : IsRuns ds ([] ++ s ++ []) [s] := .run (by simp) hne (hnone rfl) (by simp) (.none (by simp))
    simp only [List.nil_append, List.append_nil] at h1
    exact ⟨[], h.unique h1, .none (by simp)⟩
  | some k =>
    obtain ⟨h1, d, hd, hdd⟩ := hsome k rfl
    simp only [Option.getD_some]
    have hk : k < s.length := by
      rcases Nat.lt_or_ge k s.length with h | h
      · exact h
      · rw [List.getElem?_eq_none h] at hd; simp at hd
    have hk0 : k ≠ 0 := by
      rintro rfl
      rw [← List.head?_eq_getElem?] at hd
      exact h0 d hd hdd
    have htk : s.take k ≠ [] := by
      intro h; have := congrArg List.length h; rw [List.length_take, List.length_nil] at this; omega
    have hdrop : s.drop k = [d] ++ s.drop (k + 1) := by
      rw [List.drop_eq_getElem_cons hk]
      rw [List.getElem?_eq_getElem hk] at hd
      rw [Option.some.inj hd]; rfl
    obtain ⟨toks', ht⟩ := IsRuns.exists ds _ (s.drop (k + 1)) (Nat.le_refl _)
    have h2 : IsRuns ds ([] ++ s.take k ++ s.drop k) (s.take k :: toks') :=
      .run (by simp) htk h1 (by rw [hdrop]; simpa using hdd) (by rw [hdrop]; exact ht.drop_delims (by simpa using hdd))
    rw [List.nil_append, List.take_append_drop] at h2
    exact ⟨toks', h.unique h2, ht⟩

/-- the head of what is left after the leading delimiters is not a delimiter -/
theorem head_not_delim {ds rest : List UInt8} : ∀ c, (rest.dropWhile fun x => decide (x ∈ ds)).head? = some c → c ∉ ds := by
  intro c hc
  have := List.head?_dropWhile_not (fun x => decide (x ∈ ds)) rest
  rw [hc] at this
  simpa using this

theorem runs_dropWhile {ds rest : List UInt8} {toks : List (List UInt8)} (h : IsRuns ds rest toks) :
    IsRuns ds (rest.dropWhile fun x => decide (x ∈ ds)) toks := by
  obtain ⟨toks', ht⟩ := IsRuns.exists ds _ (rest.dropWhile fun x => decide (x ∈ ds)) (Nat.le_refl _)
  have h2 := ht.drop_delims (pre := rest.takeWhile fun x => decide (x ∈ ds)) (fun c hc => by
    have := List.all_takeWhile (p := fun x => decide (x ∈ ds)) (l := rest)
    simpa using List.all_eq_true.mp this c hc)
  rw [List.takeWhile_append_dropWhile] at h2
  rw [h.unique h2]; exact ht

/-- What a client of one tokenizer, one output string and one delimiter string may see of a call: the remaining tokens and the output
string before, the result, and the same after. -/
inductive Seen (rel : Prop) : List (List UInt8) × List UInt8 → Bool → List (List UInt8) × List UInt8 → Prop
  | token {tok toks out} : Seen rel (tok :: toks, out) true (toks, tok)
  | finished {out} : Seen rel ([], out) false ([], out)
  | refused {toks out} : ¬ rel → Seen rel (toks, out) false (toks, out)

theorem Next_seen {ds : List UInt8} {rest out : List UInt8} {toks : List (List UInt8)} {r : Nat} {rest' : List UInt8} {a' : Option (List UInt8)}
    (hds : ds ≠ []) (hone : OneKind ds rest)
    (ht : IsRuns ds rest toks) (h : Next rel (some ds) rest (some out) r rest' a') :
    ∃ toks' out', a' = some out' ∧ IsRuns ds rest' toks' ∧ OneKind ds rest' ∧ Seen rel (toks, out) (decide (r = 0)) (toks', out') := by
  have hrun := runs_dropWhile ht
  have hhead := head_not_delim (ds := ds) (rest := rest)
  simp only [Next, hds, if_false] at h
  have hone' : OneKind ds (rest.dropWhile fun x => decide (x ∈ ds)) := hone.sub fun c hc => (List.dropWhile_sublist _).subset hc
  generalize rest.dropWhile (fun x => decide (x ∈ ds)) = s at *
  by_cases hs : s = []
  · subst hs
    rw [if_pos rfl] at h
    obtain ⟨h1, rfl, rfl⟩ := h
    have : toks = [] := hrun.unique (.none (by simp))
    subst this
    exact ⟨[], out, rfl, .none (by simp), hone', by simp [h1]; exact .finished⟩
  · rw [if_neg hs] at h
    rcases h with ⟨h1, h2, rfl, rfl⟩ | ⟨h1, rfl, rfl⟩
    · exact ⟨toks, out, rfl, hrun, hone', by simp [h1]; exact .refused h2⟩
    · obtain ⟨toks', rfl, h3⟩ := runs_step (e := codeEnd ds s) hs hhead codeEnd_none (fun k => codeEnd_first hone') hrun
      exact ⟨toks', _, rfl, h3, hone'.sub fun c hc => List.mem_of_mem_drop hc, by simp [h1]; exact .token⟩

/-- `n` requests with the same delimiters, observing each time whether the call succeeded and the contents of the output string -/
def requests (h out : Ptr) (dl : CharPtr) : Nat → M (List (Bool × List UInt8))
  | 0 => pure []
  | n + 1 => do
    let r ← STRING_TOKENIZER_get_next_token h out dl
    let p ← STRING_c_str out
    let t ← cstr (.ofPtr p)
    let os ← requests h out dl n
    pure ((decide (r = 0), t) :: os)

/-- a possible sequence of observations -/
inductive Observed (rel : Prop) : List (List UInt8) × List UInt8 → List (Bool × List UInt8) → Prop
  | nil {x} : Observed rel x []
  | cons {x b y os} : Seen rel x b y → Observed rel y os → Observed rel x ((b, y.2) :: os)

theorem cstr_of {h : Ptr} {t : List UInt8} {k : List UInt8 → M β} {P : HProp} {Q : β → HProp}
    (hk : Triple rel (OStr h (some t) ∗ P) (k t) Q) :
    Triple rel (OStr h (some t) ∗ P) (do let p ← STRING_c_str h; let t ← cstr (.ofPtr p); k t) Q := by
  step STRING_c_str_spec into p
  unfold StrAt
  hoist
  refine Triple.know (know_heap0 (p := p) (by pick)) fun hp => ?_
  rw [ofPtr_ne hp]
  refine Triple.step (cstr_spec (s := .heap p 0) (t := t)) (by fr) fun r => ?_
  hoist
  intro hr
  subst hr
  refine hk.pre ?_
  refine entails_trans ?_ (sep_mono (StrAt_OStr (p := p) (a := some r)) (entails_refl _))
  unfold StrAt
  sep_cancel

/-- Any number of requests, if the text contains at most one of the delimiters. -/
theorem requests_onekind {h out : Ptr} {dl : CharPtr} {ds : List UInt8} (hds : ds ≠ []) :
    ∀ (n : Nat) (rest cur : List UInt8) (toks : List (List UInt8)), OneKind ds rest → IsRuns ds rest toks →
    Triple rel (Tok h rest ∗ OStr out (some cur) ∗ CStr dl ds) (requests h out dl n)
      (fun os => (os.length = n ∧ Observed rel (toks, cur) os) ⋏ ∃∃ (rest' cur' : List UInt8), Tok h rest' ∗ OStr out (some cur') ∗ CStr dl ds)
  | 0, rest, cur, toks, _, ht =>
    Triple.pure (entails_pand_r (entails_ex_r rest (entails_ex_r cur (entails_refl _))) ⟨rfl, .nil⟩)
  | n + 1, rest, cur, toks, h1, ht => by
    unfold requests
    rw [← Arg_some]
    step get_next_token_spec into r
    unfold NextPost
    hoist
    intro rest' a' hn
    obtain ⟨toks', cur', rfl, h2, h3, h4⟩ := Next_seen hds h1 ht hn
    refine Triple.pre_eq (P' := OStr out (some cur') ∗ Tok h rest' ∗ CStr dl ds) (by rw [Arg_some, sep_left_comm]) ?_
    refine cstr_of ?_
    refine Triple.pre_eq (P' := Tok h rest' ∗ OStr out (some cur') ∗ CStr dl ds) (sep_left_comm _ _ _) ?_
    refine Triple.step (requests_onekind hds n rest' cur' toks' h3 h2) (by fr) fun os => ?_
    hoist
    intro hl ho r2 c2
    exact Triple.pure (entails_pand_r (entails_ex_r r2 (entails_ex_r c2 (entails_refl _))) ⟨by simp [hl], .cons h4 ho⟩)

/-- C24: with a one-character delimiter string, any number of requests return in order exactly the maximal runs of non-delimiter
characters (`IsRuns`), then fail for ever; the output string changes only on success.  A refused allocation makes a call fail without
losing a token. -/
theorem requests_spec {h out : Ptr} {dl : CharPtr} {d : UInt8} (n : Nat) (rest cur : List UInt8) (toks : List (List UInt8)) (ht : IsRuns [d] rest toks) :
    Triple rel (Tok h rest ∗ OStr out (some cur) ∗ CStr dl [d]) (requests h out dl n)
      (fun os => (os.length = n ∧ Observed rel (toks, cur) os) ⋏ ∃∃ (rest' cur' : List UInt8), Tok h rest' ∗ OStr out (some cur') ∗ CStr dl [d]) :=
  requests_onekind (by simp) n rest cur toks (.single d rest) ht

/-- C24 from the start: tokenizing a text. -/
def tokenize (input dl : CharPtr) (out : Ptr) (n : Nat) : M (Option (List (Bool × List UInt8))) := do
  let h ← STRING_TOKENIZER_create_from_char input
  if h = 0 then pure none
  else
    let os ← requests h out dl n
    STRING_TOKENIZER_destroy h
    pure (some os)

theorem tokenize_onekind {input dl : CharPtr} {out : Ptr} {t cur : List UInt8} {ds : List UInt8} {n : Nat} {toks : List (List UInt8)}
    (hds : ds ≠ []) (h1 : OneKind ds t) (ht : IsRuns ds t toks) :
    Triple rel (CStr input t ∗ OStr out (some cur) ∗ CStr dl ds) (tokenize input dl out n)
      (fun o => (match o with
          | none => ¬ rel
          | some os => os.length = n ∧ Observed rel (toks, cur) os) ⋏ ∃∃ cur' : List UInt8, CStr input t ∗ OStr out (some cur') ∗ CStr dl ds) := by
  unfold tokenize
  rw [← Arg_some (s := input)]
  step create_from_char_spec into h
  rw [Arg_some]
  by_cases h0 : h = 0
  · subst h0
    rw [Made_zero, if_pos rfl]
    hoist
    intro hr
    exact Triple.pure (entails_pand_r (entails_ex_r cur (entails_refl _)) (hr.resolve_left (by simp)))
  · rw [Made_ne h0, if_neg h0]
    hoist
    intro u hu
    cases hu
    refine Triple.step (requests_onekind hds n t cur toks h1 ht) (by fr) fun os => ?_
    hoist
    intro hl ho rest' cur'
    step destroy_spec
    exact Triple.pure (entails_pand_r (entails_ex_r cur' (by sep_cancel)) ⟨hl, ho⟩)


/-- C24: a text, a one-character delimiter, any number of requests. -/
theorem tokenize_spec {input dl : CharPtr} {out : Ptr} {t cur : List UInt8} {d : UInt8} {n : Nat} {toks : List (List UInt8)} (ht : IsRuns [d] t toks) :
    Triple rel (CStr input t ∗ OStr out (some cur) ∗ CStr dl [d]) (tokenize input dl out n)
      (fun o => (match o with
          | none => ¬ rel
          | some os => os.length = n ∧ Observed rel (toks, cur) os) ⋏ ∃∃ cur' : List UInt8, CStr input t ∗ OStr out (some cur') ∗ CStr dl [d]) :=
  tokenize_onekind (by simp) (.single d t) ht

/-- C25 (partial): with several delimiters tokens end at the first delimiter of any kind, for texts that contain at most one of the
delimiters.  For other texts it is false: `token_end_wrong`. -/
theorem tokenize_delimiters_partial {input dl : CharPtr} {out : Ptr} {t cur : List UInt8} {ds : List UInt8} {n : Nat} {toks : List (List UInt8)}
    (hds : ds ≠ []) (h1 : OneKind ds t) (ht : IsRuns ds t toks) :
    Triple rel (CStr input t ∗ OStr out (some cur) ∗ CStr dl ds) (tokenize input dl out n)
      (fun o => (match o with
          | none => ¬ rel
          | some os => os.length = n ∧ Observed rel (toks, cur) os) ⋏ ∃∃ cur' : List UInt8, CStr input t ∗ OStr out (some cur') ∗ CStr dl ds) :=
  tokenize_onekind hds h1 ht

/-! ## Non-vacuity, and C25 is false -/

private def ascii (s : String) : List UInt8 := s.toList.map fun c => UInt8.ofNat c.toNat

example : outcome (do
    let out ← STRING_new
    tokenize (.str (ascii ",a,,bc,")) (.str (ascii ",")) out 4) (St.start bump) =
    some (.ok (some [(true, ascii "a"), (true, ascii "bc"), (false, ascii "bc"), (false, ascii "bc")])) := by decide +kernel

example : OneKind (ascii ",;") (ascii "a;b;c") := by unfold OneKind; decide

/-- `"a;b,c"` with the delimiters `",;"`: the first token returned is `"a;b"`, although `;` is a delimiter. -/
theorem token_end_wrong :
    outcome (do
      let out ← STRING_new
      tokenize (.str (ascii "a;b,c")) (.str (ascii ",;")) out 2) (St.start bump) =
      some (.ok (some [(true, ascii "a;b"), (true, ascii "c")])) ∧
    IsRuns (ascii ",;") (ascii "a;b,c") [ascii "a", ascii "b", ascii "c"] := by
  refine ⟨by decide +kernel, ?_⟩
  exact .run (pre := []) (tok := ascii "a") (rest := ascii ";b,c") (by decide) (by decide) (by decide) (by decide)
    (.run (pre := ascii ";") (tok := ascii "b") (rest := ascii ",c") (by decide) (by decide) (by decide) (by decide)
      (.run (pre := ascii ",") (tok := ascii "c") (rest := []) (by decide) (by decide) (by decide) (by decide) (.none (by decide))))

end Verif.Tok
