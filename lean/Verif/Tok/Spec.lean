/-!
# Tokens of a text, written independently of the code
-/
namespace Verif.Tok

/-- `IsRuns ds t toks`: `toks` are, in order, exactly the maximal non-empty runs of non-delimiter characters of `t`. -/
inductive IsRuns (ds : List UInt8) : List UInt8 → List (List UInt8) → Prop
  | none {t} : (∀ c ∈ t, c ∈ ds) → IsRuns ds t []
  | run {pre tok rest toks} : (∀ c ∈ pre, c ∈ ds) → tok ≠ [] → (∀ c ∈ tok, c ∉ ds) → (∀ c, rest.head? = some c → c ∈ ds) →
      IsRuns ds rest toks → IsRuns ds (pre ++ tok ++ rest) (tok :: toks)

/-- the next run of a text and what follows it -/
theorem split_unique {ds a b c a' b' c' : List UInt8} (h : a ++ b ++ c = a' ++ b' ++ c') (ha : ∀ x ∈ a, x ∈ ds) (ha' : ∀ x ∈ a', x ∈ ds)
    (hb : ∀ x ∈ b, x ∉ ds) (hb' : ∀ x ∈ b', x ∉ ds) (nb : b ≠ []) (nb' : b' ≠ [])
    (hc : ∀ x, c.head? = some x → x ∈ ds) (hc' : ∀ x, c'.head? = some x → x ∈ ds) : a = a' ∧ b = b' ∧ c = c' := by
  have key : ∀ {a b c : List UInt8}, (∀ x ∈ a, x ∈ ds) → (∀ x ∈ b, x ∉ ds) → b ≠ [] →
      (a ++ b ++ c).takeWhile (fun x => decide (x ∈ ds)) = a ∧ (a ++ b ++ c).dropWhile (fun x => decide (x ∈ ds)) = b ++ c := by
    intro a b c ha hb nb
    obtain ⟨y, ys, rfl⟩ : ∃ y ys, b = y :: ys := by cases b with | nil => exact (nb rfl).elim | cons y ys => exact ⟨y, ys, rfl⟩
    have hy := hb y (by simp)
    constructor
    · rw [List.append_assoc, List.takeWhile_append_of_pos (by simpa using ha)]
      simp [hy]
    · rw [List.append_assoc, List.dropWhile_append_of_pos (by simpa using ha)]
      simp [hy]
  have key2 : ∀ {b c : List UInt8}, (∀ x ∈ b, x ∉ ds) → (∀ x, c.head? = some x → x ∈ ds) →
      (b ++ c).takeWhile (fun x => !decide (x ∈ ds)) = b ∧ (b ++ c).dropWhile (fun x => !decide (x ∈ ds)) = c := by
    intro b c hb hc
    rw [List.takeWhile_append_of_pos (by simpa using hb), List.dropWhile_append_of_pos (by simpa using hb)]
    cases c with
    | nil => simp
    | cons y ys => simp [hc y rfl]
  obtain ⟨h1, h2⟩ := key (c := c) ha hb nb
  obtain ⟨h1', h2'⟩ := key (c := c') ha' hb' nb'
  rw [h] at h1 h2
  rw [h1] at h1'; rw [h2] at h2'
  obtain ⟨h3, h4⟩ := key2 hb hc
  obtain ⟨h3', h4'⟩ := key2 hb' hc'
  rw [h2'] at h3 h4
  rw [h3] at h3'; rw [h4] at h4'
  exact ⟨h1', h3', h4'⟩

theorem not_all_delims {ds pre tok rest : List UInt8} (h : ∀ c ∈ pre ++ tok ++ rest, c ∈ ds) (nt : tok ≠ []) (ht : ∀ c ∈ tok, c ∉ ds) : False := by
  cases tok with
  | nil => exact nt rfl
  | cons y ys => exact ht y (by simp) (h y (by simp))

/-- a text has exactly one list of runs -/
theorem IsRuns.unique {ds t : List UInt8} {a b : List (List UInt8)} (h1 : IsRuns ds t a) (h2 : IsRuns ds t b) : a = b := by
  induction h1 generalizing b with
  | none h =>
    cases h2 with
    | none => rfl
    | run _ nt ht _ _ => exact (not_all_delims h nt ht).elim
  | @run pre tok rest toks hp nt ht hr _ ih =>
    generalize hu : pre ++ tok ++ rest = u at h2
    cases h2 with
    | none h => subst hu; exact (not_all_delims h nt ht).elim
    | @run pre' tok' rest' toks' hp' nt' ht' hr' h' =>
      obtain ⟨rfl, rfl, rfl⟩ := split_unique hu hp hp' ht ht' nt nt' hr hr'
      rw [ih h']

/-- a text has a list of runs -/
theorem IsRuns.exists (ds : List UInt8) : ∀ (n : Nat) (t : List UInt8), t.length ≤ n → ∃ toks, IsRuns ds t toks
  | n, t, hn => by
    have e1 := List.takeWhile_append_dropWhile (p := fun x => decide (x ∈ ds)) (l := t)
    have p1 : ∀ c ∈ t.takeWhile (fun x => decide (x ∈ ds)), c ∈ ds := fun c hc => by
      have := List.all_takeWhile (p := fun x => decide (x ∈ ds)) (l := t)
      simpa using List.all_eq_true.mp this c hc
    generalize hs : t.dropWhile (fun x => decide (x ∈ ds)) = s at e1
    cases s with
    | nil =>
      refine ⟨[], .none fun c hc => ?_⟩
      rw [← e1, List.append_nil] at hc
      exact p1 c hc
    | cons y ys =>
      have hy : y ∉ ds := by
        have := List.head?_dropWhile_not (fun x => decide (x ∈ ds)) t
        rw [hs] at this
        simpa using this
      have e2 := List.takeWhile_append_dropWhile (p := fun x => !decide (x ∈ ds)) (l := y :: ys)
      have p2 : ∀ c ∈ (y :: ys).takeWhile (fun x => !decide (x ∈ ds)), c ∉ ds := fun c hc => by
        have := List.all_takeWhile (p := fun x => !decide (x ∈ ds)) (l := y :: ys)
        simpa using List.all_eq_true.mp this c hc
      have n2 : (y :: ys).takeWhile (fun x => !decide (x ∈ ds)) ≠ [] := by simp [hy]
      have l1 := congrArg List.length e1
      have l2 := congrArg List.length e2
      have l3 : 0 < ((y :: ys).takeWhile (fun x => !decide (x ∈ ds))).length := List.length_pos_iff.mpr n2
      simp only [List.length_append, List.length_cons] at l1 l2
      match n with
      | 0 => omega
      | n + 1 =>
        obtain ⟨toks, ht⟩ := IsRuns.exists ds n ((y :: ys).dropWhile (fun x => !decide (x ∈ ds))) (by omega)
        have h := IsRuns.run p1 n2 p2 (fun c hc => by
          have := List.head?_dropWhile_not (fun x => !decide (x ∈ ds)) (y :: ys)
          rw [hc] at this
          simpa using this) ht
        rw [List.append_assoc, e2, e1] at h
        exact ⟨_, h⟩

/-- leading delimiters do not change the runs -/
theorem IsRuns.drop_delims {ds pre t : List UInt8} {toks : List (List UInt8)} (hp : ∀ c ∈ pre, c ∈ ds) (h : IsRuns ds t toks) :
    IsRuns ds (pre ++ t) toks := by
  cases h with
  | none h =>
    exact .none fun c hc => (List.mem_append.mp hc).elim (hp c) (h c)
  | run hp' nt ht hr h' =>
    rw [← List.append_assoc, ← List.append_assoc]
    exact .run (fun c hc => (List.mem_append.mp hc).elim (hp c) (hp' c)) nt ht hr h'

private def ascii (s : String) : List UInt8 := s.toList.map fun c => UInt8.ofNat c.toNat
example : IsRuns (ascii ",") (ascii ",a,,bc,") [ascii "a", ascii "bc"] :=
  .run (pre := ascii ",") (tok := ascii "a") (rest := ascii ",,bc,") (by decide) (by decide) (by decide) (by decide)
    (.run (pre := ascii ",,") (tok := ascii "bc") (rest := ascii ",") (by decide) (by decide) (by decide) (by decide) (.none (by decide)))

end Verif.Tok
