import Verif.Map.Props2
import Verif.Map.History
import Verif.Strings.Json
/-! # C12: `Map_ToJSON`

`JObject` is the grammar of JSON objects whose members are strings (RFC 8259 §4, no insignificant white space), written
independently of the code: `JObject s ms` says that the text `s` is one such object and `ms` are its members in order. -/
set_option linter.unusedSimpArgs false
set_option linter.unusedVariables false

namespace Verif.Json

/-- members up to and including the closing brace; the rest of the text follows -/
inductive JMembers : List UInt8 → List (List Nat × List Nat) → List UInt8 → Prop
  | last {s k s1 v rest} : JString s k (58 :: s1) → JString s1 v (125 :: rest) → JMembers s [(k, v)] rest
  | more {s k s1 v s2 ms rest} : JString s k (58 :: s1) → JString s1 v (44 :: s2) → JMembers s2 ms rest → JMembers s ((k, v) :: ms) rest

/-- the whole text `s` is one object with the members `ms` -/
def JObject (s : List UInt8) (ms : List (List Nat × List Nat)) : Prop :=
  (s = [123, 125] ∧ ms = []) ∨ ∃ s1, s = 123 :: s1 ∧ JMembers s1 ms []

theorem JMembers.unique {s ms r ms' r'} (h : JMembers s ms r) (h' : JMembers s ms' r') : ms = ms' ∧ r = r' := by
  induction h generalizing ms' r' with
  | last h1 h2 =>
    cases h' with
    | last h1' h2' =>
      obtain ⟨rfl, e⟩ := h1.unique h1'; simp at e; subst e
      obtain ⟨rfl, e⟩ := h2.unique h2'; simp at e; subst e
      exact ⟨rfl, rfl⟩
    | more h1' h2' _ =>
      obtain ⟨rfl, e⟩ := h1.unique h1'; simp at e; subst e
      obtain ⟨rfl, e⟩ := h2.unique h2'; simp at e
  | more h1 h2 _ ih =>
    cases h' with
    | last h1' h2' =>
      obtain ⟨rfl, e⟩ := h1.unique h1'; simp at e; subst e
      obtain ⟨rfl, e⟩ := h2.unique h2'; simp at e
    | more h1' h2' h3' =>
      obtain ⟨rfl, e⟩ := h1.unique h1'; simp at e; subst e
      obtain ⟨rfl, e⟩ := h2.unique h2'; simp at e; subst e
      obtain ⟨rfl, rfl⟩ := ih h3'
      exact ⟨rfl, rfl⟩

/-- A text is an object in at most one way: the members are determined by the text. -/
theorem JObject.unique {s ms ms'} (h : JObject s ms) (h' : JObject s ms') : ms = ms' := by
  have nb : ∀ {ms r}, ¬ JMembers [125] ms r := by
    intro ms r h
    cases h with
    | last h1 _ => obtain ⟨b, e, _⟩ := h1; simp at e
    | more h1 _ _ => obtain ⟨b, e, _⟩ := h1; simp at e
  rcases h with ⟨rfl, rfl⟩ | ⟨s1, rfl, h⟩
  · rcases h' with ⟨_, rfl⟩ | ⟨s1, e, h'⟩
    · rfl
    · simp at e; subst e; exact absurd h' nb
  · rcases h' with ⟨e, rfl⟩ | ⟨s1', e, h'⟩
    · simp at e; subst e; exact absurd h nb
    · simp at e; subst e; exact (h.unique h').1

end Verif.Json

namespace Verif.Map
open Verif Verif.Strings Verif.Json
variable {rel : Prop}

/-! ## The text written by the loop -/

/-- what the loop appends for the pairs from index `i` on -/
def tailText : Nat → List (Text × Text) → Text
  | _, [] => []
  | i, (k, v) :: l => (if i > 0 then [44] else []) ++ jsonText k ++ [58] ++ jsonText v ++ tailText (i + 1) l

theorem esc_length (c : UInt8) : (esc c).length ≤ 6 := by unfold esc; (repeat' split) <;> simp

theorem jsonText_length (t : Text) : (jsonText t).length ≤ 6 * t.length + 2 := by
  unfold jsonText
  have : (t.flatMap esc).length ≤ 6 * t.length := by
    induction t with
    | nil => simp
    | cons c t ih => have := esc_length c; simp only [List.flatMap_cons, List.length_append, List.length_cons]; omega
  simp only [List.length_append, List.length_cons, List.length_nil]; omega

/-- total length of all keys and values -/
def charCount (ps : List (Text × Text)) : Nat := (ps.map fun p => p.1.length + p.2.length).sum

theorem tailText_length (i : Nat) (ps : List (Text × Text)) : (tailText i ps).length ≤ 6 * charCount ps + 6 * ps.length := by
  induction ps generalizing i with
  | nil => simp [tailText]
  | cons p ps ih =>
    obtain ⟨k, v⟩ := p
    have := ih (i + 1)
    have h1 := jsonText_length k
    have h2 := jsonText_length v
    have h3 : (if i > 0 then [(44 : UInt8)] else []).length ≤ 1 := by split <;> simp
    simp only [tailText, charCount, List.length_append, List.length_cons, List.length_nil, List.map_cons, List.sum_cons] at *
    omega

/-- all characters of the pair are 7-bit -/
def ascii (p : Text × Text) : Prop := (∀ c ∈ p.1, c < 128) ∧ (∀ c ∈ p.2, c < 128)

def codes (p : Text × Text) : List Nat × List Nat := (p.1.map UInt8.toNat, p.2.map UInt8.toNat)

theorem tailText_reads (ps : List (Text × Text)) (h : ∀ p ∈ ps, ascii p) (hne : ps ≠ []) (rest : Text) :
    JMembers (tailText 0 ps ++ 125 :: rest) (ps.map codes) rest ∧
    ∀ i, i > 0 → ∃ s, tailText i ps ++ 125 :: rest = 44 :: s ∧ JMembers s (ps.map codes) rest := by
  induction ps with
  | nil => exact absurd rfl hne
  | cons p ps ih =>
    obtain ⟨k, v⟩ := p
    have ha := h (k, v) (by simp)
    have key : ∀ i, JMembers (jsonText k ++ (58 :: (jsonText v ++ (tailText (i + 1) ps ++ 125 :: rest)))) ((k, v) :: ps |>.map codes) rest := by
      intro i
      by_cases hps : ps = []
      · subst hps
        exact JMembers.last (jsonText_reads k ha.1 _) (jsonText_reads v ha.2 _)
      · obtain ⟨s, e, hs⟩ := (ih (fun p hp => h p (by simp [hp])) hps).2 (i + 1) (by omega)
        rw [e]
        exact JMembers.more (jsonText_reads k ha.1 _) (jsonText_reads v ha.2 _) hs
    constructor
    · simpa [tailText] using key 0
    · intro i hi
      exact ⟨_, by simp [tailText, hi], key i⟩

/-! ## The calls -/

theorem concat_lit {h : Ptr} {t u : Text} (hu : okText (some u)) :
    Triple rel (Str h t) (STRING_concat h (.str u))
      (fun r => ∃∃ t', ((r = 0 ∧ t' = t ++ u) ∨ (r ≠ 0 ∧ t' = t ∧ (¬ rel ∨ maxObj < t.length + u.length + 1))) ⋏ Str h t') := by
  have := STRING_concat_spec (rel := rel) (h := h) (s2 := .str u) (a := some t) (o := some u)
  have e : Arg (.str u) (some u) = emp := Arg_lit' (o := some u) hu
  rw [e] at this
  refine this.conseq (by rw [sep_emp]; exact entails_refl _) fun r => ?_
  refine entails_ex_l fun a' => entails_pand_l fun hE => ?_
  rw [sep_emp]
  rcases hE with ⟨h0, _, c, c', e1, rfl, u', e, rfl⟩ | ⟨h0, rfl, hb⟩
  · cases e; cases e1
    exact entails_ex_r _ (entails_pand_r (entails_refl _) (Or.inl ⟨h0, rfl⟩))
  · refine entails_ex_r t (entails_pand_r (entails_refl _) (Or.inr ⟨h0, rfl, ?_⟩))
    rcases hb with hb | hb | ⟨_, _, e1, e2, hb⟩
    · simp at hb
    · exact Or.inl hb
    · cases e1; cases e2; exact Or.inr hb

theorem concat_str {h g : Ptr} {t u : Text} :
    Triple rel (Str h t ∗ Str g u) (STRING_concat_with_STRING h g)
      (fun r => ∃∃ t', ((r = 0 ∧ t' = t ++ u) ∨ (r ≠ 0 ∧ t' = t ∧ (¬ rel ∨ maxObj < t.length + u.length + 1))) ⋏ Str h t' ∗ Str g u) := by
  refine (STRING_concat_with_STRING_spec_partial (rel := rel) (h := h) (g := g) (a := some t) (b := some u)).conseq (entails_refl _) fun r => ?_
  refine entails_ex_l fun a' => entails_pand_l fun hE => ?_
  rcases hE with ⟨h0, _, c, c', e1, rfl, u', e, rfl⟩ | ⟨h0, rfl, hb⟩
  · cases e; cases e1
    exact entails_ex_r _ (entails_pand_r (entails_refl _) (Or.inl ⟨h0, rfl⟩))
  · refine entails_ex_r t (entails_pand_r (entails_refl _) (Or.inr ⟨h0, rfl, ?_⟩))
    rcases hb with hb | hb | ⟨_, _, e1, e2, hb⟩
    · simp at hb
    · exact Or.inl hb
    · cases e1; cases e2; exact Or.inr hb

theorem delete_str {h : Ptr} {t : Text} : Triple rel (Str h t) (STRING_delete h) (fun _ => emp) :=
  STRING_delete_spec (rel := rel) (h := h) (a := some t)

theorem ok1 (c : UInt8) (h : c ≠ 0) : okText (some [c]) := ⟨by intro hx; simp at hx; exact h hx.symm, by simp [maxObj]⟩

theorem addEntry_spec {res key value : Ptr} {acc kt vt : Text} {i : Nat} {B : Nat} (hB : acc.length + kt.length + vt.length + 3 ≤ B) :
    Triple rel (Str res acc ∗ Str key kt ∗ Str value vt) (addEntry res key value i)
      (fun g => ∃∃ acc', ((g = true ∧ acc' = acc ++ (if i > 0 then [44] else []) ++ kt ++ [58] ++ vt) ∨ (g = false ∧ (¬ rel ∨ maxObj < B))) ⋏
        Str res acc' ∗ Str key kt ∗ Str value vt) := by
  unfold addEntry
  have comma : Triple rel (Str res acc) (if i > 0 then (do let r ← STRING_concat res (.str [44]); pure (decide (r = 0))) else pure true : M Bool)
      (fun c => ∃∃ a', ((c = true ∧ a' = acc ++ (if i > 0 then [44] else [])) ∨ (c = false ∧ (¬ rel ∨ maxObj < B))) ⋏ Str res a') := by
    refine Triple.ite (fun hi => ?_) (fun hi => ?_)
    · step (concat_lit (h := res) (ok1 44 (by decide))) into r
      intro t' hE
      refine Triple.pure (entails_ex_r t' (entails_pand_r (entails_refl _) ?_))
      rcases hE with ⟨rfl, rfl⟩ | ⟨h0, rfl, hb⟩
      · exact Or.inl ⟨by simp, by simp [hi]⟩
      · refine Or.inr ⟨by simp [h0], hb.imp_right fun hb => ?_⟩
        simp at hb; omega
    · exact Triple.pure (entails_ex_r acc (entails_pand_r (entails_refl _) (Or.inl ⟨rfl, by simp [hi]⟩)))
  step comma into c
  intro a1 h1
  have ha1 : c = true → a1.length ≤ acc.length + 1 := by
    intro hc
    rcases h1 with ⟨_, rfl⟩ | ⟨hc', _⟩
    · simp only [List.length_append]; split <;> simp
    · rw [hc] at hc'; simp at hc'
  refine Triple.ite (fun hc => ?_) (fun hc => ?_)
  · rcases h1 with ⟨h1, _⟩ | ⟨_, hb⟩
    · rw [h1] at hc; simp at hc
    · exact Triple.pure (entails_ex_r a1 (entails_pand_r (by sep_cancel) (Or.inr ⟨rfl, hb⟩)))
  have hc : c = true := by simpa using hc
  rcases h1 with ⟨_, h1⟩ | ⟨hc', _⟩
  rotate_left
  · rw [hc] at hc'; simp at hc'
  have ha1 := ha1 hc
  step (concat_str (h := res) (g := key)) into r2
  intro a2 h2
  refine Triple.ite (fun hr => ?_) (fun hr => ?_)
  · rcases h2 with ⟨h2, _⟩ | ⟨_, rfl, hb⟩
    · exact absurd h2 hr
    · exact Triple.pure (entails_ex_r _ (entails_pand_r (by sep_cancel) (Or.inr ⟨rfl, hb.imp_right fun hb => by omega⟩)))
  rcases h2 with ⟨_, rfl⟩ | ⟨h2, _⟩
  rotate_left
  · exact absurd h2 hr
  step (concat_lit (h := res) (ok1 58 (by decide))) into r3
  intro a3 h3
  refine Triple.ite (fun hr => ?_) (fun hr => ?_)
  · rcases h3 with ⟨h3, _⟩ | ⟨_, rfl, hb⟩
    · exact absurd h3 hr
    · refine Triple.pure (entails_ex_r _ (entails_pand_r (by sep_cancel) (Or.inr ⟨rfl, hb.imp_right fun hb => ?_⟩)))
      simp at hb; omega
  rcases h3 with ⟨_, rfl⟩ | ⟨h3, _⟩
  rotate_left
  · exact absurd h3 hr
  step (concat_str (h := res) (g := value)) into r4
  intro a4 h4
  refine Triple.pure (entails_ex_r a4 (entails_pand_r (by sep_cancel) ?_))
  rcases h4 with ⟨rfl, rfl⟩ | ⟨h0, rfl, hb⟩
  · exact Or.inl ⟨by simp, by rw [h1]⟩
  · refine Or.inr ⟨by simp [h0], hb.imp_right fun hb => ?_⟩
    simp at hb; omega

/-- STRING_new_JSON of a string held by the map -/
theorem new_JSON_heap {q : Ptr} {t : Text} :
    Triple rel (CS q t) (STRING_new_JSON (.ofPtr q))
      (fun r => Made Str ((∃ c ∈ t, 128 ≤ c) ∨ ¬ rel ∨ maxObj < (jsonText t).length + 1) (fun u => (∀ c ∈ t, c < 128) ∧ u = jsonText t) r ∗ CS q t) := by
  refine Triple.know (know_heap0 (p := q) (t := t) (by pick)) fun hq0 => ?_
  rw [ofPtr_ne hq0]
  refine (STRING_new_JSON_text (rel := rel) (psz := .heap q 0) (o := some t)).conseq (entails_refl _) fun r => sep_mono ?_ (entails_refl _)
  by_cases h : r = 0
  · subst h; rw [Made_zero, Made_zero]
    refine entails_pand_l fun hb => entails_pand_r (entails_refl _) ?_
    rcases hb with hb | ⟨t', e, hb⟩ | hb | ⟨t', e, hb⟩
    · simp at hb
    · cases e
      refine Or.inl (Decidable.byContradiction fun hc => hb fun c hm => ?_)
      exact Decidable.byContradiction fun h2 => hc ⟨c, hm, UInt8.not_lt.1 h2⟩
    · exact Or.inr (Or.inl hb)
    · cases e; exact Or.inr (Or.inr hb)
  · rw [Made_ne h, Made_ne h]
    refine entails_ex_l fun u => entails_pand_l fun ⟨t', e, h1, h2⟩ => ?_
    cases e
    exact entails_ex_r u (entails_pand_r (entails_refl _) ⟨h1, h2⟩)

theorem jsonLoop_spec {h kp vp : Ptr} {f : Nat} {kps vps : List Nat} {kx vx : List Val} {ps : List (Text × Text)} {res : Ptr} {B : Nat}
    (hk : kps.length = ps.length) (hv : vps.length = ps.length) :
    ∀ fuel i acc, i + fuel = ps.length → acc.length + 6 * charCount (ps.drop i) + 6 * (ps.drop i).length + 3 ≤ B →
    Triple rel (h ↦ [.ptr kp, .ptr vp, .int ps.length, .int f] ∗ kp ↦ (kps.map Val.ptr ++ kx) ∗ vp ↦ (vps.map Val.ptr ++ vx) ∗
        Own CS kps (ps.map Prod.fst) ∗ Own CS vps (ps.map Prod.snd) ∗ Str res acc)
      (jsonLoop h res fuel i)
      (fun r => Made Str ((∃ p ∈ ps.drop i, ¬ ascii p) ∨ ¬ rel ∨ maxObj < B) (fun u => (∀ p ∈ ps.drop i, ascii p) ∧ u = acc ++ tailText i (ps.drop i)) r ∗
        h ↦ [.ptr kp, .ptr vp, .int ps.length, .int f] ∗ kp ↦ (kps.map Val.ptr ++ kx) ∗ vp ↦ (vps.map Val.ptr ++ vx) ∗
        Own CS kps (ps.map Prod.fst) ∗ Own CS vps (ps.map Prod.snd)) := by
  intro fuel
  induction fuel with
  | zero =>
    intro i acc hi hB
    unfold jsonLoop
    refine Triple.know (know_Str (h := res) (by pick)) fun hr => ?_
    rw [List.drop_of_length_le (by omega)]
    refine Triple.pure (Made_ok_sep acc hr.1 (by simp [tailText]) (by sep_cancel))
  | succ fuel ih =>
    intro i acc hi hB
    unfold jsonLoop
    obtain ⟨q, hq⟩ := get_of_lt (l := kps) (i := i) (by omega)
    obtain ⟨q2, hq2⟩ := get_of_lt (l := vps) (i := i) (by omega)
    obtain ⟨p, hp⟩ := get_of_lt (l := ps) (i := i) (by omega)
    obtain ⟨k, v⟩ := p
    have ek := Own_erase (R := CS) (ps := kps) (as := ps.map Prod.fst) (i := i) (p := q) (a := k) hq (by simp [hp])
    have ev := Own_erase (R := CS) (ps := vps) (as := ps.map Prod.snd) (i := i) (p := q2) (a := v) hq2 (by simp [hp])
    have ed : ps.drop i = (k, v) :: ps.drop (i + 1) := by
      obtain ⟨h1, h2⟩ := List.getElem?_eq_some_iff.1 hp
      rw [List.drop_eq_getElem_cons h1, h2]
    have hB' := hB
    rw [ed] at hB' ⊢
    simp only [charCount, List.map_cons, List.sum_cons, List.length_cons] at hB'
    have lk := jsonText_length k
    have lv := jsonText_length v
    simp only [ek, ev] at ih ⊢
    step (loadPtr_spec (p := h) ?_)
    step (loadPtr_spec (p := kp) (arr_get hq))
    step (new_JSON_heap (q := q) (t := k)) into key
    refine Triple.ite (fun h0 => ?_) (fun h0 => ?_)
    · subst h0; rw [Made_zero]; hoist; intro hb
      step (delete_str (h := res))
      refine Triple.pure (Made_fail_sep ?_ (by sep_cancel))
      rcases hb with ⟨c, hc, h2⟩ | hb | hb
      · exact Or.inl ⟨(k, v), by simp, fun ha => absurd (ha.1 c hc) (UInt8.not_lt.2 h2)⟩
      · exact Or.inr (Or.inl hb)
      · exact Or.inr (Or.inr (by omega))
    rw [Made_ne h0]; hoist; rintro kt hka rfl
    step (loadPtr_spec (p := h) ?_)
    step (loadPtr_spec (p := vp) (arr_get hq2))
    step (new_JSON_heap (q := q2) (t := v)) into value
    refine Triple.ite (fun h1 => ?_) (fun h1 => ?_)
    · subst h1; rw [Made_zero]; hoist; intro hb
      step (delete_str (h := res))
      step (delete_str (h := key))
      refine Triple.pure (Made_fail_sep ?_ (by sep_cancel))
      rcases hb with ⟨c, hc, h2⟩ | hb | hb
      · exact Or.inl ⟨(k, v), by simp, fun ha => absurd (ha.2 c hc) (UInt8.not_lt.2 h2)⟩
      · exact Or.inr (Or.inl hb)
      · exact Or.inr (Or.inr (by omega))
    rw [Made_ne h1]; hoist; rintro vt hva rfl
    step (addEntry_spec (res := res) (key := key) (value := value) (acc := acc) (kt := jsonText k) (vt := jsonText v) (i := i) (B := B) (by omega)) into g
    intro acc' hE
    refine Triple.ite (fun hg => ?_) (fun hg => ?_)
    · step (delete_str (h := res))
      step (delete_str (h := value))
      step (delete_str (h := key))
      refine Triple.pure (Made_fail_sep ?_ (by sep_cancel))
      rcases hE with ⟨h2, _⟩ | ⟨_, h2⟩
      · rw [h2] at hg; simp at hg
      · exact Or.inr h2
    rcases hE with ⟨_, rfl⟩ | ⟨h2, _⟩
    rotate_left
    · exact absurd h2 hg
    step (delete_str (h := value))
    step (delete_str (h := key))
    have h3 : (if i > 0 then [(44 : UInt8)] else []).length ≤ 1 := by split <;> simp
    have := ih (i + 1) (acc ++ (if i > 0 then [44] else []) ++ jsonText k ++ [58] ++ jsonText v) (by omega)
      (by simp only [charCount, List.length_append, List.length_cons, List.length_nil]; omega)
    refine this.conseq (by sep_cancel) fun r => sep_mono ?_ (by sep_cancel)
    by_cases hr : r = 0
    · subst hr; rw [Made_zero, Made_zero]
      refine entails_pand_l fun hb => entails_pand_r (entails_refl _) ?_
      exact hb.imp_left fun ⟨p, hp, hn⟩ => ⟨p, by simp [hp], hn⟩
    · rw [Made_ne hr, Made_ne hr]
      refine entails_ex_l fun u => entails_pand_l fun ⟨h1, h2⟩ => entails_ex_r u (entails_pand_r (entails_refl _) ⟨?_, ?_⟩)
      · intro p hp; simp at hp; rcases hp with rfl | hp
        · exact ⟨hka, hva⟩
        · exact h1 p hp
      · rw [h2]; simp [tailText]

/-- C12: `Map_ToJSON` either returns `NULL`, owning nothing, and then the handle was NULL, some key or value is not 7-bit, or
memory ran out (a refused request, or a text larger than the address space), or it returns a new string whose text is one JSON
object whose members are exactly the map's pairs in order; the map is unchanged in all cases. -/
theorem Map_ToJSON_spec {h : Ptr} {a : Option MapV} :
    Triple rel (OMap h a) (Map_ToJSON h)
      (fun r => Made Str (a = none ∨ ∃ m, a = some m ∧ ((∃ p ∈ m.pairs, ¬ ascii p) ∨ ¬ rel ∨ maxObj < 6 * charCount m.pairs + 6 * m.pairs.length + 4))
          (fun u => ∃ m, a = some m ∧ JObject u (m.pairs.map codes)) r ∗ OMap h a) := by
  unfold Map_ToJSON
  cases a with
  | none =>
    simp only [OMap, ORep_none]; hoist; rintro rfl
    rw [if_pos rfl]
    exact Triple.pure (Made_fail_sep (Or.inl trivial) (entails_pand_r (entails_refl _) rfl))
  | some m =>
    simp only [OMap, ORep_some]
    refine Triple.know (know_MapR (h := h) (by pick)) fun hk => ?_
    rw [if_neg hk.1]
    have mk := STRING_construct_spec (rel := rel) (psz := .str [123]) (o := some [123])
    rw [show Arg (.str [123]) (some [123]) = emp from Arg_lit' (o := some [123]) (ok1 123 (by decide))] at mk
    simp only [sep_emp] at mk
    step mk into res
    refine Triple.ite (fun h0 => ?_) (fun h0 => ?_)
    · subst h0; rw [Made_zero]; hoist; intro hb
      refine Triple.pure (Made_fail_sep (Or.inr ⟨m, rfl, ?_⟩) (entails_refl _))
      rcases hb with hb | hb
      · simp at hb
      · exact Or.inr (Or.inl hb)
    rw [Made_ne h0]; hoist; rintro t ht
    cases ht
    -- the loop, as an operation on the map and the result
    have loop : Triple rel (MapR h m ∗ Str res [123]) (do let count ← loadInt h fCount; jsonLoop h res count 0)
        (fun r => Made Str ((∃ p ∈ m.pairs, ¬ ascii p) ∨ ¬ rel ∨ maxObj < 6 * charCount m.pairs + 6 * m.pairs.length + 4)
          (fun u => (∀ p ∈ m.pairs, ascii p) ∧ u = [123] ++ tailText 0 m.pairs) r ∗ MapR h m) := by
      rw [MapR_open]; hoist; intro kp vp hnd
      have close : ∀ P, P ⊢ₕ h ↦ [.ptr kp, .ptr vp, .int m.pairs.length, .int m.filter] ∗ Arr kp m.keys ∗ Arr vp m.vals → P ⊢ₕ ∃∃ kp vp, (m.keys.Nodup) ⋏ h ↦ [.ptr kp, .ptr vp, .int m.pairs.length, .int m.filter] ∗ Arr kp m.keys ∗ Arr vp m.vals :=
        fun P hP => entails_ex_r kp (entails_ex_r vp (entails_pand_r hP hnd))
      by_cases hp : m.pairs = []
      · step (loadInt_spec (p := h) ?_)
        refine Triple.know (know_Str (h := res) (by pick)) fun hr => ?_
        have hz : m.pairs.length = 0 := by simp [hp]
        have e : jsonLoop h res m.pairs.length 0 = pure res := by rw [hz]; rfl
        rw [e]
        refine Triple.pure (Made_ok_sep [123] hr.1 (by simp [hp, tailText]) ?_)
        refine entails_trans ?_ (sep_mono (entails_refl _) (close _ (entails_refl _)))
        sep_cancel
      · have hks : m.keys ≠ [] := by simpa [MapV.keys] using hp
        have hvs : m.vals ≠ [] := by simpa [MapV.vals] using hp
        rw [Arr_ne hks, Arr_ne hvs]
        simp only [Vec]; hoist; intro vps vx kps kx
        refine Triple.know (know_Own (env := vps) (as := m.vals) (R := CS) (by pick)) fun hvl => ?_
        refine Triple.know (know_Own (env := kps) (as := m.keys) (R := CS) (by pick)) fun hkl => ?_
        step (loadInt_spec (p := h) ?_)
        have kl := keys_length m
        have vl := vals_length m
        have hd := jsonLoop_spec (rel := rel) (h := h) (kp := kp) (vp := vp) (f := m.filter) (kps := kps) (vps := vps) (kx := kx) (vx := vx) (ps := m.pairs) (res := res)
          (B := 6 * charCount m.pairs + 6 * m.pairs.length + 4) (by omega) (by omega) m.pairs.length 0 [123] (by omega) (by simp; omega)
        simp only [List.drop_zero] at hd
        refine hd.conseq (by simp only [MapV.keys, MapV.vals]; sep_cancel) fun r => sep_mono (entails_refl _) (close _ ?_)
        refine entails_trans ?_ (sep_mono (entails_refl _) (sep_mono (Arr_intro (ps := kps) (ex := kx) hks) (Arr_intro (ps := vps) (ex := vx) hvs)))
        simp only [MapV.keys, MapV.vals]
        sep_cancel
    rw [← bind_assoc]
    step loop into res2
    refine Triple.ite (fun h1 => ?_) (fun h1 => ?_)
    · subst h1; rw [Made_zero]; hoist; intro hb
      exact Triple.pure (Made_fail_sep (Or.inr ⟨m, by trivial, hb⟩) (entails_refl _))
    rw [Made_ne h1]; hoist; rintro u hasc rfl
    step (concat_lit (h := res2) (ok1 125 (by decide))) into r3
    intro u2 hE
    refine Triple.ite (fun hr => ?_) (fun hr => ?_)
    · step (delete_str (h := res2))
      refine Triple.pure (Made_fail_sep (Or.inr ⟨m, by trivial, Or.inr ?_⟩) (by sep_cancel))
      rcases hE with ⟨h2, _⟩ | ⟨_, rfl, hb⟩
      · exact absurd h2 hr
      · refine hb.imp_right fun hb => ?_
        have := tailText_length 0 m.pairs
        simp at hb; omega
    · rcases hE with ⟨_, rfl⟩ | ⟨h2, _⟩
      · refine Triple.pure (Made_ok_sep _ h1 ⟨m, by trivial, ?_⟩ (by sep_cancel))
        by_cases hp : m.pairs = []
        · exact Or.inl (by simp [hp, tailText])
        · exact Or.inr ⟨tailText 0 m.pairs ++ [125], by simp, (tailText_reads m.pairs hasc hp []).1⟩
      · exact absurd h2 hr

/-- Non-vacuity: `{"a\n":"b","c":""}` from a map with two pairs; `{}` from an empty one; `NULL` for a byte ≥ 128. -/
example : outcome (do
      let m ← Map_Create 0
      let j0 ← Map_ToJSON m
      let s0 ← cstr (.ofPtr (← STRING_c_str j0))
      let _ ← Map_Add onlyA m (.str [97, 10]) (.str [98])
      let _ ← Map_Add onlyA m (.str [99]) (.str [])
      let j ← Map_ToJSON m
      let s ← cstr (.ofPtr (← STRING_c_str j))
      let _ ← Map_Add onlyA m (.str [100]) (.str [200])
      let j2 ← Map_ToJSON m
      pure (s0, s, j2)) (St.start bump) =
    some (.ok ([123, 125], [123, 34, 97, 92, 117, 48, 48, 48, 65, 34, 58, 34, 98, 34, 44, 34, 99, 34, 58, 34, 34, 125], 0)) := by decide +kernel

end Verif.Map
