import Verif.Wce.HookSpec
import Verif.Mb.Send
import Verif.Tac
set_option linter.unusedSimpArgs false
set_option linter.unusedVariables false
/-! # C110, C111: the certificate of a server -/
namespace Verif.Wce
open Verif.Sas (text)
open Verif.Mb (Bytes)

variable {rel : Prop} {api : Crypto} {R : CReps} {Decodes : Text → Cert → Prop}

theorem holdAll_append {l : List Item} : ∀ {es fs : List CEv}, holdAll l (es ++ fs) = (holdAll l es).bind fun l' => holdAll l' fs := by
  intro es
  induction es generalizing l with
  | nil => intro fs; rfl
  | cons e es ih =>
    intro fs
    show (hold l e).bind (fun l' => holdAll l' (es ++ fs)) = ((hold l e).bind fun l' => holdAll l' es).bind _
    cases h : hold l e with
    | none => rfl
    | some l' => exact ih

theorem tried_append (es fs : List CEv) : tried (es ++ fs) = tried es ++ tried fs := by simp [tried]
theorem known_append (es fs : List CEv) : known (es ++ fs) = known es ++ known fs := by simp [known]

/-- what is held during a search -/
def holding (h q p : Nat) : List Item := if p = 0 then [.store h, .ctx q] else [.ctx p, .store h, .ctx q]

theorem hold_find {h q p r : Nat} : hold (holding h q p) (.find h q p r) = some (holding h q r) := by
  unfold hold holding
  by_cases hp : p = 0 <;> by_cases hr : r = 0 <;> simp [hp, hr]
theorem hold_compare {h q p : Nat} (hp : p ≠ 0) : hold (holding h q p) (.compare p q) = some (holding h q p) := by
  unfold hold holding; simp [hp]

/-- where the search is -/
def Prev (R : CReps) (h : Nat) (all : List Cert) (p : Ptr) (l : List Cert) : HProp :=
  if p = 0 then (l = all) ⋏ emp else ∃∃ d : Cert, R.Ctx p d (some (h, l))
theorem Prev_zero {h : Nat} {all l : List Cert} : Prev R h all 0 l = ((l = all) ⋏ emp) := if_pos rfl
theorem Prev_ne {h p : Nat} {all l : List Cert} (hp : p ≠ 0) : Prev R h all p l = ∃∃ d : Cert, R.Ctx p d (some (h, l)) := if_neg hp

/-- the context in hand -/
def Hand (R : CReps) (p : Ptr) : HProp := if p = 0 then emp else ∃∃ (d : Cert) (k : Option (Nat × List Cert)), R.Ctx p d k
theorem Hand_zero : Hand R 0 = emp := if_pos rfl
theorem Hand_ne {p : Nat} (hp : p ≠ 0) : Hand R p = ∃∃ (d : Cert) (k : Option (Nat × List Cert)), R.Ctx p d k := if_neg hp

theorem Vouches.issuer {opt : Nat} {c d : Cert} (h : Vouches opt c d) : d.issuer = c.issuer := by
  rcases h with ⟨_, h⟩ | ⟨_, h, _⟩ <;> exact h

/-- what the search of a store says -/
def SearchE (rel : Prop) (opt : Nat) (c : Cert) (l : List Cert) (x : Bool × Ptr) : Prop :=
  (x.1 = true ∧ x.2 ≠ 0 ∧ ∃ d ∈ l, Vouches opt c d) ∨ (x.1 = false ∧ x.2 = 0 ∧ (rel → ∀ d ∈ l, ¬ Vouches opt c d))

theorem SearchE.later {opt : Nat} {c : Cert} {l l1 l2 : List Cert} {d : Cert} {x : Bool × Ptr} (h : SearchE rel opt c l2 x) (hl : l = l1 ++ d :: l2)
    (h1 : ∀ e ∈ l1, e.issuer ≠ c.issuer) (hd : ¬ Vouches opt c d) : SearchE rel opt c l x := by
  subst hl
  rcases h with ⟨a, b, e, he, hv⟩ | ⟨a, b, hv⟩
  · exact Or.inl ⟨a, b, e, by simp [he], hv⟩
  · refine Or.inr ⟨a, b, fun hr e he hve => ?_⟩
    simp only [List.mem_append, List.mem_cons] at he
    rcases he with he | rfl | he
    · exact h1 e he hve.issuer
    · exact hd hve
    · exact hv hr e he hve

section
variable (H : CHonours rel api R Decodes)

include H in
theorem find_spec {h q p : Nat} {c : Cert} {o : Option (Nat × List Cert)} {all l : List Cert} {tr : List CEv} :
    Triple rel (R.Net tr ∗ R.Store h all ∗ R.Ctx q c o ∗ Prev R h all p l) (api.find h q p) (Found rel R h q p c all l o tr) := by
  by_cases hp : p = 0
  · subst hp
    rw [Prev_zero]; hoist; rintro rfl
    exact H.first h l q c o tr
  · rw [Prev_ne hp]; hoist; intro d
    exact H.next h all q c o p d l tr hp

/-- what the search of a store leaves -/
def Searched (rel : Prop) (R : CReps) (opt g h q p : Nat) (c : Cert) (o : Option (Nat × List Cert)) (all l : List Cert) (tr : List CEv) (x : Bool × Ptr) : HProp :=
  ∃∃ evs : List CEv, (tried evs = [] ∧ known evs = [] ∧ SearchE rel opt c l x ∧ holdAll (holding h q p) evs = some (holding h q x.2)) ⋏
    R.Net (tr ++ evs) ∗ R.Store h all ∗ R.Ctx q c o ∗ g ↦ [.int opt] ∗ Hand R x.2

/-- a round that finds nothing that vouches, and the rounds after it -/
theorem Searched.again {opt g h q p r : Nat} {c : Cert} {o : Option (Nat × List Cert)} {all l1 l2 : List Cert} {d : Cert} {m : M (Bool × Ptr)} {tr evs : List CEv}
    (ih : ∀ tr, Triple rel (R.Net tr ∗ R.Store h all ∗ R.Ctx q c o ∗ Prev R h all r l2 ∗ g ↦ [.int opt]) m (Searched rel R opt g h q r c o all l2 tr))
    (hr : r ≠ 0) (hb : ∀ e ∈ l1, e.issuer ≠ c.issuer) (hv : ¬ Vouches opt c d) (ht : tried evs = []) (hk : known evs = [])
    (he : holdAll (holding h q p) evs = some (holding h q r)) :
    Triple rel (R.Net (tr ++ evs) ∗ R.Store h all ∗ R.Ctx q c o ∗ R.Ctx r d (some (h, l2)) ∗ g ↦ [.int opt]) m (Searched rel R opt g h q p c o all (l1 ++ d :: l2) tr) := by
  refine (ih (tr ++ evs)).conseq ?_ fun x => ?_
  · rw [Prev_ne hr]
    simp only [hex_sep, sep_hex]
    exact entails_ex_r d (entails_refl _)
  · unfold Searched
    refine entails_ex_l fun es => entails_pand_l fun ⟨h1, h2, h3, h4⟩ => entails_ex_r (evs ++ es) (entails_pand_r ?_ ⟨?_, ?_, h3.later rfl hb hv, ?_⟩)
    · rw [List.append_assoc]; exact entails_refl _
    · rw [tried_append, ht, h1]; rfl
    · rw [known_append, hk, h2]; rfl
    · rw [holdAll_append, he]; exact h4

include H in
theorem body {opt g h q : Nat} {c : Cert} {o : Option (Nat × List Cert)} {all l : List Cert}
    (ih : ∀ (l2 : List Cert), l2.length < l.length → ∀ (r : Ptr) tr, Triple rel (R.Net tr ∗ R.Store h all ∗ R.Ctx q c o ∗ Prev R h all r l2 ∗ g ↦ [.int opt])
      (hookFind api g h q r) (Searched rel R opt g h q r c o all l2 tr)) (p : Ptr) (tr : List CEv) :
    Triple rel (R.Net tr ∗ R.Store h all ∗ R.Ctx q c o ∗ Prev R h all p l ∗ g ↦ [.int opt]) (hookFind api g h q p) (Searched rel R opt g h q p c o all l tr) := by
  unfold hookFind
  step (find_spec H (h := h) (q := q) (p := p) (c := c) (o := o) (all := all) (l := l) (tr := tr)) into r
  unfold Found
  by_cases hr : r = 0
  · subst hr
    rw [if_pos rfl]; hoist; intro hn
    rw [if_neg (by simp)]
    refine Triple.pure (entails_ex_r [.find h q p 0] (entails_pand_r ?_ ⟨rfl, rfl, Or.inr ⟨rfl, rfl, fun hr d hd hv => hn hr d hd hv.issuer⟩, ?_⟩))
    · rw [Hand_zero]; sep_cancel
    · show (hold _ _).bind _ = _
      rw [hold_find]; rfl
  rw [if_neg hr]
  hoist
  intro d l1 l2 hll hi hb
  subst hll
  have hf : holdAll (holding h q p) [.find h q p r] = some (holding h q r) := by
    show (hold _ _).bind _ = _
    rw [hold_find]; rfl
  have hlen : l2.length < (l1 ++ d :: l2).length := by simp; omega
  have hmem : d ∈ l1 ++ d :: l2 := by simp
  rw [if_pos hr]
  step (loadInt_spec (b := [.int opt]) (off := 0) rfl)
  by_cases ho : opt = 1
  · rw [if_pos ho]
    refine Triple.pure (entails_ex_r [.find h q p r] (entails_pand_r ?_ ⟨rfl, rfl, Or.inl ⟨rfl, hr, d, hmem, Or.inl ⟨ho, hi⟩⟩, hf⟩))
    rw [Hand_ne hr]
    simp only [sep_hex]
    exact entails_ex_r d (entails_ex_r (some (h, l2)) (by sep_cancel))
  rw [if_neg ho]
  by_cases hs : opt = 2
  · rw [if_pos hs]
    step (H.compare r d (some (h, l2)) q c o (tr ++ [.find h q p r])) into b
    intro hbb
    have hf2 : holdAll (holding h q p) [.find h q p r, .compare r q] = some (holding h q r) := by
      show (hold _ _).bind _ = _
      rw [hold_find]
      show (hold _ _).bind _ = _
      rw [hold_compare hr]; rfl
    by_cases hb' : b = true
    · rw [if_pos hb']
      have hm : d.issuer = c.issuer ∧ d.serial = c.serial := by rw [← hbb]; exact hb'
      refine Triple.pure (entails_ex_r [.find h q p r, .compare r q] (entails_pand_r ?_ ⟨rfl, rfl, Or.inl ⟨rfl, hr, d, hmem, Or.inr ⟨hs, hm⟩⟩, hf2⟩))
      rw [Hand_ne hr]
      simp only [sep_hex]
      refine entails_ex_r d (entails_ex_r (some (h, l2)) ?_)
      simp only [List.append_assoc, List.cons_append, List.nil_append]
      sep_cancel
    · rw [if_neg hb']
      have hv : ¬ Vouches opt c d := by
        rintro (⟨h1, _⟩ | ⟨_, hm⟩)
        · exact ho h1
        · exact hb' (by rw [hbb]; exact hm)
      refine Triple.pre (Searched.again (evs := [.find h q p r, .compare r q]) (fun tr => ih l2 hlen r tr) hr hb hv rfl rfl hf2) ?_
      simp only [List.append_assoc, List.cons_append, List.nil_append]
      sep_cancel
  · rw [if_neg hs]
    have hv : ¬ Vouches opt c d := by
      rintro (⟨h1, _⟩ | ⟨h1, _⟩)
      · exact ho h1
      · exact hs h1
    exact Triple.pre (Searched.again (evs := [.find h q p r]) (fun tr => ih l2 hlen r tr) hr hb hv rfl rfl hf) (by sep_cancel)

include H in
theorem hookFind_spec {opt g h q : Nat} {c : Cert} {o : Option (Nat × List Cert)} {all : List Cert} : ∀ (n : Nat) (l : List Cert), l.length ≤ n → ∀ (p : Ptr) (tr : List CEv),
    Triple rel (R.Net tr ∗ R.Store h all ∗ R.Ctx q c o ∗ Prev R h all p l ∗ g ↦ [.int opt]) (hookFind api g h q p)
      (Searched rel R opt g h q p c o all l tr) := by
  intro n
  induction n with
  | zero =>
    intro l hl p tr
    exact body H (fun l2 hl2 => absurd hl2 (by omega)) p tr
  | succ n ih =>
    intro l hl p tr
    exact body H (fun l2 hl2 r tr => ih l2 (by omega) r tr) p tr

/-- the loop over the stores -/
def Stored (rel : Prop) (R : CReps) (opt g q : Nat) (c : Cert) (o : Option (Nat × List Cert)) (names : List Text) (tr : List CEv) (x : Bool × Ptr) : HProp :=
  ∃∃ evs : List CEv, (tried evs <+: names ∧ (x.1 = false → tried evs = names) ∧ SearchE rel opt c (known evs) x ∧
      holdAll [.ctx q] evs = some (if x.2 = 0 then [.ctx q] else [.ctx x.2, .ctx q])) ⋏
    R.Net (tr ++ evs) ∗ R.Ctx q c o ∗ g ↦ [.int opt] ∗ Hand R x.2

theorem holdAll_cons {l l' : List Item} {e : CEv} {es : List CEv} (h : hold l e = some l') : holdAll l (e :: es) = holdAll l' es := by
  show (hold l e).bind _ = _
  rw [h]; rfl

theorem SearchE.more {opt : Nat} {c : Cert} {l1 l2 : List Cert} {x y : Bool × Ptr} (h1 : SearchE rel opt c l1 x) (hx : ¬ x.1 = true) (h2 : SearchE rel opt c l2 y) :
    SearchE rel opt c (l1 ++ l2) y := by
  rcases h1 with ⟨a, _⟩ | ⟨_, _, h1⟩
  · exact absurd a hx
  rcases h2 with ⟨a, b, d, hd, hv⟩ | ⟨a, b, h2⟩
  · exact Or.inl ⟨a, b, d, by simp [hd], hv⟩
  · refine Or.inr ⟨a, b, fun hr d hd => ?_⟩
    rcases List.mem_append.1 hd with hd | hd
    · exact h1 hr d hd
    · exact h2 hr d hd

include H in
theorem hookStores_spec {opt g q : Nat} {c : Cert} {o : Option (Nat × List Cert)} : ∀ (names : List Text) (tr : List CEv),
    Triple rel (R.Net tr ∗ R.Ctx q c o ∗ g ↦ [.int opt]) (hookStores api g q names 0) (Stored rel R opt g q c o names tr) := by
  intro names
  induction names with
  | nil =>
    intro tr
    refine Triple.pure (entails_ex_r [] (entails_pand_r ?_ ⟨List.prefix_refl _, fun _ => rfl, Or.inr ⟨rfl, rfl, fun _ d hd => by cases hd⟩, rfl⟩))
    rw [List.append_nil, Hand_zero]; sep_cancel
  | cons name names ih =>
    intro tr
    unfold hookStores
    step (H.openStore name tr) into h
    by_cases hh : h = 0
    · subst hh
      simp only [if_true]
      refine (ih (tr ++ [.openStore name 0 []])).conseq (by sep_cancel) fun x => ?_
      unfold Stored
      refine entails_ex_l fun es => entails_pand_l fun ⟨h1, h2, h3, h4⟩ => entails_ex_r (.openStore name 0 [] :: es) (entails_pand_r ?_
        ⟨List.cons_prefix_cons.2 ⟨rfl, h1⟩, fun hx => congrArg _ (h2 hx), h3, ?_⟩)
      · simp only [List.append_assoc, List.cons_append, List.nil_append]; exact entails_refl _
      · rw [holdAll_cons (l' := [.ctx q]) rfl]; exact h4
    simp only [if_neg hh]
    hoist; intro l
    have hop : hold [.ctx q] (.openStore name h l) = some (holding h q 0) := by
      simp [hold, holding, hh]
    step (Triple.pre (hookFind_spec H (opt := opt) (g := g) (h := h) (q := q) (c := c) (o := o) (all := l) l.length l (Nat.le_refl _) 0 (tr ++ [.openStore name h l]))
      (by rw [Prev_zero]; simp only [sep_pand, pand_sep, emp_sep, sep_emp]; exact entails_pand_r (entails_refl _) trivial :
        R.Net (tr ++ [.openStore name h l]) ∗ R.Store h l ∗ R.Ctx q c o ∗ g ↦ [.int opt] ⊢ₕ _)) into x
    unfold Searched
    hoist
    intro es ht hk hs ha
    step (H.close h l (tr ++ [.openStore name h l] ++ es))
    have hcl : hold (holding h q x.2) (.close h) = some (if x.2 = 0 then [.ctx q] else [.ctx x.2, .ctx q]) := by
      unfold hold holding
      by_cases hx : x.2 = 0 <;> simp [hx]
    have hall : holdAll [.ctx q] (.openStore name h l :: (es ++ [.close h])) = some (if x.2 = 0 then [.ctx q] else [.ctx x.2, .ctx q]) := by
      rw [holdAll_cons hop, holdAll_append, ha]
      show (hold _ _).bind _ = _
      rw [hcl]; rfl
    have htr : tried (.openStore name h l :: (es ++ [.close h])) = [name] := by
      show name :: tried (es ++ [.close h]) = _
      rw [tried_append, ht]; rfl
    have hkn : known (.openStore name h l :: (es ++ [.close h])) = l := by
      show (if h = 0 then [] else l) ++ known (es ++ [.close h]) = _
      rw [if_neg hh, known_append, hk]; simp [known]
    by_cases hx : x.1 = true
    · rw [if_pos hx]
      refine Triple.pure (entails_ex_r (.openStore name h l :: (es ++ [.close h])) (entails_pand_r ?_ ⟨?_, ?_, ?_, hall⟩))
      · simp only [List.append_assoc, List.cons_append, List.nil_append]; sep_cancel
      · rw [htr]; exact List.cons_prefix_cons.2 ⟨rfl, List.nil_prefix⟩
      · intro h; rw [hx] at h; cases h
      · rw [hkn]; exact hs
    · rw [if_neg hx]
      have hx2 : x.2 = 0 := by
        rcases hs with ⟨h, _⟩ | ⟨_, h, _⟩
        · exact absurd h hx
        · exact h
      rw [hx2, Hand_zero]
      rw [hx2, if_pos rfl] at hall
      refine (ih (tr ++ [.openStore name h l] ++ es ++ [.close h])).conseq (by sep_cancel) fun y => ?_
      unfold Stored
      refine entails_ex_l fun fs => entails_pand_l fun ⟨h1, h2, h3, h4⟩ => entails_ex_r (.openStore name h l :: (es ++ [.close h]) ++ fs) (entails_pand_r ?_ ⟨?_, ?_, ?_, ?_⟩)
      · simp only [List.append_assoc, List.cons_append, List.nil_append]; exact entails_refl _
      · rw [tried_append, htr]; exact List.cons_prefix_cons.2 ⟨rfl, h1⟩
      · intro hy; rw [tried_append, htr, h2 hy]; rfl
      · rw [known_append, hkn]; exact hs.more hx h3
      · rw [holdAll_append, hall]; exact h4

include H in
/-- The function is correct: what it returns, and the calls it makes. -/
theorem SSLValidateCertHook_spec {opt g type chain d : Nat} {bs : Text} {tr : List CEv} (hd : d ≠ 0) :
    Triple rel (R.Net tr ∗ g ↦ [.int opt] ∗ chain ↦ [.int bs.length, .ptr d] ∗ d ↦ bytesV bs) (SSLValidateCertHook api g type chain) (fun r =>
      ∃∃ evs : List CEv, (HookE rel Decodes opt type bs r evs) ⋏ R.Net (tr ++ evs) ∗ g ↦ [.int opt] ∗ chain ↦ [.int bs.length, .ptr d] ∗ d ↦ bytesV bs) := by
  unfold SSLValidateCertHook
  by_cases ht : type = 1
  · rw [if_neg (by simp [ht])]
    step (loadInt_spec (b := [.int opt]) (off := 0) rfl)
    by_cases ho : opt = 0
    · rw [if_pos ho]
      refine Triple.pure (entails_ex_r [] (entails_pand_r ?_ ?_))
      · rw [List.append_nil]; sep_cancel
      · unfold HookE; rw [if_neg (by simp [ht]), if_pos ho]; exact ⟨rfl, rfl⟩
    rw [if_neg ho]
    step (loadPtr_spec (b := [.int bs.length, .ptr d]) (off := 1) rfl)
    step (loadInt_spec (b := [.int bs.length, .ptr d]) (off := 0) rfl)
    rw [show CharPtr.ofPtr d = .heap d 0 from if_neg hd]
    step (H.create (d ↦ bytesV bs) (.heap d 0) bs tr (Bytes.pts (List.prefix_refl _))) into q
    by_cases hq : q = 0
    · subst hq
      simp only [if_true]
      hoist; intro hn
      refine Triple.pure (entails_ex_r [.create 0] (entails_pand_r (by sep_cancel) ?_))
      unfold HookE; rw [if_neg (by simp [ht]), if_neg ho]
      exact Or.inl ⟨rfl, rfl, hn⟩
    simp only [if_neg hq]
    hoist; intro c hc
    step (hookStores_spec H (opt := opt) (g := g) (q := q) (c := c) (o := none) systemStores (tr ++ [.create q])) into x
    unfold Stored
    hoist
    intro es h1 h2 h3 h4
    have hcr : hold [] (.create q) = some [.ctx q] := by simp [hold, hq]
    by_cases hx : x.2 = 0
    · rw [hx, Hand_zero, if_neg (by simp)]
      rw [hx, if_pos rfl] at h4
      step (H.free q c none (tr ++ [.create q] ++ es))
      refine Triple.pure (entails_ex_r (.create q :: (es ++ [.free q])) (entails_pand_r ?_ ?_))
      · simp only [List.append_assoc, List.cons_append, List.nil_append]; sep_cancel
      · unfold HookE; rw [if_neg (by simp [ht]), if_neg ho]
        refine Or.inr ⟨c, hc, ?_, ?_, ?_⟩
        · rw [holdAll_cons hcr, holdAll_append, h4]
          show (hold _ _).bind _ = _
          simp [hold, holdAll]
        · show tried (es ++ [.free q]) <+: _
          rw [show tried (es ++ [.free q]) = tried es by rw [tried_append]; simp [tried]]
          exact h1
        · show (_ ∧ ∃ d ∈ known (es ++ [.free q]), _) ∨ (_ ∧ tried (es ++ [.free q]) = _ ∧ (_ → ∀ d ∈ known (es ++ [.free q]), _))
          have e1 : tried (es ++ [.free q]) = tried es := by rw [tried_append]; simp [tried]
          have e2 : known (es ++ [.free q]) = known es := by rw [known_append]; simp [known]
          rw [e1, e2]
          rcases h3 with ⟨_, h, _⟩ | ⟨hf, _, hv⟩
          · exact absurd hx h
          · refine Or.inr ⟨by rw [hf]; rfl, h2 hf, hv⟩
    · rw [if_pos hx, Hand_ne hx]
      rw [if_neg hx] at h4
      hoist; intro d' k
      step (H.free x.2 d' k (tr ++ [.create q] ++ es))
      step (H.free q c none (tr ++ [.create q] ++ es ++ [.free x.2]))
      refine Triple.pure (entails_ex_r (.create q :: (es ++ [.free x.2, .free q])) (entails_pand_r ?_ ?_))
      · simp only [List.append_assoc, List.cons_append, List.nil_append]; sep_cancel
      · unfold HookE; rw [if_neg (by simp [ht]), if_neg ho]
        have e1 : tried (es ++ [.free x.2, .free q]) = tried es := by rw [tried_append]; simp [tried]
        have e2 : known (es ++ [.free x.2, .free q]) = known es := by rw [known_append]; simp [known]
        refine Or.inr ⟨c, hc, ?_, ?_, ?_⟩
        · rw [holdAll_cons hcr, holdAll_append, h4]
          show (hold _ _).bind _ = _
          simp [hold, holdAll]
        · show tried (es ++ [.free x.2, .free q]) <+: _
          rw [e1]; exact h1
        · show (_ ∧ ∃ d ∈ known (es ++ [.free x.2, .free q]), _) ∨ _
          rw [e2]
          rcases h3 with ⟨hf, _, hv⟩ | ⟨_, h, _⟩
          · exact Or.inl ⟨by rw [hf]; rfl, hv⟩
          · exact absurd h hx
  · rw [if_pos ht]
    refine Triple.pure (entails_ex_r [] (entails_pand_r ?_ ?_))
    · rw [List.append_nil]; exact entails_refl _
    · unfold HookE; rw [if_pos ht]; exact ⟨rfl, rfl⟩
end
end Verif.Wce
