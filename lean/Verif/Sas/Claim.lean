import Verif.Sas.Props
import Verif.Hmac.Sha256Cor
/-!
# The claim C39, a run, and where the claim fails
-/
set_option linter.unusedVariables false
namespace Verif.Sas
open Verif.Sha Verif.Hmac Verif.Buffer Verif.Strings Verif.Base64 Verif.Url Verif.Crt
variable {rel : Prop}

/-- NULL or the documented token. -/
def Claim (rel : Prop) (k s n : Option (List UInt8)) (expiry : UInt64) (P : HProp) (r : Ptr) : HProp :=
  if r = 0 then (¬ rel ∨ k = none ∨ s = none ∨ n = none ∨ k = some [] ∨ maxObj ≤ (s.getD []).length + (n.getD []).length + 500) ⋏ P
  else ∃∃ t, (∃ kt kb st nt ex, k = some kt ∧ s = some st ∧ n = some nt ∧ Decodes kt kb ∧ IsDecimal expiry.toNat ex ∧ t = token kb st nt ex) ⋏
    (Str r t ∗ P)

theorem enc1_le (c : UInt8) : (enc1 c).length ≤ 6 := (enc1_len c).2

theorem encode_le (t : List UInt8) : (encode t).length ≤ 6 * t.length := by
  induction t with
  | nil => simp [encode]
  | cons c t ih => rw [encode_cons, List.length_append, List.length_cons]; have := enc1_le c; omega

theorem sigX_le (kb st ex : List UInt8) : (sigX kb st ex).length ≤ 264 := by
  unfold sigX
  refine Nat.le_trans (encode_le _) ?_
  rw [rfc4648_length, show (rfc2104 Fips.SHA256 (effKey kb) (effText (st ++ ascii "\n" ++ ex))).length = 32 from (USHA_sizes .sha256).2.2.2 _]
  decide

theorem isDecimal_le {n : UInt64} {ex : List UInt8} (h : IsDecimal n.toNat ex) : ex.length ≤ 20 := by
  rw [h.unique]
  exact decimal_length_64 _ (by have := n.toNat_lt; omega)

theorem tokenOf_le (kb st nt ex : List UInt8) (h : ex.length ≤ 20) : (tokenOf (sigX kb st ex) st nt ex).length + 1 ≤ st.length + nt.length + 500 := by
  have := sigX_le kb st ex
  unfold tokenOf
  simp only [List.length_append]
  have e1 : (ascii "SharedAccessSignature sr=").length = 25 := rfl
  have e2 : (ascii "&sig=").length = 5 := rfl
  have e3 : (ascii "&se=").length = 4 := rfl
  have e4 : (ascii "&skn=").length = 5 := rfl
  omega

/-- C39 for an allocator that does not refuse: every call whose key is a base64 text gives the documented token, or NULL for one of the
documented reasons, and no memory is lost.  Missing: key texts that are not base64 (the decoder then may read or write out of bounds, C22), scopes
of about 2³² bytes (C38), and refused allocations, where a block may be lost: see `SASToken_Create_leaks`, and `SASToken_Create_spec` for
what exactly can be lost. -/
theorem SASToken_Create_partial {l : Locals} (ht : Sized l.tctx) (hs : Sized l.ctx.shaContext) {te key scope keyName : Ptr}
    {k s n : Option (List UInt8)} {expiry : UInt64} {P : HProp} {b : Block} (hb : b.length = 32) (hrel : rel)
    (hk : Access P key k) (hsc : Access P scope s) (hn : Access P keyName n) (hd : ∀ kt, k = some kt → ∃ kb, Decodes kt kb ∧ kb.length < 2 ^ 31)
    (hl : ∀ st, s = some st → st.length + 21 < 2 ^ 32) :
    Triple rel (P ∗ te ↦ b) (SASToken_Create l te key scope keyName expiry) (Claim rel k s n expiry P) := by
  refine (SASToken_Create_spec ht hs hb hk hsc hn (fun kt h => (hd kt h).imp fun _ h => h.1)).conseq (entails_refl _) fun r => ?_
  refine entails_ex_l fun lost => entails_pand_l fun hlost => ?_
  have he : lost = emp := by
    rcases hlost with h | ⟨h, -⟩
    · exact h
    · exact (h hrel).elim
  subst he
  unfold Claim
  by_cases hr : r = 0
  · subst hr
    rw [if_pos rfl, Made_zero, pand_sep, emp_sep, sep_emp]
    refine entails_pand_l fun h => entails_pand_r (entails_refl _) ?_
    rcases h with h | h | h | h | h | ⟨kt, kb, st, nt, ex, rfl, rfl, rfl, h1, h2, h⟩
    · exact Or.inl h
    · exact Or.inr (Or.inl h)
    · exact Or.inr (Or.inr (Or.inl h))
    · exact Or.inr (Or.inr (Or.inr (Or.inl h)))
    · exact Or.inr (Or.inr (Or.inr (Or.inr (Or.inl h))))
    · have := tokenOf_le kb st nt ex (isDecimal_le h2)
      simp only [Option.getD]
      exact Or.inr (Or.inr (Or.inr (Or.inr (Or.inr (by omega)))))
  · rw [if_neg hr, Made_ne hr, hex_sep]
    refine entails_ex_l fun t => ?_
    rw [pand_sep, sep_emp]
    refine entails_pand_l fun h => entails_ex_r t (entails_pand_r (entails_refl _) ?_)
    obtain ⟨kt, kb, st, nt, ex, rfl, rfl, rfl, -, h1, h2, rfl⟩ := h
    refine ⟨kt, kb, st, nt, ex, rfl, rfl, rfl, h1, h2, ?_⟩
    obtain ⟨kb', h3, h4⟩ := hd kt rfl
    obtain rfl := h1.unique h3
    have h5 := hl st rfl
    have h6 := isDecimal_le h2
    have h7 : (st ++ ascii "\n" ++ ex).length < 2 ^ 32 := by
      simp only [List.length_append, show (ascii "\n").length = 1 from rfl]; omega
    rw [token_eq, signature, sigX, effKey_small h4, effText_small h7]

/-! ## A run -/

/-- The three strings and the array of the example. -/
def demo (key scope name : List UInt8) (expiry : UInt64) : M Ptr := do
  let k ← STRING_construct (.str key)
  let s ← STRING_construct (.str scope)
  let n ← STRING_construct (.str name)
  let te ← malloc 32
  SASToken_Create junkL te k s n expiry

/-- A complete token (computed independently), made by the model. -/
theorem demo_token :
    outcome (do
      let r ← demo (ascii "c2VjcmV0") (ascii "a.net/d") (ascii "owner") 1500000000
      let p ← STRING_c_str r
      cstr (.ofPtr p)) (St.start bump) =
    some (.ok (ascii "SharedAccessSignature sr=a.net/d&sig=B1OdFApxlNaF7vty%2fqhD2kNAt4AEF63TdycdaFixdsE%3d&se=1500000000&skn=owner")) := by
  decide +kernel

/-- C39 is false of the code: if the request for the last word needed by the percent-encoder is refused, the call returns NULL and the encoded
signature (here at address 21) stays allocated with no pointer to it. -/
theorem SASToken_Create_leaks :
    outcome (do
      let r ← demo (ascii "c2VjcmV0") (ascii "a.net/d") (ascii "owner") 1500000000
      let v ← loadN 21 0 5
      pure (r, v)) (St.start fun t _ _ => if t = 21 then 0 else t + 1) = some (.ok (0, bytesV (ascii "B1OdF"))) := by
  decide +kernel

/-- The same handle may be used for the scope and the name of the key. -/
example {key s : Ptr} {kt st : List UInt8} : Access (Str key kt ∗ Str s st) s (some st) ∧ Access (Str key kt ∗ Str s st) key (some kt) :=
  ⟨⟨_, sep_comm _ _⟩, ⟨_, rfl⟩⟩

example : Decodes (ascii "c2VjcmV0") (ascii "secret") := by
  have h : ∀ c v, v < 64 → alphabet v = c → IsDigit c v := fun c v a b => ⟨a, b⟩
  exact Decodes.four (v1 := 28) (v2 := 54) (v3 := 21) (v4 := 35) (h _ _ (by decide) rfl) (h _ _ (by decide) rfl) (h _ _ (by decide) rfl) (h _ _ (by decide) rfl)
    (Decodes.four (v1 := 28) (v2 := 38) (v3 := 21) (v4 := 52) (h _ _ (by decide) rfl) (h _ _ (by decide) rfl) (h _ _ (by decide) rfl) (h _ _ (by decide) rfl) Decodes.nil)

end Verif.Sas
