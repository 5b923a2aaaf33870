import Verif.Exs.History
import Verif.Headers.History
import Verif.Ex.Demo
/-! # C45: what the specification means, runs, and where the claim fails -/
set_option linter.unusedVariables false
namespace Verif.Exs
open Verif.Ex Verif.Strings Verif.Headers Verif.Sas
open Verif.Hmac (Sized junkL)
open Verif.Base64 (Decodes)

/-- C45: without credentials, without headers or without a header `Authorization` nothing is changed and the clock is not read. -/
theorem untouched {oom : Prop} {c : Option Creds} {hs hs' : Option Hdrs} {tr tr' : List Int} (h : RefreshE oom c hs tr hs' tr')
    (hn : c = none ∨ ∀ l, hs = some l → find l auth = none) : hs' = hs ∧ tr' = tr := by
  cases c with
  | none => exact h
  | some c =>
    cases hs with
    | none => exact h
    | some l =>
      simp only [RefreshE] at h
      rw [hn.resolve_left (by simp) l rfl] at h
      exact h

theorem set_names (l : Hdrs) (n v : Ex.Text) : (Headers.set l n v).map Prod.fst = l.map Prod.fst := by
  unfold Headers.set
  rw [List.map_map]
  refine List.map_congr_left fun p _ => ?_
  simp only [Function.comp]
  split <;> simp_all

/-- C45: no header is added, removed or renamed, and no header but `Authorization` gets another value. -/
theorem only_authorization {oom : Prop} {c : Option Creds} {l : Hdrs} {hs' : Option Hdrs} {tr tr' : List Int} (h : RefreshE oom c (some l) tr hs' tr') :
    ∃ l', hs' = some l' ∧ l'.map Prod.fst = l.map Prod.fst ∧ ∀ (i : Nat) (p : Ex.Text × Ex.Text), l[i]? = some p → p.1 ≠ auth → l'[i]? = some p := by
  have same : hs' = some l → ∃ l', hs' = some l' ∧ l'.map Prod.fst = l.map Prod.fst ∧ ∀ (i : Nat) (p : Ex.Text × Ex.Text), l[i]? = some p → p.1 ≠ auth → l'[i]? = some p :=
    fun h => ⟨l, h, rfl, fun _ _ h _ => h⟩
  cases c with
  | none => exact same h.1
  | some c =>
    simp only [RefreshE] at h
    cases hf : find l auth with
    | none => rw [hf] at h; exact same h.1
    | some old =>
      rw [hf] at h
      obtain ⟨t, -, ⟨v, -, -, h⟩ | ⟨h, -⟩⟩ := h
      · refine ⟨_, h, set_names _ _ _, fun i p hi hp => ?_⟩
        unfold Headers.set
        rw [List.getElem?_map, hi, Option.map_some, if_neg hp]
      · exact same h

theorem decodes_len {t bs : List UInt8} (h : Decodes t bs) : bs.length ≤ t.length := by
  induction h with
  | nil => simp
  | four _ _ _ _ _ ih => simp only [List.length_cons]; omega
  | three => simp
  | two => simp

/-- C45: if there is memory, a non-empty key, a working clock and the sizes are below 2³¹, then the value of `Authorization` is the documented
token for the key, the resource and the name, expiring one hour after the reading of the clock. -/
theorem refreshed {c : Creds} {l : Hdrs} {old : Ex.Text} {hs' : Option Hdrs} {tr tr' : List Int} {kb : Ex.Text} (h : RefreshE False (some c) (some l) tr hs' tr')
    (hf : find l auth = some old) (hk : Decodes c.key kb) (h0 : c.key ≠ []) (hl : c.key.length < 2 ^ 31 ∧ c.uri.length + 21 < 2 ^ 31 ∧ c.name.length < 2 ^ 31 ∧
      old.length < 2 ^ 31 ∧ l.length < 2 ^ 31) :
    ∃ t, tr' = tr ++ [t] ∧ (t = -1 → hs' = some l) ∧
      (t ≠ -1 → ∃ l', hs' = some l' ∧ find l' auth = some (token kb c.uri c.name (Crt.decimal (t + 3600).toNat))) := by
  simp only [RefreshE, hf] at h
  obtain ⟨t, h1, h⟩ := h
  refine ⟨t, h1, ?_, fun ht => ?_⟩
  · rintro rfl
    rcases h with ⟨v, h, -⟩ | ⟨h, -⟩
    · exact (h rfl).elim
    · exact h
  · rcases h with ⟨v, -, ⟨kb', hk', hne, htok⟩, h⟩ | ⟨-, h⟩
    · obtain rfl := hk.unique hk'
      refine ⟨_, h, ?_⟩
      have e := find_stored_self true l auth v
      rw [stored, hf] at e
      have e : find (Headers.set l auth v) auth = some v := e
      rw [e, htok ?_ (by omega)]
      have := decodes_len hk
      omega
    · have : maxObj = 2 ^ 56 := rfl
      rcases h with h | h | h | h | h
      · exact (ht h).elim
      · exact h.elim
      · exact (h0 h).elim
      · omega
      · omega

/-! ## Runs -/

/-- credentials, headers with the given fields, a refresh at the time `now`; the value of `Authorization` afterwards -/
def demo (now : Int) (hs : List (Ex.Text × Ex.Text)) : M (Option Ex.Text) := do
  let h ← createOne (some (ascii "c2VjcmV0")) (some (ascii "a.net/d")) (some (ascii "owner"))
  let hh ← mkHeaders (some hs)
  let te ← malloc 32
  refresh (pure now) junkL te h hh
  let v ← HTTPHeaders_FindHeaderValue hh (.str auth)
  if v = 0 then pure none else do
  let t ← cstr (.ofPtr v)
  pure (some t)

/-- An existing header gets the token (computed independently). -/
theorem demo_refreshed :
    outcome (demo 1499996400 [(ascii "Accept", ascii "x"), (ascii "Authorization", ascii "old")]) (St.start bump) =
    some (.ok (some (ascii "SharedAccessSignature sr=a.net/d&sig=B1OdFApxlNaF7vty%2fqhD2kNAt4AEF63TdycdaFixdsE%3d&se=1500000000&skn=owner"))) := by
  decide +kernel

/-- The clock fails. -/
theorem demo_noclock : outcome (demo (-1) [(ascii "Authorization", ascii "old")]) (St.start bump) = some (.ok (some (ascii "old"))) := by
  decide +kernel

/-- There is no such header. -/
theorem demo_absent : outcome (demo 1499996400 [(ascii "Accept", ascii "x")]) (St.start bump) = some (.ok none) := by
  decide +kernel

/-- The claim is false of the code for a clock set more than an hour before 1970: converting a negative `double` to `size_t` is undefined. -/
theorem too_early : outcome (demo (-3601) [(ascii "Authorization", ascii "old")]) (St.start bump) =
    some (.error (.ub "double out of the range of uint64_t")) := by
  decide +kernel

/-! ## The hypotheses can be met -/

/-- a clock that counts -/
def demoClock : M Int := do
  let n ← loadInt 2000 0
  store 2000 0 (.int (n + 1))
  pure (if n < 100 then 1499996400 + n else -1)

example {rel : Prop} : Clock rel demoClock (fun tr => 2000 ↦ [.int tr.length]) := by
  intro tr
  unfold demoClock
  step (loadInt_spec (p := 2000) (off := 0) (n := tr.length) (b := [.int tr.length]) rfl)
  step (store_spec (p := 2000) (off := 0) (b := [.int tr.length]) (by simp))
  refine Triple.pure (entails_pand_r ?_ ?_)
  · show _ ⊢ₕ 2000 ↦ [Val.int (tr ++ [_]).length]
    rw [List.length_append]; exact entails_refl _
  · unfold Reading
    split <;> omega

example : good (.create (some (ascii "c2VjcmV0")) (some (ascii "a.net/d")) (some (ascii "owner"))) := by
  refine ⟨⟨by decide, by decide⟩, ⟨by decide, by decide⟩, ⟨by decide, by decide⟩, ?_⟩
  rintro _ h
  obtain rfl := Option.some.inj h
  refine ⟨ascii "secret", ?_⟩
  have h : ∀ c v, v < 64 → Base64.alphabet v = c → Base64.IsDigit c v := fun c v a b => ⟨a, b⟩
  exact Decodes.four (v1 := 28) (v2 := 54) (v3 := 21) (v4 := 35) (h _ _ (by decide) rfl) (h _ _ (by decide) rfl) (h _ _ (by decide) rfl) (h _ _ (by decide) rfl)
    (Decodes.four (v1 := 28) (v2 := 38) (v3 := 21) (v4 := 52) (h _ _ (by decide) rfl) (h _ _ (by decide) rfl) (h _ _ (by decide) rfl) (h _ _ (by decide) rfl) Decodes.nil)

end Verif.Exs
