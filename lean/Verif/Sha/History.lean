import Verif.Sha.Good
/-!
# The public interface of the five hash functions (C33, C34, C35)

The theorems hold for a context with arbitrary contents (`c`, the arrays have their declared sizes), and any value of the file-scope
variable.
-/
namespace Verif.Sha

/-- The five hash functions. -/
inductive Which where
  | sha1 | sha224 | sha256 | sha384 | sha512
  deriving DecidableEq

/-- The function of the standard. -/
def Which.hash : Which → Fips.Hash
  | .sha1 => Fips.SHA1
  | .sha224 => Fips.SHA224
  | .sha256 => Fips.SHA256
  | .sha384 => Fips.SHA384
  | .sha512 => Fips.SHA512

/-- The C functions. -/
def Which.api : (v : Which) → Api v.hash.w
  | .sha1 => { reset := SHA1Reset, input := SHA1Input, finalBits := SHA1FinalBits, result := SHA1Result }
  | .sha224 => { reset := SHA224Reset, input := SHA224Input, finalBits := SHA224FinalBits, result := SHA224Result }
  | .sha256 => { reset := SHA256Reset, input := SHA256Input, finalBits := SHA256FinalBits, result := SHA256Result }
  | .sha384 => { reset := SHA384Reset, input := SHA384Input, finalBits := SHA384FinalBits, result := SHA384Result }
  | .sha512 => { reset := SHA512Reset, input := SHA512Input, finalBits := SHA512FinalBits, result := SHA512Result }

/-- A call: return code and digest written. -/
def Which.call (v : Which) (o : Op) : S v.hash.w (Nat × List UInt8) := v.api.exec o

def Which.alg : (v : Which) → Alg v.hash.w
  | .sha1 => Sha.sha1
  | .sha224 => Sha.sha256
  | .sha256 => Sha.sha256
  | .sha384 => Sha.sha512
  | .sha512 => Sha.sha512

def Which.words : Which → Nat
  | .sha1 => 5
  | _ => 8

theorem Which.good : ∀ v : Which, Good v.hash v.alg v.words
  | .sha1 => good1
  | .sha224 => good224
  | .sha256 => good256
  | .sha384 => good384
  | .sha512 => good512

theorem Which.api_eq : ∀ v : Which, v.api = engine v.hash v.alg
  | .sha1 => rfl
  | .sha224 => by
    have h : SHA224Reset = Reset (w := 32) Fips.SHA224.iv := by unfold SHA224Reset; rw [SHA224_H0_fips]
    show (Api.mk SHA224Reset SHA224Input SHA224FinalBits SHA224Result : Api 32) = _
    rw [h]; rfl
  | .sha256 => by
    have h : SHA256Reset = Reset (w := 32) Fips.SHA256.iv := by unfold SHA256Reset; rw [SHA256_H0_fips]
    show (Api.mk SHA256Reset SHA256Input SHA256FinalBits SHA256Result : Api 32) = _
    rw [h]; rfl
  | .sha384 => by
    have h : SHA384Reset = Reset (w := 64) Fips.SHA384.iv := by unfold SHA384Reset; rw [SHA384_H0_fips]
    show (Api.mk SHA384Reset SHA384Input SHA384FinalBits SHA384Result : Api 64) = _
    rw [h]; rfl
  | .sha512 => by
    have h : SHA512Reset = Reset (w := 64) Fips.SHA512.iv := by unfold SHA512Reset; rw [SHA512_H0_fips]
    show (Api.mk SHA512Reset SHA512Input SHA512FinalBits SHA512Result : Api 64) = _
    rw [h]; rfl

/-- Every history of calls on a context that starts with a reset: no undefined behaviour, and all return codes and digests are those
of the specification. -/
theorem history (v : Which) (c : Ctx v.hash.w) (t : BitVec v.hash.w) (hc : c.Message_Block.length = 2 * v.hash.w) (os : List Op) :
    ∃ s', v.api.run (.reset :: os) ⟨c, t⟩ = some ((0, []) :: trace v.hash (.absorbing []) os, s') := by
  rw [v.api_eq]
  obtain ⟨c', t', h⟩ := engine_history v.good c t hc os
  exact ⟨_, h⟩

/-! ## Consequences of the specification -/

/-- The phase after a history. -/
def final (h : Fips.Hash) : Phase → List Op → Phase
  | p, [] => p
  | p, o :: os => final h (step h p o).1 os

theorem trace_append (h : Fips.Hash) : ∀ (p : Phase) (a b : List Op), trace h p (a ++ b) = trace h p a ++ trace h (final h p a) b
  | _, [], _ => rfl
  | p, o :: a, b => by rw [List.cons_append, trace, trace, final, trace_append h _ a b, List.cons_append]

theorem trace_length (h : Fips.Hash) : ∀ (p : Phase) (os : List Op), (trace h p os).length = os.length
  | _, [] => rfl
  | p, o :: os => by rw [trace, List.length_cons, List.length_cons, trace_length h _ os]

theorem final_inputs (h : Fips.Hash) : ∀ (parts : List (List UInt8)) (acc : List UInt8),
    8 * (acc.length + parts.flatten.length) < limit h →
    final h (.absorbing acc) (parts.map .input) = .absorbing (acc ++ parts.flatten) ∧
    trace h (.absorbing acc) (parts.map .input) = parts.map fun _ => (0, [])
  | [], acc, _ => by simp [final, trace]
  | m :: parts, acc, hl => by
    rw [List.flatten_cons, List.length_append] at hl
    have hs : step h (.absorbing acc) (.input m) = (.absorbing (acc ++ m), 0, []) := by
      by_cases hm : m = []
      · subst hm; simp [step]
      · simp only [step, if_neg hm]
        rw [if_pos (by omega)]
    obtain ⟨h1, h2⟩ := final_inputs h parts (acc ++ m) (by rw [List.length_append]; omega)
    rw [List.map_cons, final, trace, hs, List.flatten_cons, ← List.append_assoc]
    exact ⟨h1, by rw [h2]; rfl⟩

theorem final_inputs_bad (h : Fips.Hash) : ∀ (parts : List (List UInt8)),
    final h (.bad 1 false) (parts.map .input) = .bad 1 false
  | [] => rfl
  | m :: parts => by
    have hs : (step h (.bad 1 false) (.input m)).1 = .bad 1 false := by
      by_cases hm : m = [] <;> simp [step, hm]
    rw [List.map_cons, final, hs, final_inputs_bad h parts]

theorem final_inputs_long (h : Fips.Hash) : ∀ (parts : List (List UInt8)) (acc : List UInt8), 8 * acc.length < limit h →
    ¬ 8 * (acc.length + parts.flatten.length) < limit h → final h (.absorbing acc) (parts.map .input) = .bad 1 false
  | [], acc, h1, h2 => by simp at h2; omega
  | m :: parts, acc, h1, h2 => by
    rw [List.flatten_cons, List.length_append] at h2
    rw [List.map_cons, final]
    by_cases hm : m = []
    · subst hm
      have hs : (step h (.absorbing acc) (.input [])).1 = .absorbing acc := rfl
      rw [hs]
      exact final_inputs_long h parts acc h1 (by simpa using h2)
    · by_cases hl : 8 * (acc.length + m.length) < limit h
      · have hs : (step h (.absorbing acc) (.input m)).1 = .absorbing (acc ++ m) := by simp [step, hm, hl]
        rw [hs]
        exact final_inputs_long h parts _ (by rw [List.length_append]; exact hl) (by rw [List.length_append]; omega)
      · have hs : (step h (.absorbing acc) (.input m)).1 = .bad 1 false := by simp [step, hm, hl]
        rw [hs, final_inputs_bad]

/-- **C33**.  Reset, the message in any number of parts, Result: every call returns 0 (success) and the digest is the one of the
standard, for every message shorter than the limit of the standard. -/
theorem digest (v : Which) (c : Ctx v.hash.w) (t : BitVec v.hash.w) (hc : c.Message_Block.length = 2 * v.hash.w)
    (parts : List (List UInt8)) (hl : 8 * parts.flatten.length < 2 ^ (2 * v.hash.w)) :
    ∃ s', v.api.run (.reset :: parts.map .input ++ [.result]) ⟨c, t⟩ =
      some ((0, []) :: parts.map (fun _ => (0, [])) ++ [(0, v.hash.ofBytes parts.flatten)], s') := by
  obtain ⟨s', h⟩ := history v c t hc (parts.map .input ++ [.result])
  refine ⟨s', ?_⟩
  rw [List.cons_append, h, trace_append]
  obtain ⟨h1, h2⟩ := final_inputs v.hash parts [] (by simpa [limit] using hl)
  rw [h1, h2]
  rfl

/-- The last bits of a message that is not a whole number of bytes. -/
theorem digest_bits (v : Which) (c : Ctx v.hash.w) (t : BitVec v.hash.w) (hc : c.Message_Block.length = 2 * v.hash.w)
    (parts : List (List UInt8)) (hl : 8 * parts.flatten.length < 2 ^ (2 * v.hash.w)) (b : UInt8) (n : Nat) (h0 : 0 < n) (h8 : n < 8) :
    ∃ s', v.api.run (.reset :: parts.map .input ++ [.finalBits b n, .result]) ⟨c, t⟩ =
      some ((0, []) :: parts.map (fun _ => (0, [])) ++ [(0, []), (0, v.hash.digest (Fips.bits parts.flatten ++ (Fips.bitsOf b).take n))], s') := by
  obtain ⟨s', h⟩ := history v c t hc (parts.map .input ++ [.finalBits b n, .result])
  refine ⟨s', ?_⟩
  rw [List.cons_append, h, trace_append]
  obtain ⟨h1, h2⟩ := final_inputs v.hash parts [] (by simpa [limit] using hl)
  rw [h1, h2]
  have e1 : ¬ n = 0 := by omega
  have e2 : ¬ 8 ≤ n := by omega
  simp [trace, step, e1, e2]

/-- **C34**.  Two ways to split the same message (of any length) give the same outcome of Result: code and digest. -/
theorem split (v : Which) (c c' : Ctx v.hash.w) (t t' : BitVec v.hash.w) (hc : c.Message_Block.length = 2 * v.hash.w)
    (hc' : c'.Message_Block.length = 2 * v.hash.w) (parts parts' : List (List UInt8)) (he : parts.flatten = parts'.flatten) :
    ∃ codes codes' r s s', v.api.run (.reset :: parts.map .input ++ [.result]) ⟨c, t⟩ = some (codes ++ [r], s) ∧
      v.api.run (.reset :: parts'.map .input ++ [.result]) ⟨c', t'⟩ = some (codes' ++ [r], s') ∧
      codes.length = parts.length + 1 ∧ codes'.length = parts'.length + 1 ∧
      (8 * parts.flatten.length < 2 ^ (2 * v.hash.w) → (∀ x ∈ codes, x = (0, [])) ∧ (∀ x ∈ codes', x = (0, []))) := by
  obtain ⟨s, h⟩ := history v c t hc (parts.map .input ++ [.result])
  obtain ⟨s', h'⟩ := history v c' t' hc' (parts'.map .input ++ [.result])
  rw [trace_append] at h h'
  have hfin : final v.hash (.absorbing []) (parts.map .input) = final v.hash (.absorbing []) (parts'.map .input) := by
    by_cases hl : 8 * (([] : List UInt8).length + parts.flatten.length) < limit v.hash
    · rw [(final_inputs _ _ _ hl).1, (final_inputs _ _ _ (he ▸ hl)).1, he]
    · have h0 : 8 * ([] : List UInt8).length < limit v.hash := Nat.two_pow_pos _
      rw [final_inputs_long _ _ _ h0 hl, final_inputs_long _ _ _ h0 (he ▸ hl)]
  rw [← hfin] at h'
  refine ⟨(0, []) :: trace v.hash (.absorbing []) (parts.map .input), (0, []) :: trace v.hash (.absorbing []) (parts'.map .input),
    (step v.hash (final v.hash (.absorbing []) (parts.map .input)) .result).2, s, s', h, h', ?_, ?_, ?_⟩
  · simp [trace_length]
  · simp [trace_length]
  · intro hl
    have hl0 : 8 * (([] : List UInt8).length + parts.flatten.length) < limit v.hash := by simpa [limit] using hl
    rw [(final_inputs _ _ _ hl0).2, (final_inputs _ _ _ (he ▸ hl0)).2]
    constructor <;> (intro x hx; simp at hx; rcases hx with hx | hx; exact hx; exact hx.2.symm)

/-- A message that is too long is reported by Result, whatever the splitting. -/
theorem too_long (v : Which) (c : Ctx v.hash.w) (t : BitVec v.hash.w) (hc : c.Message_Block.length = 2 * v.hash.w)
    (parts : List (List UInt8)) (hl : 2 ^ (2 * v.hash.w) ≤ 8 * parts.flatten.length) :
    ∃ codes s, v.api.run (.reset :: parts.map .input ++ [.result]) ⟨c, t⟩ = some (codes ++ [(1, [])], s) := by
  obtain ⟨s, h⟩ := history v c t hc (parts.map .input ++ [.result])
  rw [trace_append] at h
  have h0 : 8 * ([] : List UInt8).length < limit v.hash := Nat.two_pow_pos _
  have hl0 : ¬ 8 * (([] : List UInt8).length + parts.flatten.length) < limit v.hash := by simpa [limit] using hl
  rw [final_inputs_long _ _ _ h0 hl0] at h
  exact ⟨(0, []) :: trace v.hash (.absorbing []) (parts.map .input), s, h⟩

/-- Calls which are not a reset. -/
def Op.isReset : Op → Bool
  | .reset => true
  | _ => false

/-- Calls that add something to the message or ask for the digest. -/
def Op.works : Op → Prop
  | .input m => m ≠ []
  | .result => True
  | _ => False

theorem bad_stays (h : Fips.Hash) : ∀ (os : List Op) (e : Nat) (k : Bool), e ≠ 0 → (∀ o ∈ os, o.isReset = false) →
    ∀ p ∈ os.zip (trace h (.bad e k) os), p.1.works → p.2.1 ≠ 0 ∧ p.2.2 = []
  | [], _, _, _, _ => by simp [trace]
  | o :: os, e, k, he, hr => by
    have hrec : ∃ e' k', e' ≠ 0 ∧ (step h (.bad e k) o).1 = .bad e' k' ∧ (o.works → (step h (.bad e k) o).2.1 ≠ 0 ∧ (step h (.bad e k) o).2.2 = []) := by
      have := hr o (by simp)
      cases o with
      | reset => simp [Op.isReset] at this
      | inputNull n => exact ⟨e, k, he, rfl, fun hw => hw.elim⟩
      | input m =>
        by_cases hm : m = []
        · exact ⟨e, k, he, by simp [step, hm], fun hw => (hw hm).elim⟩
        · cases k
          · exact ⟨e, false, he, by simp [step, hm], fun _ => by simp [step, hm, he]⟩
          · exact ⟨3, true, by omega, by simp [step, hm], fun _ => by simp [step, hm]⟩
      | finalBits b n =>
        by_cases hn : n = 0
        · exact ⟨e, k, he, by simp [step, hn], fun hw => hw.elim⟩
        · by_cases hk : k = true ∨ 8 ≤ n
          · exact ⟨3, k, by omega, by simp only [step, if_neg hn, if_pos hk], fun hw => hw.elim⟩
          · exact ⟨e, k, he, by simp only [step, if_neg hn, if_neg hk], fun hw => hw.elim⟩
      | result => exact ⟨e, k, he, rfl, fun _ => ⟨he, rfl⟩⟩
    obtain ⟨e', k', he', hs, ho⟩ := hrec
    rw [trace, List.zip_cons_cons, hs]
    intro p hp
    rcases List.mem_cons.mp hp with rfl | hp
    · exact ho
    · exact bad_stays h os e' k' he' (fun o ho => hr o (by simp [ho])) p hp

/-- **C35**.  After any history, a Result that succeeds and then a non-empty Input: the Input returns 3 (state error), and from then on
every non-empty Input and every Result fails and writes no digest, until a reset. -/
theorem misuse (v : Which) (c : Ctx v.hash.w) (t : BitVec v.hash.w) (hc : c.Message_Block.length = 2 * v.hash.w)
    (pre : List Op) (m : List UInt8) (hm : m ≠ []) (post : List Op) (hp : ∀ o ∈ post, o.isReset = false) :
    ∃ outs r r' later s, v.api.run (.reset :: pre ++ [.result, .input m] ++ post) ⟨c, t⟩ = some (outs ++ [r, r'] ++ later, s) ∧
      outs.length = pre.length + 1 ∧ later.length = post.length ∧
      (r.1 = 0 → r' = (3, []) ∧ ∀ p ∈ post.zip later, p.1.works → p.2.1 ≠ 0 ∧ p.2.2 = []) := by
  obtain ⟨s, h⟩ := history v c t hc (pre ++ ([.result, .input m] ++ post))
  rw [trace_append, trace_append] at h
  generalize hq : final v.hash (.absorbing []) pre = q at h
  refine ⟨(0, []) :: trace v.hash (.absorbing []) pre, (step v.hash q .result).2,
    (step v.hash (step v.hash q .result).1 (.input m)).2,
    trace v.hash (final v.hash q [.result, .input m]) post, s, ?_, ?_, ?_, ?_⟩
  · simpa [trace] using h
  · simp [trace_length]
  · simp [trace_length]
  · intro hr
    have hfin : ∃ f, (step v.hash q .result).1 = .finished f := by
      cases q with
      | absorbing acc => exact ⟨_, rfl⟩
      | finished f => exact ⟨f, rfl⟩
      | bad e k =>
        -- a bad phase has a non-zero code
        exfalso
        have hne : ∀ (os : List Op) (p : Phase), (∀ e k, p = .bad e k → e ≠ 0) → ∀ e k, final v.hash p os = .bad e k → e ≠ 0 := by
          intro os
          induction os with
          | nil => intro p hp e k he; exact hp e k he
          | cons o os ih =>
            intro p hp e k he
            refine ih _ ?_ e k he
            intro e1 k1 h1
            cases p <;> cases o <;> simp only [step] at h1 <;>
              (repeat' (split at h1)) <;> (try simp at h1) <;> (try omega) <;>
              (try (obtain ⟨rfl, _⟩ := h1)) <;> (try omega) <;> (try exact hp _ _ rfl)
        exact hne pre (.absorbing []) (by intro e k h; cases h) e k hq hr
    obtain ⟨f, hf⟩ := hfin
    have hin : step v.hash (.finished f) (.input m) = (.bad 3 true, 3, []) := by simp [step, hm]
    refine ⟨by rw [hf, hin], ?_⟩
    have hfl : final v.hash q [.result, .input m] = .bad 3 true := by rw [final, final, final, hf, hin]
    rw [hfl]
    exact bad_stays v.hash post 3 true (by decide) hp

/-- **C35**.  After any history, Result twice gives the same code and digest. -/
theorem result_twice (v : Which) (c : Ctx v.hash.w) (t : BitVec v.hash.w) (hc : c.Message_Block.length = 2 * v.hash.w) (pre : List Op) :
    ∃ outs r s, v.api.run (.reset :: pre ++ [.result, .result]) ⟨c, t⟩ = some (outs ++ [r, r], s) := by
  obtain ⟨s, h⟩ := history v c t hc (pre ++ [.result, .result])
  rw [trace_append] at h
  generalize hq : final v.hash (.absorbing []) pre = q at h
  refine ⟨(0, []) :: trace v.hash (.absorbing []) pre, (step v.hash q .result).2, s, ?_⟩
  have : step v.hash (step v.hash q .result).1 .result = ((step v.hash q .result).1, (step v.hash q .result).2) := by
    cases q <;> rfl
  rw [List.cons_append, h, trace, trace, trace, this]; rfl

/-- A reset makes any context usable again. -/
theorem reset_recovers (v : Which) (c : Ctx v.hash.w) (t : BitVec v.hash.w) (hc : c.Message_Block.length = 2 * v.hash.w)
    (pre : List Op) (m : List UInt8) (hl : 8 * m.length < 2 ^ (2 * v.hash.w)) :
    ∃ outs s, v.api.run (.reset :: pre ++ [.reset, .input m, .result]) ⟨c, t⟩ = some (outs ++ [(0, []), (0, []), (0, v.hash.ofBytes m)], s) := by
  obtain ⟨s, h⟩ := history v c t hc (pre ++ [.reset, .input m, .result])
  rw [trace_append] at h
  generalize hq : final v.hash (.absorbing []) pre = q at h
  refine ⟨(0, []) :: trace v.hash (.absorbing []) pre, s, ?_⟩
  have h1 : step v.hash q .reset = (.absorbing [], 0, []) := by cases q <;> rfl
  have h2 : step v.hash (.absorbing []) (.input m) = (.absorbing m, 0, []) := by
    by_cases hm : m = []
    · subst hm; simp [step]
    · have : 8 * m.length < limit v.hash := hl
      simp [step, hm, this]
  rw [List.cons_append, h, trace, h1, trace, h2]; rfl

end Verif.Sha
