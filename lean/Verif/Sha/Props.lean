import Verif.Sha.Stream
/-!
# Properties of sha1.c, sha224.c, sha384-512.c (C33, C34, C35)
-/
namespace Verif.Sha
open Fips (bits bitsOf value binary wordBytes)

variable {h : Fips.Hash} {a : Alg h.w} {nH : Nat}

/-- A context represents a phase. -/
def Rel (h : Fips.Hash) (nH : Nat) : Phase → Ctx h.w → Prop
  | .absorbing m, c => (∃ n, Held h n m c.Intermediate_Hash c.Message_Block c.Message_Block_Index) ∧ c.Message_Block_Index < 2 * h.w ∧
      num c = 8 * m.length ∧ c.Computed = 0 ∧ c.Corrupted = 0
  | .finished f, c => c.Computed ≠ 0 ∧ c.Corrupted = 0 ∧ c.Intermediate_Hash.length = nH ∧
      (c.Intermediate_Hash.flatMap wordBytes).take h.size = h.digest f ∧ c.Message_Block.length = 2 * h.w
  | .bad e comp, c => c.Corrupted = e ∧ e ≠ 0 ∧ (c.Computed ≠ 0 ↔ comp = true) ∧ c.Message_Block.length = 2 * h.w

theorem Rel.block {p : Phase} {c : Ctx h.w} (hr : Rel h nH p c) : c.Message_Block.length = 2 * h.w := by
  cases p with
  | absorbing m => obtain ⟨⟨n, hh⟩, _⟩ := hr; exact hh.blk_len
  | finished f => exact hr.2.2.2.2
  | bad e comp => exact hr.2.2.2

theorem num_lt {w : Nat} (c : Ctx w) : num c < 2 ^ (2 * w) := by
  have h1 := c.Length_High.isLt
  have h2 := c.Length_Low.isLt
  rw [show 2 * w = w + w by omega, Nat.pow_add]
  have : (c.Length_High.toNat + 1) * 2 ^ w ≤ 2 ^ w * 2 ^ w := Nat.mul_le_mul_right _ h1
  rw [Nat.add_mul] at this
  unfold num; omega

theorem Good.pow (g : Good h a nH) : 8 < 2 ^ h.w := by rcases g.hw with e | e <;> rw [e] <;> decide

theorem Rel.lt_limit {m : List UInt8} {c : Ctx h.w} (hr : Rel h nH (.absorbing m) c) : 8 * m.length < limit h := by
  have := num_lt c
  rw [hr.2.2.1] at this
  exact this

/-- Counting `k` more bits while the message is in progress. -/
theorem inputByte_eq (g : Good h a nH) {m : List UInt8} {c : Ctx h.w} (hr : Rel h nH (.absorbing m) c) (b : UInt8) (t : BitVec h.w) :
    ∃ c' t', inputByte a b ⟨c, t⟩ = some ((), ⟨c', t'⟩) ∧
      (if 8 * (m.length + 1) < limit h then Rel h nH (.absorbing (m ++ [b])) c' else Rel h nH (.bad 1 false) c') := by
  obtain ⟨⟨n, hh⟩, hi, hn, hc, hx⟩ := hr
  have hpush := push_eq g hi b c c.Intermediate_Hash c.Message_Block t
  have hput : put c c.Intermediate_Hash c.Message_Block c.Message_Block_Index = c := rfl
  rw [hput] at hpush
  have hh1 := hh.push g hi b
  obtain ⟨lo, hgh, r, hadd, hnum, hrr⟩ := AddLength_eq g.pow
    (put c c.Intermediate_Hash (c.Message_Block.set c.Message_Block_Index b) (c.Message_Block_Index + 1)) t
  have hn' : num (put c c.Intermediate_Hash (c.Message_Block.set c.Message_Block_Index b) (c.Message_Block_Index + 1)) = 8 * m.length := hn
  rw [hn'] at hnum hrr
  have hlim : limit h = 2 ^ (2 * h.w) := rfl
  rw [hlim]
  -- the context after the byte is stored and counted
  generalize hcdef : ({ put c c.Intermediate_Hash (c.Message_Block.set c.Message_Block_Index b) (c.Message_Block_Index + 1) with
      Length_Low := lo, Length_High := hgh, Corrupted := r } : Ctx h.w) = c1 at hadd
  have hunf : inputByte a b ⟨c, t⟩ =
      (if r = 0 ∧ c1.Message_Block_Index = a.Message_Block_Size then ProcessMessageBlock a else pure () : S h.w Unit) ⟨c1, c.Length_Low⟩ := by
    rw [inputByte, bind_eq hpush, bind_eq hadd, bind_eq (getCtx_eq _)]; rfl
  rw [hunf]
  by_cases hlt : 8 * (m.length + 1) < 2 ^ (2 * h.w)
  · rw [if_pos (by omega)] at hrr
    subst hrr
    rw [Nat.mod_eq_of_lt (by omega)] at hnum
    by_cases hfull : c.Message_Block_Index + 1 = 2 * h.w
    · have hf : c1.Message_Block_Index = a.Message_Block_Size := by rw [g.size, ← hcdef]; exact hfull
      rw [if_pos ⟨rfl, hf⟩]
      rw [hfull] at hh1
      obtain ⟨H', hp, hh2⟩ := process_eq g hh1 c1 c1.Message_Block_Index c.Length_Low
      have hput1 : put c1 c.Intermediate_Hash (c.Message_Block.set c.Message_Block_Index b) c1.Message_Block_Index = c1 := by
        rw [← hcdef]; rfl
      rw [hput1] at hp
      refine ⟨_, _, hp, ?_⟩
      rw [if_pos hlt]
      refine ⟨⟨n + 1, hh2⟩, ?_, ?_, ?_, ?_⟩
      · show 0 < 2 * h.w
        omega
      · rw [← hcdef]; show hgh.toNat * 2 ^ h.w + lo.toNat = _
        rw [hnum, List.length_append, List.length_singleton]; omega
      · rw [← hcdef]; exact hc
      · rw [← hcdef]; rfl
    · have hf : ¬ c1.Message_Block_Index = a.Message_Block_Size := by rw [g.size, ← hcdef]; exact hfull
      rw [if_neg (fun hx => hf hx.2), pure_eq]
      refine ⟨_, _, rfl, ?_⟩
      rw [if_pos hlt]
      refine ⟨⟨n, by rw [← hcdef]; exact hh1⟩, ?_, ?_, ?_, ?_⟩
      · rw [← hcdef]; show c.Message_Block_Index + 1 < 2 * h.w
        omega
      · rw [← hcdef]; show hgh.toNat * 2 ^ h.w + lo.toNat = _
        rw [hnum, List.length_append, List.length_singleton]; omega
      · rw [← hcdef]; exact hc
      · rw [← hcdef]
  · rw [if_neg (by omega)] at hrr
    subst hrr
    rw [if_neg (by omega), pure_eq]
    refine ⟨_, _, rfl, ?_⟩
    rw [if_neg hlt, ← hcdef]
    refine ⟨rfl, by omega, ?_, hh1.blk_len⟩
    show c.Computed ≠ 0 ↔ _
    simp [hc]

theorem inputLoop_bad {m : List UInt8} {c : Ctx h.w} {e : Nat} {k : Bool} (hr : Rel h nH (.bad e k) c) (t : BitVec h.w) :
    inputLoop a m m.length ⟨c, t⟩ = some ((), ⟨c, t⟩) := by
  cases m with
  | nil => rfl
  | cons b m =>
    rw [List.length_cons, inputLoop, bind_eq (getCtx_eq _)]
    show (if c.Corrupted ≠ 0 then _ else _ : S h.w Unit) _ = _
    rw [if_pos (by rw [hr.1]; exact hr.2.1)]; rfl

theorem inputLoop_eq (g : Good h a nH) : ∀ (m acc : List UInt8) (c : Ctx h.w) (t : BitVec h.w), Rel h nH (.absorbing acc) c →
    ∃ c' t', inputLoop a m m.length ⟨c, t⟩ = some ((), ⟨c', t'⟩) ∧
      (if 8 * (acc.length + m.length) < limit h then Rel h nH (.absorbing (acc ++ m)) c' else Rel h nH (.bad 1 false) c')
  | [], acc, c, t, hr => by
    refine ⟨c, t, rfl, ?_⟩
    rw [if_pos (by have := hr.lt_limit; simpa using this)]
    simpa using hr
  | b :: m, acc, c, t, hr => by
    have hunf : inputLoop a (b :: m) (b :: m).length ⟨c, t⟩ = (inputByte a b >>= fun _ => inputLoop a m m.length) ⟨c, t⟩ := by
      rw [List.length_cons, inputLoop, bind_eq (getCtx_eq _)]
      show (if c.Corrupted ≠ 0 then _ else _ : S h.w Unit) _ = _
      rw [if_neg (by rw [hr.2.2.2.2]; decide)]
    obtain ⟨c1, t1, h1, hr1⟩ := inputByte_eq g hr b t
    rw [hunf, bind_eq h1]
    by_cases hlt : 8 * (acc.length + 1) < limit h
    · rw [if_pos hlt] at hr1
      obtain ⟨c2, t2, h2, hr2⟩ := inputLoop_eq g m (acc ++ [b]) c1 t1 hr1
      refine ⟨c2, t2, h2, ?_⟩
      simpa [Nat.add_assoc, Nat.add_comm 1] using hr2
    · rw [if_neg hlt] at hr1
      refine ⟨c1, t1, inputLoop_bad hr1 t1, ?_⟩
      rw [if_neg (by rw [List.length_cons]; omega)]
      exact hr1

/-- The functions of one of the five hashes. -/
structure Api (w : Nat) where
  reset : S w Nat
  input : Option (List UInt8) → Nat → S w Nat
  finalBits : UInt8 → Nat → S w Nat
  result : S w (Nat × List UInt8)

/-- A call through the interface; the output is the return code and the digest written. -/
def Api.exec {w : Nat} (p : Api w) : Op → S w (Nat × List UInt8)
  | .reset => do let r ← p.reset; pure (r, [])
  | .input m => do let r ← p.input (some m) m.length; pure (r, [])
  | .inputNull n => do let r ← p.input none n; pure (r, [])
  | .finalBits b n => do let r ← p.finalBits b n; pure (r, [])
  | .result => p.result

/-- A history of calls on one context. -/
def Api.run {w : Nat} (p : Api w) : List Op → S w (List (Nat × List UInt8))
  | [] => pure []
  | o :: os => do
    let r ← p.exec o
    let rs ← p.run os
    pure (r :: rs)

def engine (h : Fips.Hash) (a : Alg h.w) : Api h.w :=
  { reset := Reset h.iv, input := Input a, finalBits := FinalBits a, result := ResultN a h.size }

theorem reset_eq (g : Good h a nH) (c : Ctx h.w) (t : BitVec h.w) (hb : c.Message_Block.length = 2 * h.w) :
    ∃ c', Reset h.iv ⟨c, t⟩ = some (0, ⟨c', t⟩) ∧ Rel h nH (.absorbing []) c' := by
  refine ⟨_, rfl, ⟨0, ?_⟩, ?_, ?_, rfl, rfl⟩
  · exact ⟨by simp, Nat.zero_le _, rfl, hb, by simp⟩
  · show 0 < 2 * h.w
    rcases g.hw with e | e <;> omega
  · simp [num]

theorem pad_byte_bits (b : UInt8) (n : Nat) (hn : n < 8) (h0 : n ≠ 0) : ∃ m k, masks[n]? = some m ∧ markbit[n]? = some k ∧
    bitsOf ((b &&& m) ||| k) = (bitsOf b).take n ++ [true] ++ List.replicate (7 - n) false := by
  have key : ∀ n : Fin 8, ∀ x : Fin 256, ∃ m k, masks[n.val]? = some m ∧ markbit[n.val]? = some k ∧
      (n.val ≠ 0 → bitsOf ((UInt8.ofNat x.val &&& m) ||| k) = (bitsOf (UInt8.ofNat x.val)).take n.val ++ [true] ++ List.replicate (7 - n.val) false) := by
    intro n x
    refine ⟨masks.getD n.val 0, markbit.getD n.val 0, ?_, ?_, ?_⟩
    · revert n; decide
    · revert n; decide
    · revert n x; decide +kernel
  obtain ⟨m, k, h1, h2, h3⟩ := key ⟨n, hn⟩ ⟨b.toNat, b.toNat_lt⟩
  refine ⟨m, k, h1, h2, ?_⟩
  simpa using h3 h0

theorem Rel.not_computed {m : List UInt8} {c : Ctx h.w} (hr : Rel h nH (.absorbing m) c) : c.Computed = 0 := hr.2.2.2.1

/-- One call: the code does what the specification says. -/
theorem engine_step (g : Good h a nH) {p : Phase} {c : Ctx h.w} (hr : Rel h nH p c) (t : BitVec h.w) (o : Op) :
    ∃ c' t', (engine h a).exec o ⟨c, t⟩ = some ((step h p o).2, ⟨c', t'⟩) ∧ Rel h nH (step h p o).1 c' := by
  have hw8 := g.hw8
  have hwp : 0 < h.w := by rcases g.hw with e | e <;> omega
  cases o with
  | reset =>
    obtain ⟨c', h1, h2⟩ := reset_eq g c t hr.block
    refine ⟨c', t, ?_, ?_⟩
    · show (Reset h.iv >>= fun r => pure (r, [])) _ = _
      rw [bind_eq h1, pure_eq]; cases p <;> rfl
    · cases p <;> exact h2
  | inputNull n =>
    refine ⟨c, t, ?_, by cases p <;> exact hr⟩
    show (Input a none n >>= fun r => pure (r, [])) _ = _
    by_cases hn : n = 0
    · have : Input a none n ⟨c, t⟩ = some (0, ⟨c, t⟩) := by rw [Input, if_pos hn]; rfl
      rw [bind_eq this, pure_eq]; cases p <;> simp [step, hn]
    · have : Input a none n ⟨c, t⟩ = some (1, ⟨c, t⟩) := by rw [Input, if_neg hn]; rfl
      rw [bind_eq this, pure_eq]; cases p <;> simp [step, hn]
  | input m =>
    by_cases hm : m = []
    · subst hm
      refine ⟨c, t, ?_, ?_⟩
      · show (Input a (some []) 0 >>= fun r => pure (r, [])) _ = _
        have : Input a (some []) 0 ⟨c, t⟩ = some (0, ⟨c, t⟩) := rfl
        rw [bind_eq this, pure_eq]; cases p <;> rfl
      · cases p <;> exact hr
    · have hl : m.length ≠ 0 := by simpa using hm
      have hunf : Input a (some m) m.length ⟨c, t⟩ = (if c.Computed ≠ 0 then
            (do modifyCtx fun c => { c with Corrupted := shaStateError }; pure shaStateError)
          else if c.Corrupted ≠ 0 then pure c.Corrupted
          else (do inputLoop a m m.length; pure shaSuccess) : S h.w Nat) ⟨c, t⟩ := by
        rw [Input, if_neg hl]; rfl
      show ∃ c' t', (Input a (some m) m.length >>= fun r => pure (r, [])) _ = _ ∧ _
      have hfin : ∀ {r s'}, Input a (some m) m.length ⟨c, t⟩ = some (r, s') →
          (Input a (some m) m.length >>= fun r => pure (r, ([] : List UInt8))) ⟨c, t⟩ = some ((r, []), s') := by
        intro r s' hx; rw [bind_eq hx, pure_eq]
      cases p with
      | absorbing acc =>
        rw [if_neg (by rw [hr.not_computed]; simp), if_neg (by rw [hr.2.2.2.2]; simp)] at hunf
        obtain ⟨c', t', h1, h2⟩ := inputLoop_eq g m acc c t hr
        rw [bind_eq h1, pure_eq] at hunf
        refine ⟨c', t', ?_, ?_⟩
        · rw [hfin hunf]
          simp only [step, if_neg hm]
          split <;> rfl
        · simp only [step, if_neg hm]
          split <;> rename_i hx
          · rw [if_pos hx] at h2; exact h2
          · rw [if_neg hx] at h2; exact h2
      | finished f =>
        rw [if_pos hr.1] at hunf
        refine ⟨{ c with Corrupted := shaStateError }, t, ?_, ?_⟩
        · rw [hfin hunf]; simp only [step, if_neg hm]
        · simp only [step, if_neg hm]
          exact ⟨rfl, by decide, by simpa using hr.1, hr.2.2.2.2⟩
      | bad e k =>
        cases k with
        | true =>
          rw [if_pos (hr.2.2.1.mpr rfl)] at hunf
          refine ⟨{ c with Corrupted := shaStateError }, t, ?_, ?_⟩
          · rw [hfin hunf]; simp only [step, if_neg hm, if_true]
          · simp only [step, if_neg hm, if_true]
            exact ⟨rfl, by decide, hr.2.2.1, hr.2.2.2⟩
        | false =>
          have hc0 : ¬ c.Computed ≠ 0 := by rw [hr.2.2.1]; simp
          rw [if_neg hc0, if_pos (by rw [hr.1]; exact hr.2.1), pure_eq, hr.1] at hunf
          refine ⟨c, t, ?_, ?_⟩
          · rw [hfin hunf]; simp [step, if_neg hm]
          · simp only [step, if_neg hm]
            exact hr
  | finalBits b n =>
    show ∃ c' t', (FinalBits a b n >>= fun r => pure (r, [])) _ = _ ∧ _
    have hfin : ∀ {r s'}, FinalBits a b n ⟨c, t⟩ = some (r, s') →
        (FinalBits a b n >>= fun r => pure (r, ([] : List UInt8))) ⟨c, t⟩ = some ((r, []), s') := by
      intro r s' hx; rw [bind_eq hx, pure_eq]
    by_cases h0 : n = 0
    · have : FinalBits a b n ⟨c, t⟩ = some (0, ⟨c, t⟩) := by rw [FinalBits, if_pos h0]; rfl
      refine ⟨c, t, ?_, ?_⟩
      · rw [hfin this]; cases p <;> simp [step, h0]
      · cases p <;> simpa [step, h0] using hr
    · have hunf : FinalBits a b n ⟨c, t⟩ = (if c.Computed ≠ 0 ∨ n ≥ 8 ∨ n = 0 then
            (do modifyCtx fun c => { c with Corrupted := shaStateError }; pure shaStateError)
          else if c.Corrupted ≠ 0 then pure c.Corrupted
          else (do
            let _ ← AddLength n
            match masks[n]?, markbit[n]? with
            | some m, some k =>
              Finalize a ((b &&& m) ||| k)
              pure shaSuccess
            | _, _ => ub) : S h.w Nat) ⟨c, t⟩ := by
        rw [FinalBits, if_neg h0]; rfl
      cases p with
      | absorbing acc =>
        by_cases h8 : 8 ≤ n
        · rw [if_pos (by omega)] at hunf
          refine ⟨{ c with Corrupted := shaStateError }, t, ?_, ?_⟩
          · rw [hfin hunf]; simp only [step, if_neg h0, if_pos h8]
          · simp only [step, if_neg h0, if_pos h8]
            refine ⟨rfl, by decide, ?_, hr.block⟩
            show c.Computed ≠ 0 ↔ _
            rw [hr.not_computed]; simp
        · rw [if_neg (by rw [hr.not_computed]; simp; omega), if_neg (by rw [hr.2.2.2.2]; simp)] at hunf
          obtain ⟨m, k, hm, hk, hbits⟩ := pad_byte_bits b n (by omega) h0
          have hn8 : n < 2 ^ h.w := by have := g.pow; omega
          obtain ⟨lo, hgh, r, hadd, hnum, hrr⟩ := AddLength_eq hn8 c t
          obtain ⟨⟨N, hh⟩, hi, hnc, hcc, hcx⟩ := hr
          have hlim := num_lt c
          have heven : (2 : Nat) ^ (2 * h.w) % 8 = 0 := by rcases g.hw with e | e <;> rw [e] <;> decide
          have hno : num c + n < 2 ^ (2 * h.w) := by rw [hnc] at hlim ⊢; omega
          rw [if_pos hno] at hrr
          subst hrr
          rw [Nat.mod_eq_of_lt hno] at hnum
          have hfl : ((bitsOf b).take n).length = n := by rw [List.length_take, bitsOf_length]; omega
          obtain ⟨H', hfz, hHl, hdig⟩ := Finalize_eq g hh hi (f := (bitsOf b).take n) (pb := (b &&& m) ||| k) (by omega)
            (by rw [hfl]; exact hbits) { c with Length_Low := lo, Length_High := hgh, Corrupted := 0 }
            (by rw [hfl, ← hnc]; exact hnum) c.Length_Low
          have hstep : Finalize a ((b &&& m) ||| k) ⟨{ c with Length_Low := lo, Length_High := hgh, Corrupted := 0 }, c.Length_Low⟩ =
              some ((), ⟨done { c with Length_Low := lo, Length_High := hgh, Corrupted := 0 } H', c.Length_Low⟩) := hfz
          rw [bind_eq hadd, hm, hk] at hunf
          simp only [] at hunf
          rw [bind_eq hstep, pure_eq] at hunf
          refine ⟨done { c with Length_Low := lo, Length_High := hgh, Corrupted := 0 } H', c.Length_Low, ?_, ?_⟩
          · rw [hfin hunf]; simp only [step, if_neg h0, if_neg h8]
          · simp only [step, if_neg h0, if_neg h8]
            exact ⟨by show (1 : Nat) ≠ 0; decide, rfl, hHl, hdig, by simp [done]⟩
      | finished f =>
        rw [if_pos (Or.inl hr.1)] at hunf
        refine ⟨{ c with Corrupted := shaStateError }, t, ?_, ?_⟩
        · rw [hfin hunf]; simp only [step, if_neg h0]
        · simp only [step, if_neg h0]
          exact ⟨rfl, by decide, by simpa using hr.1, hr.2.2.2.2⟩
      | bad e k =>
        by_cases hk : k = true ∨ 8 ≤ n
        · rw [if_pos (by rcases hk with hk | hk; exact Or.inl (hr.2.2.1.mpr hk); exact Or.inr (Or.inl hk))] at hunf
          refine ⟨{ c with Corrupted := shaStateError }, t, ?_, ?_⟩
          · rw [hfin hunf]; simp only [step, if_neg h0, if_pos hk]
          · simp only [step, if_neg h0, if_pos hk]
            exact ⟨rfl, by decide, hr.2.2.1, hr.2.2.2⟩
        · have hk' : ¬ (k = true) ∧ ¬ 8 ≤ n := by simpa [not_or] using hk
          have hc0 : ¬ c.Computed ≠ 0 := by rw [hr.2.2.1]; exact hk'.1
          rw [if_neg (by rw [not_or]; exact ⟨hc0, by omega⟩), if_pos (by rw [hr.1]; exact hr.2.1), pure_eq, hr.1] at hunf
          refine ⟨c, t, ?_, ?_⟩
          · rw [hfin hunf]; simp only [step, if_neg h0, if_neg hk]
          · simp only [step, if_neg h0, if_neg hk]
            exact hr
  | result =>
    have hunf : ResultN a h.size ⟨c, t⟩ = (if c.Corrupted ≠ 0 then pure (c.Corrupted, [])
        else if c.Computed = 0 then (do
          let _ ← Finalize a 0x80
          let c ← getCtx
          let d ← digestLoop c.Intermediate_Hash 0 h.size
          pure (shaSuccess, d))
        else (do
          let c ← getCtx
          let d ← digestLoop c.Intermediate_Hash 0 h.size
          pure (shaSuccess, d)) : S h.w (Nat × List UInt8)) ⟨c, t⟩ := by
      rw [ResultN, bind_eq (getCtx_eq _)]
    show ∃ c' t', ResultN a h.size _ = _ ∧ _
    rw [hunf]
    cases p with
    | absorbing acc =>
      rw [if_neg (by rw [hr.2.2.2.2]; simp), if_pos hr.not_computed]
      obtain ⟨⟨N, hh⟩, hi, hnc, hcc, hcx⟩ := hr
      obtain ⟨H', hfz, hHl, hdig⟩ := Finalize_eq g hh hi (f := []) (pb := 0x80) (by simp) (by decide +kernel) c (by simpa using hnc) t
      have hstep : Finalize a 0x80 ⟨c, t⟩ = some ((), ⟨done c H', t⟩) := hfz
      have hd := digestLoop_eq hw8 hwp H' ⟨done c H', t⟩ h.size 0 (by rw [hHl, Nat.zero_add]; exact g.out)
      rw [List.drop_zero, hdig, List.append_nil] at hd
      rw [bind_eq hstep, bind_eq (getCtx_eq _)]
      refine ⟨done c H', t, (bind_eq hd).trans rfl, ?_⟩
      exact ⟨by show (1 : Nat) ≠ 0; decide, hcx, hHl, by rw [List.append_nil] at hdig; exact hdig, by simp [done]⟩
    | finished f =>
      rw [if_neg (by rw [hr.2.1]; simp), if_neg hr.1, bind_eq (getCtx_eq _)]
      have hd := digestLoop_eq hw8 hwp c.Intermediate_Hash ⟨c, t⟩ h.size 0 (by rw [hr.2.2.1, Nat.zero_add]; exact g.out)
      rw [List.drop_zero, hr.2.2.2.1] at hd
      exact ⟨c, t, (bind_eq hd).trans rfl, hr⟩
    | bad e k =>
      rw [if_pos (by rw [hr.1]; exact hr.2.1), pure_eq, hr.1]
      exact ⟨c, t, rfl, hr⟩

theorem engine_run (g : Good h a nH) : ∀ (os : List Op) {p : Phase} {c : Ctx h.w} (_ : Rel h nH p c) (t : BitVec h.w),
    ∃ c' t', (engine h a).run os ⟨c, t⟩ = some (trace h p os, ⟨c', t'⟩) ∧ c'.Message_Block.length = 2 * h.w
  | [], p, c, hr, t => ⟨c, t, rfl, hr.block⟩
  | o :: os, p, c, hr, t => by
    obtain ⟨c1, t1, h1, hr1⟩ := engine_step g hr t o
    obtain ⟨c2, t2, h2, hr2⟩ := engine_run g os hr1 t1
    refine ⟨c2, t2, ?_, hr2⟩
    rw [Api.run, bind_eq h1, bind_eq h2]; rfl

/-- Any history on a context whose contents are arbitrary, starting with a reset. -/
theorem engine_history (g : Good h a nH) (c : Ctx h.w) (t : BitVec h.w) (hb : c.Message_Block.length = 2 * h.w) (os : List Op) :
    ∃ c' t', (engine h a).run (.reset :: os) ⟨c, t⟩ = some ((0, []) :: trace h (.absorbing []) os, ⟨c', t'⟩) := by
  obtain ⟨c1, h1, hr1⟩ := reset_eq g c t hb
  obtain ⟨c2, t2, h2, _⟩ := engine_run g os hr1 t
  refine ⟨c2, t2, ?_⟩
  have he : (engine h a).exec .reset ⟨c, t⟩ = some ((0, []), ⟨c1, t⟩) := by
    show (Reset h.iv >>= fun r => pure (r, [])) _ = _
    rw [bind_eq h1]; rfl
  rw [Api.run, bind_eq he, bind_eq h2]; rfl

end Verif.Sha
