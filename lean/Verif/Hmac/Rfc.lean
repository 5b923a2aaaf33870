import Verif.Hmac.Props
import Verif.Sha.Examples
/-!
# hmac.c equals RFC 2104 (C37)
-/
namespace Verif.Hmac
open Verif.Sha

theorem xorLoop_eq (x : UInt8) (key : List UInt8) : ∀ (n k : Nat), k + n = key.length → key.length ≤ 128 →
    xorLoop x key n ((key.take k).map (· ^^^ x)) = some (key.map (· ^^^ x))
  | 0, k, h, _ => by rw [xorLoop, List.take_of_length_le (by omega)]
  | n + 1, k, h, hl => by
    have hlen : ((key.take k).map (· ^^^ x)).length = k := by simp; omega
    rw [xorLoop, hlen, if_pos (by omega)]
    have hk : k < key.length := by omega
    rw [List.getElem?_eq_getElem hk]
    dsimp only
    have : (key.take k).map (· ^^^ x) ++ [key[k] ^^^ x] = (key.take (k + 1)).map (· ^^^ x) := by
      rw [List.take_succ_eq_append_getElem hk, List.map_append]; rfl
    rw [this]
    exact xorLoop_eq x key n (k + 1) (by omega) hl

theorem fillLoop_eq (x : UInt8) : ∀ (n : Nat) (pad : List UInt8), pad.length + n ≤ 128 →
    fillLoop x n pad = some (pad ++ List.replicate n x)
  | 0, pad, _ => by rw [fillLoop]; simp
  | n + 1, pad, h => by
    rw [fillLoop, if_pos (by omega), fillLoop_eq x n _ (by simp; omega)]
    simp [List.replicate_succ]

/-- A key of at most a block, zero-padded. -/
def padded (v : Which) (key : List UInt8) : List UInt8 := key ++ List.replicate (2 * v.hash.w - key.length) 0

theorem padded_map (v : Which) (key : List UInt8) (x : UInt8) :
    (padded v key).map (· ^^^ x) = key.map (· ^^^ x) ++ List.replicate (2 * v.hash.w - key.length) x := by
  simp [padded]

theorem padded_length (v : Which) {key : List UInt8} (h : key.length ≤ 2 * v.hash.w) : (padded v key).length = 2 * v.hash.w := by
  simp [padded]; omega

theorem block_le (v : Which) : 2 * v.hash.w ≤ 128 := by cases v <;> decide
theorem size_le (v : Which) : v.hash.size ≤ 64 := by cases v <;> decide
theorem size_le_block (v : Which) : v.hash.size ≤ 2 * v.hash.w := by cases v <;> decide
theorem limit_ge (v : Which) : 2 ^ 64 ≤ limit v.hash := pow_big v

/-- The HMAC context after a reset with the block-sized key `K` and the text `t`. -/
def HRel (v : Which) (K t : List UInt8) (c : HMACContext) : Prop :=
  c.whichSha = num v ∧ c.hashSize = v.hash.size ∧ c.blockSize = 2 * v.hash.w ∧ c.k_opad = K.map (· ^^^ 0x5c) ∧
  URel v (.absorbing (K.map (· ^^^ 0x36) ++ t)) c.shaContext

theorem step_input {v : Which} {acc m : List UInt8} (h : 8 * (acc.length + m.length) < limit v.hash) :
    step v.hash (.absorbing acc) (.input m) = (.absorbing (acc ++ m), 0, []) := by
  by_cases hm : m = []
  · subst hm; simp [step]
  · simp only [step, if_neg hm, if_pos h]

theorem liftU {α : Type} {x : Option α} {a : α} (h : x = some a) (st : Statics) : lift x st = some (a, st) := by
  rw [h]; rfl

theorem hmacPads_eq (v : Which) {ctx : HMACContext} (hs : Sized ctx.shaContext) (h1 : ctx.whichSha = num v) (h2 : ctx.hashSize = v.hash.size)
    (h3 : ctx.blockSize = 2 * v.hash.w) {key : List UInt8} (hk : key.length ≤ 2 * v.hash.w) {key_len : Int} (hl : key_len.toNat = key.length)
    (st : Statics) :
    ∃ ctx' st', hmacPads ctx (num v) key key_len st = some ((0, ctx'), st') ∧ HRel v (padded v key) [] ctx' := by
  have hb := block_le v
  have hlim := limit_ge v
  have e1 : xorLoop 0x36 key key_len.toNat [] = some (key.map (· ^^^ 0x36)) := by
    rw [hl]; exact xorLoop_eq 0x36 key key.length 0 (by omega) (by omega)
  have e2 : xorLoop 0x5c key key_len.toNat [] = some (key.map (· ^^^ 0x5c)) := by
    rw [hl]; exact xorLoop_eq 0x5c key key.length 0 (by omega) (by omega)
  have e3 : fillLoop 0x36 (ctx.blockSize - (key.map (· ^^^ (0x36 : UInt8))).length) (key.map (· ^^^ 0x36)) = some ((padded v key).map (· ^^^ 0x36)) := by
    rw [h3, fillLoop_eq _ _ _ (by simp; omega), padded_map]; simp
  have e4 : fillLoop 0x5c (ctx.blockSize - (key.map (· ^^^ (0x5c : UInt8))).length) (key.map (· ^^^ 0x5c)) = some ((padded v key).map (· ^^^ 0x5c)) := by
    rw [h3, fillLoop_eq _ _ _ (by simp; omega), padded_map]; simp
  unfold hmacPads
  rw [bindU (liftU e1 st), bindU (liftU e2 st), bindU (liftU e3 st), bindU (liftU e4 st)]
  obtain ⟨u1, st1, r1, hu1⟩ := USHAReset_eq v (u := ctx.shaContext) hs st
  rw [bindU r1]
  dsimp only
  rw [if_neg (by simp)]
  obtain ⟨u2, st2, r2, hu2⟩ := USHAInput_eq hu1 st1 ((padded v key).map (· ^^^ 0x36)) (n := ctx.blockSize)
    (by rw [h3, List.length_map, padded_length v hk])
  rw [step_input (by rw [List.length_map, padded_length v hk]; simp; omega)] at r2 hu2
  rw [bindU r2]
  refine ⟨_, st2, rfl, h1, h2, h3, rfl, ?_⟩
  simpa using hu2

/-- The key as RFC 2104 uses it. -/
theorem blockKey_long {v : Which} {key : List UInt8} (h : key.length > 2 * v.hash.w) :
    blockKey v.hash key = padded v (v.hash.ofBytes key) := by
  unfold blockKey padded; rw [if_pos h]

theorem blockKey_short {v : Which} {key : List UInt8} (h : ¬ key.length > 2 * v.hash.w) : blockKey v.hash key = padded v key := by
  unfold blockKey padded; rw [if_neg h]

theorem blockKey_length (v : Which) (key : List UInt8) : (blockKey v.hash key).length = 2 * v.hash.w := by
  by_cases h : key.length > 2 * v.hash.w
  · rw [blockKey_long h, padded_length]
    show (v.hash.digest _).length ≤ _
    rw [(USHA_sizes v).2.2.2]; exact size_le_block v
  · rw [blockKey_short h, padded_length]; omega

theorem hashKey_eq (v : Which) {tctx : USHAContext} (hs : Sized tctx) {key : List UInt8} {key_len : Int} (hl : toUnsigned key_len = key.length)
    (hm : 8 * key.length < limit v.hash) (st : Statics) :
    ∃ st', hashKey tctx (num v) key key_len st = some (some (v.hash.ofBytes key), st') := by
  obtain ⟨u1, st1, r1, hu1⟩ := USHAReset_eq v hs st
  obtain ⟨u2, st2, r2, hu2⟩ := USHAInput_eq hu1 st1 key (n := toUnsigned key_len) hl
  rw [step_input (by simpa using hm)] at r2 hu2
  obtain ⟨u3, st3, r3, hu3⟩ := USHAResult_eq hu2 st2
  refine ⟨st3, ?_⟩
  unfold hashKey
  rw [bindU r1]
  dsimp only
  rw [if_neg (by simp), bindU r2]
  dsimp only
  rw [if_neg (by simp), bindU r3]
  rfl

/-- The int argument holds a length. -/
theorem toUnsigned_ofNat {n : Nat} (h : n < 2 ^ 32) : toUnsigned n = n := by unfold toUnsigned; omega

theorem hmacReset_eq (v : Which) {tctx : USHAContext} {ctx : HMACContext} (ht : Sized tctx) (hs : Sized ctx.shaContext) {key : List UInt8}
    (hk : key.length < 2 ^ 31) (st : Statics) :
    ∃ ctx' st', hmacReset tctx ctx (num v) key key.length st = some ((0, ctx'), st') ∧ HRel v (blockKey v.hash key) [] ctx' := by
  have hsz := USHA_sizes v
  unfold hmacReset
  dsimp only
  rw [hsz.1, hsz.2.1]
  by_cases hlong : key.length > 2 * v.hash.w
  · rw [if_pos (by omega)]
    obtain ⟨st1, r1⟩ := hashKey_eq v ht (key := key) (key_len := key.length) (toUnsigned_ofNat (by omega))
      (by have := limit_ge v; omega) st
    rw [bindU r1, blockKey_long hlong]
    have hlen : (v.hash.ofBytes key).length = v.hash.size := hsz.2.2.2 _
    exact hmacPads_eq v (ctx := { ctx with blockSize := 2 * v.hash.w, hashSize := v.hash.size, whichSha := num v }) hs rfl rfl rfl
      (by rw [hlen]; exact size_le_block v) (by rw [hlen]; rfl) st1
  · rw [if_neg (by omega), blockKey_short hlong]
    exact hmacPads_eq v (ctx := { ctx with blockSize := 2 * v.hash.w, hashSize := v.hash.size, whichSha := num v }) hs rfl rfl rfl
      (by omega) (by simp) st

theorem hmacInput_eq {v : Which} {K t : List UInt8} {c : HMACContext} (h : HRel v K t c) {text : List UInt8} {text_len : Int}
    (hl : toUnsigned text_len = text.length) (hm : 8 * (K.length + t.length + text.length) < limit v.hash) (st : Statics) :
    ∃ c' st', hmacInput c (some text) text_len st = some ((0, c'), st') ∧ HRel v K (t ++ text) c' := by
  obtain ⟨h1, h2, h3, h4, h5⟩ := h
  obtain ⟨u, st1, r1, hu⟩ := USHAInput_eq h5 st text (n := toUnsigned text_len) hl
  rw [step_input (by rw [List.length_append, List.length_map]; exact hm)] at r1 hu
  refine ⟨{ c with shaContext := u }, st1, ?_, h1, h2, h3, h4, ?_⟩
  · unfold hmacInput; rw [bindU r1]; rfl
  · rw [← List.append_assoc]; exact hu

theorem hmacResult_eq {v : Which} {K t : List UInt8} {c : HMACContext} (h : HRel v K t c) (hK : K.length = 2 * v.hash.w) (st : Statics) :
    ∃ c' st', hmacResult c st = some (((0, v.hash.ofBytes (K.map (· ^^^ 0x5c) ++ v.hash.ofBytes (K.map (· ^^^ 0x36) ++ t))), c'), st') := by
  obtain ⟨h1, h2, h3, h4, h5⟩ := h
  have hb := block_le v
  have hz := size_le v
  have hlim := limit_ge v
  have hlen : ∀ m, (v.hash.ofBytes m).length = v.hash.size := fun m => (USHA_sizes v).2.2.2 _
  obtain ⟨u1, st1, r1, hu1⟩ := USHAResult_eq h5 st
  obtain ⟨u2, st2, r2, hu2⟩ := USHAReset_eq v hu1.2.2 st1
  obtain ⟨u3, st3, r3, hu3⟩ := USHAInput_eq hu2 st2 c.k_opad (n := c.blockSize) (by rw [h3, h4, List.length_map, hK])
  rw [step_input (by rw [h4, List.length_map, hK]; simp; omega)] at r3 hu3
  obtain ⟨u4, st4, r4, hu4⟩ := USHAInput_eq hu3 st3 (v.hash.ofBytes (K.map (· ^^^ 0x36) ++ t)) (n := c.hashSize) (by rw [h2, hlen])
  rw [step_input (by rw [List.nil_append, h4, List.length_map, hK, hlen]; omega)] at r4 hu4
  obtain ⟨u5, st5, r5, hu5⟩ := USHAResult_eq hu4 st4
  refine ⟨{ c with shaContext := u5 }, st5, ?_⟩
  unfold hmacResult
  rw [bindU r1]
  dsimp only [step]
  rw [if_neg (by simp), h1, bindU r2]
  dsimp only
  rw [if_neg (by simp), bindU r3]
  dsimp only
  rw [if_neg (by simp), bindU r4]
  dsimp only
  rw [if_neg (by simp), bindU r5]
  dsimp only [step]
  rw [h4, List.nil_append]; rfl

/-- **C37**.  `hmac` returns 0 and the RFC 2104 value, for every hash, key and text (whose lengths an `int` can hold), whatever the
uninitialised locals and the file-scope variables hold. -/
theorem hmac_rfc2104 (v : Which) {tctx : USHAContext} {ctx : HMACContext} (ht : Sized tctx) (hs : Sized ctx.shaContext) (st : Statics)
    (key text : List UInt8) (hk : key.length < 2 ^ 31) {text_len : Int} (hl : toUnsigned text_len = text.length) :
    ∃ st', hmac tctx ctx (num v) (some text) text_len key key.length st = some ((0, rfc2104 v.hash key text), st') := by
  have hb := block_le v
  have hlim := limit_ge v
  have hm : text.length < 2 ^ 32 := by rw [← hl]; unfold toUnsigned; omega
  have hK := blockKey_length v key
  obtain ⟨c1, st1, r1, hc1⟩ := hmacReset_eq v ht hs hk st
  obtain ⟨c2, st2, r2, hc2⟩ := hmacInput_eq hc1 hl (by rw [hK]; simp; omega) st1
  obtain ⟨c3, st3, r3⟩ := hmacResult_eq hc2 hK st2
  refine ⟨st3, ?_⟩
  unfold hmac
  rw [bindU r1]
  dsimp only
  rw [if_neg (by simp), bindU r2]
  dsimp only
  rw [if_neg (by simp), bindU r3]
  rfl

/-- The text in parts, with the codes of all calls. -/
def hmacParts (tctx : USHAContext) (ctx : HMACContext) (whichSha : Nat) (key : List UInt8) (parts : List (List UInt8)) :
    U (List Nat × Nat × List UInt8) := do
  let (e, ctx) ← hmacReset tctx ctx whichSha key key.length
  let (es, ctx) ← inputs parts ctx
  let (r, _) ← hmacResult ctx
  pure (e :: es, r)
where
  inputs : List (List UInt8) → HMACContext → U (List Nat × HMACContext)
    | [], ctx => pure ([], ctx)
    | p :: ps, ctx => do
      let (e, ctx) ← hmacInput ctx (some p) p.length
      let (es, ctx) ← inputs ps ctx
      pure (e :: es, ctx)

theorem inputs_eq {v : Which} {K : List UInt8} : ∀ (parts : List (List UInt8)) {t : List UInt8} {c : HMACContext}, HRel v K t c →
    (∀ p ∈ parts, p.length < 2 ^ 32) → 8 * (K.length + t.length + parts.flatten.length) < limit v.hash → ∀ st : Statics,
    ∃ c' st', hmacParts.inputs parts c st = some ((parts.map (fun _ => 0), c'), st') ∧ HRel v K (t ++ parts.flatten) c'
  | [], t, c, h, _, _, st => ⟨c, st, rfl, by simpa using h⟩
  | p :: ps, t, c, h, hp, hm, st => by
    rw [List.flatten_cons, List.length_append] at hm
    obtain ⟨c1, st1, r1, h1⟩ := hmacInput_eq h (text := p) (text_len := p.length) (toUnsigned_ofNat (hp p (by simp))) (by omega) st
    obtain ⟨c2, st2, r2, h2⟩ := inputs_eq ps h1 (fun q hq => hp q (by simp [hq])) (by rw [List.length_append]; omega) st1
    refine ⟨c2, st2, ?_, by simpa using h2⟩
    unfold hmacParts.inputs
    rw [bindU r1]
    dsimp only
    rw [bindU r2]
    rfl

/-- **C37**, the text given by any sequence of `hmacInput` calls (each length an `unsigned int` can hold; total less than the limit of
the hash). -/
theorem hmac_parts (v : Which) {tctx : USHAContext} {ctx : HMACContext} (ht : Sized tctx) (hs : Sized ctx.shaContext) (st : Statics)
    (key : List UInt8) (hk : key.length < 2 ^ 31) (parts : List (List UInt8)) (hp : ∀ p ∈ parts, p.length < 2 ^ 32)
    (hm : 8 * (2 * v.hash.w + parts.flatten.length) < 2 ^ (2 * v.hash.w)) :
    ∃ st', hmacParts tctx ctx (num v) key parts st = some ((0 :: parts.map (fun _ => 0), 0, rfc2104 v.hash key parts.flatten), st') := by
  have hK := blockKey_length v key
  obtain ⟨c1, st1, r1, hc1⟩ := hmacReset_eq v ht hs hk st
  obtain ⟨c2, st2, r2, hc2⟩ := inputs_eq parts hc1 hp (by rw [hK]; simpa [limit] using hm) st1
  obtain ⟨c3, st3, r3⟩ := hmacResult_eq hc2 hK st2
  refine ⟨st3, ?_⟩
  unfold hmacParts
  rw [bindU r1]
  dsimp only
  rw [bindU r2]
  dsimp only
  rw [bindU r3]
  rfl

/-- A negative key length acts as an empty key. -/
theorem hmac_negative_key (v : Which) {tctx : USHAContext} {ctx : HMACContext} (hs : Sized ctx.shaContext) (st : Statics)
    (key text : List UInt8) {key_len text_len : Int} (hneg : key_len < 0) (hl : toUnsigned text_len = text.length) :
    ∃ st', hmac tctx ctx (num v) (some text) text_len key key_len st = some ((0, rfc2104 v.hash [] text), st') := by
  have hb := block_le v
  have hlim := limit_ge v
  have hsz := USHA_sizes v
  have hm : text.length < 2 ^ 32 := by rw [← hl]; unfold toUnsigned; omega
  have hK := blockKey_length v []
  have hpads : ∀ (c : HMACContext) st, hmacPads c (num v) key key_len st = hmacPads c (num v) [] key_len st := by
    intro c st
    have hz : key_len.toNat = 0 := by omega
    unfold hmacPads
    rw [hz]; rfl
  have hreset : ∃ ctx' st', hmacReset tctx ctx (num v) key key_len st = some ((0, ctx'), st') ∧ HRel v (blockKey v.hash []) [] ctx' := by
    unfold hmacReset
    dsimp only
    rw [hsz.1, hsz.2.1, if_neg (by omega), hpads, blockKey_short (by simp)]
    exact hmacPads_eq v (ctx := { ctx with blockSize := 2 * v.hash.w, hashSize := v.hash.size, whichSha := num v }) hs rfl rfl rfl
      (by simp) (by simp; omega) st
  obtain ⟨c1, st1, r1, hc1⟩ := hreset
  obtain ⟨c2, st2, r2, hc2⟩ := hmacInput_eq hc1 hl (by rw [hK]; simp; omega) st1
  obtain ⟨c3, st3, r3⟩ := hmacResult_eq hc2 hK st2
  refine ⟨st3, ?_⟩
  unfold hmac
  rw [bindU r1]
  dsimp only
  rw [if_neg (by simp), bindU r2]
  dsimp only
  rw [if_neg (by simp), bindU r3]
  rfl

end Verif.Hmac
