import Verif.Sha.History
import Verif.Hmac.Model
import Verif.Hmac.Spec
/-!
# Properties of usha.c and hmac.c (C33, C37)
-/
namespace Verif.Hmac
open Verif.Sha

/-- The number of a hash function in the enumeration `SHAversion`. -/
def num : Which → Nat
  | .sha1 => SHA1
  | .sha224 => SHA224
  | .sha256 => SHA256
  | .sha384 => SHA384
  | .sha512 => SHA512

/-- The arrays of the contexts have their declared sizes; the contents are arbitrary. -/
def Sized (u : USHAContext) : Prop :=
  u.sha1Context.Message_Block.length = 64 ∧ u.sha256Context.Message_Block.length = 64 ∧ u.sha512Context.Message_Block.length = 128

def member : (v : Which) → USHAContext → Ctx v.hash.w
  | .sha1, u => u.sha1Context
  | .sha224, u => u.sha256Context
  | .sha256, u => u.sha256Context
  | .sha384, u => u.sha512Context
  | .sha512, u => u.sha512Context

def setMember : (v : Which) → USHAContext → Ctx v.hash.w → USHAContext
  | .sha1, u, c => { u with sha1Context := c }
  | .sha224, u, c => { u with sha256Context := c }
  | .sha256, u, c => { u with sha256Context := c }
  | .sha384, u, c => { u with sha512Context := c }
  | .sha512, u, c => { u with sha512Context := c }

def static : (v : Which) → Statics → BitVec v.hash.w
  | .sha1, s => s.t1
  | .sha224, s => s.t256
  | .sha256, s => s.t256
  | .sha384, s => s.t512
  | .sha512, s => s.t512

def on {α : Type} : (v : Which) → S v.hash.w α → USHAContext → U (α × USHAContext)
  | .sha1, x => on1 x
  | .sha224, x => on256 x
  | .sha256, x => on256 x
  | .sha384, x => on512 x
  | .sha512, x => on512 x

theorem on1_eq {α : Type} {x : S 32 α} {u : USHAContext} {st : Statics} {a : α} {s : Sh 32} (h : x ⟨u.sha1Context, st.t1⟩ = some (a, s)) :
    ∃ st', on1 x u st = some ((a, { u with sha1Context := s.ctx }), st') := by
  refine ⟨{ st with t1 := s.addTemp }, ?_⟩
  unfold on1; rw [h]

theorem on256_eq {α : Type} {x : S 32 α} {u : USHAContext} {st : Statics} {a : α} {s : Sh 32} (h : x ⟨u.sha256Context, st.t256⟩ = some (a, s)) :
    ∃ st', on256 x u st = some ((a, { u with sha256Context := s.ctx }), st') := by
  refine ⟨{ st with t256 := s.addTemp }, ?_⟩
  unfold on256; rw [h]

theorem on512_eq {α : Type} {x : S 64 α} {u : USHAContext} {st : Statics} {a : α} {s : Sh 64} (h : x ⟨u.sha512Context, st.t512⟩ = some (a, s)) :
    ∃ st', on512 x u st = some ((a, { u with sha512Context := s.ctx }), st') := by
  refine ⟨{ st with t512 := s.addTemp }, ?_⟩
  unfold on512; rw [h]

theorem on_eq {α : Type} (v : Which) {x : S v.hash.w α} {u : USHAContext} {st : Statics} {a : α} {s : Sh v.hash.w}
    (h : x ⟨member v u, static v st⟩ = some (a, s)) : ∃ st', on v x u st = some ((a, setMember v u s.ctx), st') := by
  cases v
  · exact on1_eq h
  · exact on256_eq h
  · exact on256_eq h
  · exact on512_eq h
  · exact on512_eq h

theorem USHAReset_on (v : Which) (u : USHAContext) : USHAReset u (num v) = on v v.api.reset { u with whichSha := num v } := by
  cases v <;> rfl

theorem USHAInput_on (v : Which) (u : USHAContext) (h : u.whichSha = num v) (m : Option (List UInt8)) (n : Nat) :
    USHAInput u m n = on v (v.api.input m n) u := by
  unfold USHAInput; rw [h]; cases v <;> rfl

theorem USHAFinalBits_on (v : Which) (u : USHAContext) (h : u.whichSha = num v) (b : UInt8) (n : Nat) :
    USHAFinalBits u b n = on v (v.api.finalBits b n) u := by
  unfold USHAFinalBits; rw [h]; cases v <;> rfl

theorem USHAResult_on (v : Which) (u : USHAContext) (h : u.whichSha = num v) : USHAResult u = on v v.api.result u := by
  unfold USHAResult; rw [h]; cases v <;> rfl

/-- A unified context of the hash `v` in a phase of the specification. -/
def URel (v : Which) (p : Phase) (u : USHAContext) : Prop :=
  u.whichSha = num v ∧ Rel v.hash v.words p (member v u) ∧ Sized u

theorem sized_member (v : Which) {u : USHAContext} (h : Sized u) : (member v u).Message_Block.length = 2 * v.hash.w := by
  cases v
  · exact h.1
  · exact h.2.1
  · exact h.2.1
  · exact h.2.2
  · exact h.2.2

theorem setMember_rel {v : Which} {p : Phase} {u : USHAContext} {c : Ctx v.hash.w} (h : u.whichSha = num v) (hs : Sized u)
    (hr : Rel v.hash v.words p c) : URel v p (setMember v u c) := by
  have hb := hr.block
  cases v
  · exact ⟨h, hr, hb, hs.2.1, hs.2.2⟩
  · exact ⟨h, hr, hs.1, hb, hs.2.2⟩
  · exact ⟨h, hr, hs.1, hb, hs.2.2⟩
  · exact ⟨h, hr, hs.1, hs.2.1, hb⟩
  · exact ⟨h, hr, hs.1, hs.2.1, hb⟩

theorem unpair {w : Nat} {x : S w Nat} {s s' : Sh w} {q : Nat × List UInt8}
    (h : (x >>= fun r => pure (r, ([] : List UInt8))) s = some (q, s')) : x s = some (q.1, s') := by
  have h' : Option.bind (x s) (fun p => some ((p.1, []), p.2)) = some (q, s') := h
  cases hx : x s with
  | none => rw [hx] at h'; cases h'
  | some p => rw [hx] at h'; cases h'; rfl

theorem api_step (v : Which) {p : Phase} {c : Ctx v.hash.w} (hr : Rel v.hash v.words p c) (t : BitVec v.hash.w) (o : Op) :
    ∃ c' t', v.api.exec o ⟨c, t⟩ = some ((step v.hash p o).2, ⟨c', t'⟩) ∧ Rel v.hash v.words (step v.hash p o).1 c' := by
  rw [v.api_eq]; exact engine_step v.good hr t o

theorem USHAReset_eq (v : Which) {u : USHAContext} (hs : Sized u) (st : Statics) :
    ∃ u' st', USHAReset u (num v) st = some ((0, u'), st') ∧ URel v (.absorbing []) u' := by
  rw [USHAReset_on]
  have hs' : Sized { u with whichSha := num v } := hs
  obtain ⟨c', h1, h2⟩ := reset_eq v.good (member v { u with whichSha := num v }) (static v st) (sized_member v hs')
  have h1' : v.api.reset ⟨member v { u with whichSha := num v }, static v st⟩ = some (0, ⟨c', static v st⟩) := by
    rw [v.api_eq]; exact h1
  obtain ⟨st', h3⟩ := on_eq v h1'
  exact ⟨_, st', h3, setMember_rel rfl hs' h2⟩

theorem USHAInput_eq {v : Which} {p : Phase} {u : USHAContext} (hu : URel v p u) (st : Statics) (m : List UInt8) {n : Nat} (hn : n = m.length) :
    ∃ u' st', USHAInput u (some m) n st = some (((step v.hash p (.input m)).2.1, u'), st') ∧ URel v (step v.hash p (.input m)).1 u' := by
  subst hn
  rw [USHAInput_on v u hu.1]
  obtain ⟨c', t', h1, h2⟩ := api_step v hu.2.1 (static v st) (.input m)
  obtain ⟨st', h3⟩ := on_eq v (unpair h1)
  exact ⟨_, st', h3, setMember_rel hu.1 hu.2.2 h2⟩

theorem USHAInput_null {v : Which} {p : Phase} {u : USHAContext} (hu : URel v p u) (st : Statics) (n : Nat) :
    ∃ u' st', USHAInput u none n st = some ((if n = 0 then 0 else 1, u'), st') ∧ URel v p u' := by
  rw [USHAInput_on v u hu.1]
  obtain ⟨c', t', h1, h2⟩ := api_step v hu.2.1 (static v st) (.inputNull n)
  obtain ⟨st', h3⟩ := on_eq v (unpair h1)
  have e : step v.hash p (.inputNull n) = (p, if n = 0 then 0 else 1, []) := by cases p <;> rfl
  rw [e] at h3 h2
  exact ⟨_, st', h3, setMember_rel hu.1 hu.2.2 h2⟩

theorem USHAFinalBits_eq {v : Which} {p : Phase} {u : USHAContext} (hu : URel v p u) (st : Statics) (b : UInt8) (n : Nat) :
    ∃ u' st', USHAFinalBits u b n st = some (((step v.hash p (.finalBits b n)).2.1, u'), st') ∧ URel v (step v.hash p (.finalBits b n)).1 u' := by
  rw [USHAFinalBits_on v u hu.1]
  obtain ⟨c', t', h1, h2⟩ := api_step v hu.2.1 (static v st) (.finalBits b n)
  obtain ⟨st', h3⟩ := on_eq v (unpair h1)
  exact ⟨_, st', h3, setMember_rel hu.1 hu.2.2 h2⟩

theorem USHAResult_eq {v : Which} {p : Phase} {u : USHAContext} (hu : URel v p u) (st : Statics) :
    ∃ u' st', USHAResult u st = some (((step v.hash p .result).2, u'), st') ∧ URel v (step v.hash p .result).1 u' := by
  rw [USHAResult_on v u hu.1]
  obtain ⟨c', t', h1, h2⟩ := api_step v hu.2.1 (static v st) .result
  obtain ⟨st', h3⟩ := on_eq v h1
  exact ⟨_, st', h3, setMember_rel hu.1 hu.2.2 h2⟩

/-! ## usha.c (C33) -/

/-- A call of the unified interface. -/
def uexec (v : Which) (u : USHAContext) : Op → U ((Nat × List UInt8) × USHAContext)
  | .reset => do let (r, u) ← USHAReset u (num v); pure ((r, []), u)
  | .input m => do let (r, u) ← USHAInput u (some m) m.length; pure ((r, []), u)
  | .inputNull n => do let (r, u) ← USHAInput u none n; pure ((r, []), u)
  | .finalBits b n => do let (r, u) ← USHAFinalBits u b n; pure ((r, []), u)
  | .result => USHAResult u

def urun (v : Which) : List Op → USHAContext → U (List (Nat × List UInt8))
  | [], _ => pure []
  | o :: os, u => do
    let (r, u) ← uexec v u o
    let rs ← urun v os u
    pure (r :: rs)

theorem bindU {α β : Type} {x : U α} {f : α → U β} {st st' : Statics} {a : α} (h : x st = some (a, st')) : (x >>= f) st = f a st' := by
  show Option.bind (x st) (fun p => f p.1 p.2) = _
  rw [h]; rfl

theorem urun_eq (v : Which) : ∀ (os : List Op) {p : Phase} {u : USHAContext} (st : Statics), URel v p u →
    ∃ st', urun v os u st = some (trace v.hash p os, st')
  | [], p, u, st, _ => ⟨st, rfl⟩
  | o :: os, p, u, st, hu => by
    have hstep : ∃ u' st', uexec v u o st = some (((step v.hash p o).2, u'), st') ∧ URel v (step v.hash p o).1 u' := by
      cases o with
      | reset =>
        obtain ⟨u', st', h1, h2⟩ := USHAReset_eq v hu.2.2 st
        have e : step v.hash p .reset = (.absorbing [], 0, []) := by cases p <;> rfl
        rw [e]
        exact ⟨u', st', (bindU h1).trans rfl, h2⟩
      | input m =>
        obtain ⟨u', st', h1, h2⟩ := USHAInput_eq hu st m rfl
        refine ⟨u', st', ?_, h2⟩
        refine (bindU h1).trans ?_
        have : (step v.hash p (.input m)).2.2 = [] := by
          cases p <;> simp only [step] <;> (repeat' split) <;> rfl
        show some (((_, []), u'), st') = _
        rw [← this]
      | inputNull n =>
        obtain ⟨u', st', h1, h2⟩ := USHAInput_null hu st n
        have e : step v.hash p (.inputNull n) = (p, if n = 0 then 0 else 1, []) := by cases p <;> rfl
        rw [e]
        exact ⟨u', st', (bindU h1).trans rfl, h2⟩
      | finalBits b n =>
        obtain ⟨u', st', h1, h2⟩ := USHAFinalBits_eq hu st b n
        refine ⟨u', st', ?_, h2⟩
        refine (bindU h1).trans ?_
        have : (step v.hash p (.finalBits b n)).2.2 = [] := by
          cases p <;> simp only [step] <;> (repeat' split) <;> rfl
        show some (((_, []), u'), st') = _
        rw [← this]
      | result => exact USHAResult_eq hu st
    obtain ⟨u1, st1, h1, h2⟩ := hstep
    obtain ⟨st2, h3⟩ := urun_eq v os st1 h2
    refine ⟨st2, ?_⟩
    unfold urun; rw [bindU h1]
    show (urun v os u1 >>= _) st1 = _
    rw [bindU h3]; rfl

/-- **C33, C35 for the unified interface**: every history that starts with a reset, whatever the context held before. -/
theorem USHA_history (v : Which) (u : USHAContext) (hs : Sized u) (st : Statics) (os : List Op) :
    ∃ st', urun v (.reset :: os) u st = some ((0, []) :: trace v.hash (.absorbing []) os, st') := by
  obtain ⟨u', st', h1, h2⟩ := USHAReset_eq v hs st
  obtain ⟨st2, h3⟩ := urun_eq v os st' h2
  refine ⟨st2, ?_⟩
  have he : uexec v u .reset st = some (((0, []), u'), st') := (bindU h1).trans rfl
  unfold urun; rw [bindU he]
  show (urun v os u' >>= _) st' = _
  rw [bindU h3]; rfl

/-- An unknown hash is refused. -/
theorem USHAReset_bad (u : USHAContext) (n : Nat) (h : 4 < n) (st : Statics) :
    USHAReset u n st = some ((4, { u with whichSha := n }), st) := by
  match n, h with
  | n + 5, _ => rfl

/-- The sizes reported are those of the standard. -/
theorem USHA_sizes (v : Which) : USHABlockSize (num v) = 2 * v.hash.w ∧ USHAHashSize (num v) = v.hash.size ∧
    USHAHashSizeBits (num v) = 8 * v.hash.size ∧ ∀ m, (v.hash.digest m).length = v.hash.size := by
  refine ⟨by cases v <;> rfl, by cases v <;> rfl, by cases v <;> rfl, fun m => ?_⟩
  have hl : ∀ n, (v.hash.after (Fips.pad v.hash.w m) n).length = v.words := by
    intro n
    induction n with
    | zero => exact v.good.iv
    | succ n ih => exact v.good.len _ _ ih
  unfold Fips.Hash.digest
  rw [List.length_take]
  have hf : ∀ (l : List (BitVec v.hash.w)), (l.flatMap Fips.wordBytes).length = v.hash.w / 8 * l.length := by
    intro l
    induction l with
    | nil => rfl
    | cons x l ih =>
      rw [List.flatMap_cons, List.length_append, ih, List.length_cons, Nat.mul_succ]
      simp [Fips.wordBytes]; omega
  rw [hf, hl]
  have := v.good.out
  omega

end Verif.Hmac
