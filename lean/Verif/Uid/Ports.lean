import Verif.Uid.Spec
import Verif.Tac
/-!
# `adapters/uniqueid_linux.c` and `adapters/uniqueid_win32.c` (C84)

libuuid and the RPC runtime of Windows are parameters with a contract.  `uid` is a block of the caller of at least `len` bytes.
-/
namespace Verif.Uid

/-- `memset(p, 0, len)` -/
def zeros (p : Ptr) (len : Nat) : M Unit := storeN p 0 (List.replicate len (.byte 0))

/-! ## Linux -/

/-- `UniqueId_Generate`, adapters/uniqueid_linux.c:13-35.  `uuid_generate` gives the 16 bytes it stores in the local array;
`uuid_unparse` writes the text of the identifier and a NUL: `form` is that text. -/
def Linux.UniqueId_Generate (uuid_generate : M (List UInt8)) (form : List UInt8 → List UInt8) (uid : Ptr) (len : Nat) : M UNIQUEID_RESULT := do
  if uid = 0 ∨ len < 37 then pure .invalid_arg else do
  let uuidVal ← uuid_generate
  zeros uid len
  storeN uid 0 (bytesV (form uuidVal ++ [0]))
  pure .ok

/-- Contract of `uuid_generate`: `Net us` is its memory after it has returned the identifiers `us`. -/
def Linux.Honours (rel : Prop) (uuid_generate : M (List UInt8)) (Net : List (List UInt8) → HProp) : Prop :=
  ∀ us, Triple rel (Net us) uuid_generate (fun u => Net (us ++ [u]))

variable {rel : Prop}

theorem zeros_spec {p : Ptr} {len : Nat} {b : Block} (h : len ≤ b.length) :
    Triple rel (p ↦ b) (zeros p len) (fun _ => p ↦ List.replicate len (.byte 0) ++ b.drop len) := by
  refine (storeN_spec (vs := List.replicate len (.byte 0)) (by simpa using h)).conseq (entails_refl _) fun _ => entails_of_eq ?_
  simp

/-- Linux, for every buffer that is long enough: it holds the text of the identifier `uuid_generate` has made, a NUL, and zeros up to
`len`; nothing after that is touched. -/
theorem Linux.generate {uuid_generate : M (List UInt8)} {form : List UInt8 → List UInt8} {Net : List (List UInt8) → HProp}
    (hg : Linux.Honours rel uuid_generate Net) (hf : ∀ u, (form u).length = 36) {uid : Ptr} {len : Nat} {b : Block} (h0 : uid ≠ 0)
    (hlen : 37 ≤ len) (hb : len ≤ b.length) (us : List (List UInt8)) :
    Triple rel (uid ↦ b ∗ Net us) (Linux.UniqueId_Generate uuid_generate form uid len)
      (fun r => (r = .ok) ⋏ ∃∃ u, uid ↦ bytesV (form u ++ List.replicate (len - 36) 0) ++ b.drop len ∗ Net (us ++ [u])) := by
  unfold Linux.UniqueId_Generate
  rw [if_neg (by omega)]
  step (hg us) into u
  step (zeros_spec hb)
  have hl : (bytesV (form u ++ [0])).length = 37 := by simp [bytesV, hf]
  step (storeN_spec (b := List.replicate len (.byte 0) ++ b.drop len) (vs := bytesV (form u ++ [0])) (by rw [hl]; simp; omega))
  refine Triple.pure (entails_pand_r (entails_ex_r u (entails_of_eq ?_)) rfl)
  rw [hl]
  congr 2
  have e : List.drop 37 (List.replicate len (Val.byte 0)) = List.replicate (len - 37) (.byte 0) := by simp
  rw [List.take_zero, List.nil_append, show 0 + 37 = 37 from rfl, List.drop_append_of_le_length (by simpa using hlen), e,
    show len - 36 = len - 37 + 1 by omega]
  simp [bytesV, List.replicate_succ, List.map_append]

/-- Bad arguments: nothing is written. -/
theorem Linux.generate_invalid {uuid_generate : M (List UInt8)} {form : List UInt8 → List UInt8} {uid : Ptr} {len : Nat}
    (h : uid = 0 ∨ len < 37) {A : HProp} :
    Triple rel A (Linux.UniqueId_Generate uuid_generate form uid len) (fun r => (r = .invalid_arg) ⋏ A) := by
  unfold Linux.UniqueId_Generate
  rw [if_pos h]
  exact Triple.pure (entails_pand_r (entails_refl _) rfl)

/-! ## Windows -/

/-- The calls to the RPC runtime.  A status is a number, `RPC_S_OK` is 0. -/
structure Rpc where
  UuidCreate : M Nat
  UuidToStringA : M (Nat × Ptr)
  RpcStringFreeA : Ptr → M Unit

/-- `RPC_S_UUID_LOCAL_ONLY` -/
def LOCAL_ONLY : Nat := 1824

/-- `UniqueId_Generate`, adapters/uniqueid_win32.c:11-57.  `cpyLen` (lines 43-47) is computed and not used. -/
def Win32.UniqueId_Generate (rpc : Rpc) (uid : Ptr) (len : Nat) : M UNIQUEID_RESULT := do
  if uid = 0 ∨ len < 37 then pure .invalid_arg else do
  let status ← rpc.UuidCreate
  if status ≠ 0 ∧ status ≠ LOCAL_ONLY then pure .error else do
  let (status, randomResult) ← rpc.UuidToStringA
  if status ≠ 0 then pure .error else do
  zeros uid len
  let _cpyLen ← strlen (.heap randomResult 0)
  memcpy uid 0 (.heap randomResult 0) len
  rpc.RpcStringFreeA randomResult
  pure .ok

/-- What the runtime did: it made an identifier (`some`: and turned it into this text), or did not. -/
abbrev Trace := List (Option (List UInt8))

/-- Contract of the RPC runtime: a text is 36 characters and a NUL, in a block of its own that `RpcStringFreeA` releases. -/
structure Win32.Honours (rel : Prop) (rpc : Rpc) (Net : Trace → HProp) : Prop where
  create : ∀ tr, Triple rel (Net tr) rpc.UuidCreate (fun _ => Net tr)
  text : ∀ tr, Triple rel (Net tr) rpc.UuidToStringA (fun r =>
    if r.1 = 0 then ∃∃ t : List UInt8, (t.length = 36 ∧ 0 ∉ t) ⋏ r.2 ↦ bytesV (t ++ [0]) ∗ Net (tr ++ [some t]) else Net (tr ++ [none]))
  free : ∀ tr p b, Triple rel (p ↦ b ∗ Net tr) (rpc.RpcStringFreeA p) (fun _ => Net tr)

/-- Windows, for a buffer of which 37 bytes are used: it holds the text the runtime has made, or is not touched and the call fails. -/
theorem Win32.generate_partial {rpc : Rpc} {Net : Trace → HProp} (hr : Win32.Honours rel rpc Net) {uid : Ptr} {b : Block} (h0 : uid ≠ 0)
    (hb : 37 ≤ b.length) (tr : Trace) :
    Triple rel (uid ↦ b ∗ Net tr) (Win32.UniqueId_Generate rpc uid 37) (fun r =>
      match r with
      | .ok => ∃∃ t, (t.length = 36 ∧ 0 ∉ t) ⋏ uid ↦ bytesV (t ++ [0]) ++ b.drop 37 ∗ Net (tr ++ [some t])
      | .error => ∃∃ tr', (tr' = tr ∨ tr' = tr ++ [none]) ⋏ uid ↦ b ∗ Net tr'
      | .invalid_arg => (False) ⋏ emp) := by
  unfold Win32.UniqueId_Generate
  rw [if_neg (by omega)]
  step (hr.create tr) into s
  refine Triple.ite (fun h => ?_) fun h => ?_
  · exact Triple.pure (entails_ex_r tr (entails_pand_r (entails_of_eq (sep_comm _ _)) (.inl rfl)))
  step (hr.text tr) into r
  obtain ⟨s, p⟩ := r
  dsimp only
  by_cases hs : s = 0
  · subst hs
    rw [if_pos rfl, if_neg (by simp)]
    hoist
    intro t ht hn
    step (zeros_spec hb)
    refine Triple.pre (?_ : Triple rel (CStr (.heap p 0) t ∗ uid ↦ List.replicate 37 (.byte 0) ++ b.drop 37 ∗ Net (tr ++ [some t])) _ _) ?_
    · step strlen_spec
      step (memcpy_cstr (b := List.replicate 37 (.byte 0) ++ b.drop 37) (t := t) (by omega) (by simp))
      unfold CStr
      hoist
      intro vs _ _
      step (hr.free (tr ++ [some t]) p vs)
      refine Triple.pure (entails_ex_r t (entails_pand_r ?_ ⟨ht, hn⟩))
      have e : patch (List.replicate 37 (.byte 0) ++ b.drop 37) 0 (bytesV ((t ++ [0]).take 37)) = bytesV (t ++ [0]) ++ b.drop 37 := by
        have : (t ++ [0]).take 37 = t ++ [0] := List.take_of_length_le (by simp [ht])
        rw [this]
        have hl : (bytesV (t ++ [0])).length = 37 := by simp [bytesV, ht]
        unfold patch
        rw [hl]
        simp
      rw [e]
      exact entails_of_eq (sep_comm _ _)
    · refine entails_trans (entails_of_eq ?_) (sep_mono (entails_ex_r (bytesV (t ++ [0])) (entails_pand_r (entails_refl _)
        ⟨by simp, by rw [List.drop_zero]; exact cstrV_bytes' hn⟩)) (entails_refl _))
      simp only [sep_assoc, sep_left_comm, sep_comm]
  · rw [if_neg hs, if_pos hs]
    exact Triple.pure (entails_ex_r (tr ++ [none]) (entails_pand_r (entails_of_eq (sep_comm _ _)) (.inr rfl)))

/-- Bad arguments: nothing is written and the runtime is not called. -/
theorem Win32.generate_invalid {rpc : Rpc} {uid : Ptr} {len : Nat} (h : uid = 0 ∨ len < 37) {A : HProp} :
    Triple rel A (Win32.UniqueId_Generate rpc uid len) (fun r => (r = .invalid_arg) ⋏ A) := by
  unfold Win32.UniqueId_Generate
  rw [if_pos h]
  exact Triple.pure (entails_pand_r (entails_refl _) rfl)

/-! ## The hypotheses are met, and what does not hold -/

/-- A library that gives the identifier 0 every time honours the contract, and so do the two below. -/
example : Linux.Honours rel (pure (List.replicate 16 0)) (fun _ => emp) := fun _ => Triple.pure (entails_refl _)

/-- 36 characters -/
def sample : List UInt8 := "2c1a6d3e-0f4b-4c55-9d1e-7a8b9c0d1e2f".toList.map fun c => UInt8.ofNat c.toNat

/-- A runtime that puts the text out in a new block of exactly 37 bytes. -/
def demoRpc : Rpc where
  UuidCreate := pure 0
  UuidToStringA := do
    let p ← malloc 37
    if p = 0 then pure (14, 0) else do
    storeN p 0 (bytesV (sample ++ [0]))
    pure (0, p)
  RpcStringFreeA := free

theorem demoRpc_honours : Win32.Honours rel demoRpc (fun _ => emp) where
  create := fun _ => Triple.pure (entails_refl _)
  text := fun _ => by
    unfold demoRpc
    dsimp only
    refine Triple.malloc (fun hr => ?_) fun p hp hm => ?_
    · rw [if_pos rfl]
      exact Triple.pure (entails_refl _)
    · rw [if_neg hp]
      step (storeN_spec (b := List.replicate 37 .undef) (vs := bytesV (sample ++ [0])) (by decide +kernel))
      refine Triple.pure ?_
      rw [if_pos rfl]
      exact entails_ex_r sample (entails_pand_r (entails_of_eq (by rw [sep_emp]; congr 1)) (by decide +kernel))
  free := fun _ p b => by
    refine (free_spec (p := p) (b := b)).conseq (entails_of_eq (sep_emp _)) fun _ => entails_refl _

/-- A caller with a block of `n` bytes who asks for an identifier in it. -/
def ask (n : Nat) : M (UNIQUEID_RESULT × List Val) := do
  let uid ← malloc n
  let r ← Win32.UniqueId_Generate demoRpc uid n
  let vs ← loadN uid 0 n
  pure (r, vs)

/-- The block of 37 bytes: the text and the NUL. -/
example : outcome (ask 37) (St.start bump) = some (.ok (.ok, bytesV (sample ++ [0]))) := by decide +kernel

/-- `len` bytes are copied from the runtime's 37, so a caller with a larger buffer makes the function read outside the text: it is
undefined, although the arguments are good. -/
theorem Win32.overread : ∃ why, outcome (ask 38) (St.start bump) = some (.error (.ub why)) := by
  refine ⟨"memcpy source out of bounds", ?_⟩
  decide +kernel

end Verif.Uid
