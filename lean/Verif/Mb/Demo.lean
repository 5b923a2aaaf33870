import Verif.Mb.Ledger
import Verif.Curl.Demo
/-!
# A connection class that meets the contract of `Honours`, and runs of the code on it

The theorems about histories are not vacuous; the runs at the end show what the theorems leave out.
-/
set_option linter.unusedSimpArgs false
set_option linter.unusedVariables false
namespace Verif.Mb
open Verif.Headers Verif.Buffer
open Verif.Curl (fillStatus)
open Verif.Curl (Args peel freshAt strchrF strchrF_eq strchr)
open Verif.Sas (text)
open Verif.Map (okText)

/-- the demo: `S n` is all the peer sends once it has received `n` line feeds; at most `cap` bytes are received with one call -/
structure Plan where
  S : Nat → Text
  fin : Bool := true
  cap : Nat := 1

/-- An object: whether it is connected, how many line feeds were sent, how many bytes were received. -/
def demoLib (d : Plan) : Lib where
  construct c := storeN c 0 (List.replicate 8 (.int 0))
  destruct _ := pure ()
  isConnected c := do
    let f ← loadInt c 0
    pure (f == 1)
  connect c _ _ := do
    storeN c 0 [.int 1, .int 0, .int 0]
    pure 0
  close c := store c 0 (.int 0)
  loadCertificate _ _ _ := pure true
  sendAll c p n := do
    let r ← storage p
    let k ← loadInt c 1
    store c 1 (.int (k + (r.take n.toNat).count (.byte 10)))
    pure 0
  receive c p off n := do
    let k ← loadInt c 1
    let pos ← loadInt c 2
    let ins := (d.S k).drop pos
    if ins = [] then
      if d.fin then pure 0 else do
      storeN p off (List.replicate n.toNat .undef)
      pure (-1)
    else do
      let t := ins.take (min d.cap n.toNat)
      storeN p off (bytesV t)
      store c 2 (.int (pos + t.length))
      pure t.length

def demoNet (_ : List Ev) : HProp := emp
def Idle (c : Nat) : HProp := ∃∃ l : List Val, (l.length = 7) ⋏ c ↦ (.int 0 :: l)
def demoPeer (d : Plan) (_ : Text) (w : Wire) : Prop := w.srv = (fun t => d.S (t.count 10)) ∧ w.fin = d.fin
def Busy (d : Plan) (c : Nat) (w : Wire) : HProp :=
  ∃∃ l : List Val, (demoPeer d [] w ∧ l.length = 5) ⋏ c ↦ (.int 1 :: .int (w.out.count 10) :: .int w.pos :: l)
def demoCon (d : Plan) (c : Nat) : Option Wire → HProp
  | none => Idle c
  | some w => Busy d c w

theorem Busy_eq {d : Plan} {c : Nat} {w : Wire} : Busy d c w =
  ∃∃ l : List Val, (demoPeer d [] w ∧ l.length = 5) ⋏ c ↦ (.int 1 :: .int (w.out.count 10) :: .int w.pos :: l) := rfl
theorem Idle_eq {c : Nat} : Idle c = ∃∃ l : List Val, (l.length = 7) ⋏ c ↦ (.int 0 :: l) := rfl

theorem count_bytes {bs : Text} : (bytesV bs).count (.byte 10) = bs.count 10 := by
  induction bs with
  | nil => rfl
  | cons b bs ih =>
    rw [show bytesV (b :: bs) = .byte b :: bytesV bs from rfl, List.count_cons, List.count_cons, ih]
    by_cases h : b = 10 <;> simp [h]

theorem demo_honours {rel : Prop} (d : Plan) (hc : 0 < d.cap) : Honours rel (demoLib d) demoNet (demoCon d) (demoPeer d) True where
  construct c b tr hb := by
    simp only [demoLib, demoNet, demoCon, emp_sep, Idle_eq]
    last (storeN_spec' (p := c) (b := b) (off := 0) (vs := List.replicate 8 (Val.int 0)) (by simp [hb]))
    rw [patch_full (by simp [hb])]
    exact entails_ex_r (List.replicate 7 (.int 0)) (entails_pand_r (by rw [sep_emp]; exact entails_refl _) (by simp))
  destruct c o tr := by
    simp only [demoLib, demoNet, emp_sep]
    refine Triple.pure ?_
    cases o with
    | none =>
      rw [demoCon, Idle_eq, Raw]
      exact entails_ex_l fun l => entails_pand_l fun _ => entails_ex_r _ (entails_refl _)
    | some w =>
      rw [demoCon, Busy_eq, Raw]
      exact entails_ex_l fun l => entails_pand_l fun _ => entails_ex_r _ (entails_refl _)
  isConnected c o := by
    simp only [demoLib]
    cases o with
    | none =>
      simp only [demoCon]
      conv => arg 2; rw [Idle_eq]
      hoist; intro l hl
      step (loadInt_spec (p := c) (b := .int 0 :: l) (off := 0) (n := 0) rfl)
      exact Triple.pure (entails_pand_r (entails_ex_r l (entails_pand_r (by sep_cancel) hl)) (by rfl))
    | some w =>
      simp only [demoCon]
      conv => arg 2; rw [Busy_eq]
      hoist; intro l hp hl
      step (loadInt_spec (p := c) (b := .int 1 :: .int (w.out.count 10) :: .int w.pos :: l) (off := 0) (n := 1) rfl)
      exact Triple.pure (entails_pand_r (entails_ex_r l (entails_pand_r (by sep_cancel) ⟨hp, hl⟩)) (by rfl))
  close c o tr := by
    simp only [demoLib, demoNet, demoCon, emp_sep]
    cases o with
    | none =>
      simp only [demoCon]
      conv => arg 2; rw [Idle_eq]
      hoist; intro l hl
      last (store_spec (p := c) (b := .int 0 :: l) (off := 0) (v := .int 0) (by simp))
      exact entails_ex_r l (entails_pand_r (by sep_cancel) hl)
    | some w =>
      simp only [demoCon]
      conv => arg 2; rw [Busy_eq]
      hoist; intro l hp hl
      last (store_spec (p := c) (b := .int 1 :: .int (w.out.count 10) :: .int w.pos :: l) (off := 0) (v := .int 0) (by simp))
      exact entails_ex_r (.int (w.out.count 10) :: .int w.pos :: l) (entails_pand_r (by sep_cancel) (by simp [hl]))
  loadCertificate c V s t tr hr := by
    simp only [demoLib, demoNet]
    exact Triple.pure (entails_refl _)
  connect c V s t p tr hr := by
    simp only [demoLib, demoNet, demoCon, emp_sep]
    conv => arg 2; rw [Idle_eq]
    hoist; intro l hl
    obtain ⟨a, b, l', rfl⟩ : ∃ a b l', l = a :: b :: l' := by
      match l, hl with
      | a :: b :: l', _ => exact ⟨a, b, l', rfl⟩
    step (storeN_spec' (p := c) (b := .int 0 :: a :: b :: l') (off := 0) (vs := [.int 1, .int 0, .int 0]) (by simp))
    refine Triple.pure (entails_ex_r (some ⟨fun t => d.S (t.count 10), [], 0, d.fin⟩) (entails_pand_r ?_ (.inr ⟨rfl, _, rfl, ⟨rfl, rfl⟩, rfl, rfl⟩)))
    simp only [demoCon, Busy_eq, hex_sep, pand_sep]
    exact entails_ex_r l' (entails_pand_r (by simp [patch]; exact entails_refl _) ⟨⟨rfl, rfl⟩, by simpa using hl⟩)
  sendAll c w V p bs hb hr := by
    simp only [demoLib, demoCon]
    conv => arg 2; rw [Busy_eq]
    step (hr.storage (rel := rel)) into r
    intro l hp hl hpre
    step (loadInt_spec (p := c) (b := .int 1 :: .int (w.out.count 10) :: .int w.pos :: l) (off := 1) (n := w.out.count 10) rfl)
    step (store_spec (p := c) (b := .int 1 :: .int (w.out.count 10) :: .int w.pos :: l) (off := 1) (v := .int (w.out.count 10 + (r.take (bs.length : Int).toNat).count (.byte 10))) (by simp))
    refine Triple.pure (entails_ex_r (w.sent bs) (entails_pand_r ?_ ⟨bs.length, Nat.le_refl _, by simp, fun _ _ => rfl⟩))
    have e : r.take (bs.length : Int).toNat = bytesV bs := by
      obtain ⟨t, rfl⟩ := hpre
      simp [bytesV]
    rw [e, count_bytes]
    rw [Busy_eq]
    simp only [hex_sep, pand_sep]
    refine entails_ex_r l (entails_pand_r ?_ ⟨hp, hl⟩)
    simp only [Wire.sent, List.count_append, List.set_cons_succ, List.set_cons_zero]
    sep_cancel
  receive c w p b off n hn hn2 hb := by
    simp only [demoLib, demoCon]
    conv => arg 2; rw [Busy_eq]
    hoist; intro l hp hl
    step (loadInt_spec (p := c) (b := .int 1 :: .int (w.out.count 10) :: .int w.pos :: l) (off := 1) (n := w.out.count 10) rfl)
    step (loadInt_spec (p := c) (b := .int 1 :: .int (w.out.count 10) :: .int w.pos :: l) (off := 2) (n := w.pos) rfl)
    have hi : (d.S (w.out.count 10)).drop w.pos = w.ins := by unfold Wire.ins; rw [hp.1]
    simp only [hi]
    by_cases h0 : w.ins = []
    · rw [if_pos h0]
      have hR : Received (demoCon d) c w p b off n = fun r => if w.fin then (r = 0) ⋏ demoCon d c (some w) ∗ p ↦ b
          else ∃∃ vs : List Val, (r < 0 ∧ vs.length = n) ⋏ demoCon d c (some w) ∗ p ↦ patch b off vs := by
        funext r; unfold Received; rw [if_pos h0]
      rw [hR]
      cases hf : d.fin with
      | true =>
        have : w.fin = true := by rw [hp.2, hf]
        simp only [this, if_true]
        refine Triple.pure (entails_pand_r ?_ rfl)
        rw [demoCon, Busy_eq]; simp only [hex_sep, pand_sep]
        exact entails_ex_r l (entails_pand_r (by sep_cancel) ⟨hp, hl⟩)
      | false =>
        have : w.fin = false := by rw [hp.2, hf]
        simp only [this, Bool.false_eq_true, if_false, Int.toNat_natCast]
        step (storeN_spec' (p := p) (b := b) (off := off) (vs := List.replicate n .undef) (by simpa using hb))
        refine Triple.pure (entails_ex_r (List.replicate n .undef) (entails_pand_r ?_ ⟨by omega, by simp⟩))
        rw [demoCon, Busy_eq]; simp only [hex_sep, pand_sep]
        exact entails_ex_r l (entails_pand_r (by sep_cancel) ⟨hp, hl⟩)
    · rw [if_neg h0]
      have hR : Received (demoCon d) c w p b off n = fun r : Int => ∃∃ k : Nat, (r = k ∧ 0 < k ∧ k ≤ n ∧ k ≤ w.ins.length) ⋏ demoCon d c (some (w.got k)) ∗ p ↦ patch b off (bytesV (w.ins.take k)) := by
        funext r; unfold Received; rw [if_neg h0]
      rw [hR]
      have hlen : 0 < w.ins.length := by cases h : w.ins with
        | nil => exact absurd h h0
        | cons a l => simp
      simp only [Int.toNat_natCast]
      have ht : ∃ k, k = (w.ins.take (min d.cap n)).length ∧ w.ins.take (min d.cap n) = w.ins.take k ∧ 0 < k ∧ k ≤ n ∧ k ≤ w.ins.length := by
        refine ⟨_, rfl, ?_, ?_, ?_, ?_⟩
        · rw [List.take_eq_take_iff, List.length_take]; omega
        · rw [List.length_take]; omega
        · rw [List.length_take]; omega
        · rw [List.length_take]; omega
      obtain ⟨k, e1, e2, k1, k2, k3⟩ := ht
      rw [← e1, e2]
      step (storeN_spec' (p := p) (b := b) (off := off) (vs := bytesV (w.ins.take k)) (by simp [bytesV]; omega))
      step (store_spec (p := c) (b := .int 1 :: .int (w.out.count 10) :: .int w.pos :: l) (off := 2) (v := .int (w.pos + k)) (by simp))
      refine Triple.pure (entails_ex_r k (entails_pand_r ?_ ⟨rfl, k1, k2, k3⟩))
      rw [demoCon, Busy_eq]; simp only [hex_sep, pand_sep]
      refine entails_ex_r l (entails_pand_r ?_ ⟨hp, hl⟩)
      simp only [Wire.got, List.set_cons_succ, List.set_cons_zero]
      sep_cancel

/-! ### The code with `m` steps of every loop unfolded, so that runs can be computed -/
section
variable (m : Nat) (lib : Lib)

def readLineLoopF : Nat → Nat → Ptr → Ptr → Nat → Nat → M Int
  | 0, con, buf, cp, size, p => readLineLoop lib con buf cp size p
  | f + 1, con, buf, cp, size, p => do
    let c ← loadByte cp 0
    if c ≠ 13 then
      if p + 1 ≥ size then pure (-1) else do
      store buf p (.byte c)
      let r ← lib.receive con cp 0 1
      if r < 0 then pure (-1) else readLineLoopF f con buf cp size (p + 1)
    else do
      store buf p (.byte 0)
      let r ← lib.receive con cp 0 1
      if r < 0 then pure (-1) else do
      let c ← loadByte cp 0
      if c ≠ 10 then pure (-1) else pure p
theorem readLineLoopF_eq : ∀ f con buf cp size p, readLineLoopF lib f con buf cp size p = readLineLoop lib con buf cp size p
  | 0, _, _, _, _, _ => rfl
  | f + 1, con, buf, cp, size, p => by rw [readLineLoop]; unfold readLineLoopF; simp only [readLineLoopF_eq f]; first | done | rfl

def readLineF (con : Nat) (buf cp : Ptr) (size : Nat) : M Int := do
  store cp 0 .undef
  let r ← lib.receive con cp 0 1
  if r < 0 then pure (-1) else readLineLoopF lib m con buf cp size 0
theorem readLineF_eq : readLineF m = readLine := by
  funext lib _ _ _ _; unfold readLineF readLine; simp only [readLineLoopF_eq]; first | done | rfl

def readChunkF : Nat → Nat → Ptr → Nat → Nat → Nat → M Int
  | 0, con, buf, off, size, offset => readChunk lib con buf off size offset
  | f + 1, con, buf, off, size, offset => do
    if size > 0 then do
      let r ← lib.receive con buf ((off + offset) % szMod) (toI32 size)
      let cur := (r % szMod).toNat
      if cur = 0 then pure (toI32 offset)
      else readChunkF f con buf off ((size + szMod - cur) % szMod) ((offset + cur) % szMod)
    else pure (toI32 offset)
theorem readChunkF_eq : ∀ f con buf off size offset, readChunkF lib f con buf off size offset = readChunk lib con buf off size offset
  | 0, _, _, _, _, _ => rfl
  | f + 1, con, buf, off, size, offset => by rw [readChunk]; unfold readChunkF; simp only [readChunkF_eq f]; first | done | rfl

def skipNF : Nat → Nat → Ptr → Nat → Nat → Nat → M Int
  | 0, con, buf, size, org, n => skipN lib con buf size org n
  | f + 1, con, buf, size, org, n => do
    if n > size then do
      let r ← readChunkF lib m con buf 0 size 0
      if r < 0 then pure (-1) else skipNF f con buf size org (n - size)
    else do
      let r ← readChunkF lib m con buf 0 n 0
      if r < 0 then pure (-1) else pure (toI32 org)
theorem skipNF_eq : ∀ f con buf size org n, skipNF m lib f con buf size org n = skipN lib con buf size org n
  | 0, _, _, _, _, _ => rfl
  | f + 1, con, buf, size, org, n => by rw [skipN]; unfold skipNF; simp only [skipNF_eq f, readChunkF_eq]; first | done | rfl

def addLineF (rh buf : Ptr) : M Unit := do
  let w ← strchrF m buf 58 0
  match w with
  | none => pure ()
  | some i =>
    if rh ≠ 0 then do
      store buf i (.byte 0)
      let _ ← HTTPHeaders_AddHeaderNameValuePair rh (.heap buf 0) (.heap buf (i + 1))
      pure ()
    else pure ()
theorem addLineF_eq : addLineF m = addLine := by
  funext _ _; unfold addLineF addLine; simp only [strchrF_eq]; first | done | rfl

def readHeadersF : Nat → Nat → Ptr → Ptr → Ptr → Nat → Bool → M (Option (Nat × Bool))
  | 0, con, buf, cp, rh, bodyLength, chunked => readHeaders lib con buf cp rh bodyLength chunked
  | f + 1, con, buf, cp, rh, bodyLength, chunked => do
    let r ← readLineF m lib con buf cp TEMP_BUFFER_SIZE
    if r < 0 then pure none else do
    let c ← loadByte buf 0
    if c = 0 then pure (some (bodyLength, chunked)) else do
    let e ← lineEffect buf bodyLength chunked
    match e with
    | none => pure none
    | some (bodyLength, chunked) => do
      addLineF m rh buf
      readHeadersF f con buf cp rh bodyLength chunked
theorem readHeadersF_eq : ∀ f con buf cp rh bodyLength chunked, readHeadersF m lib f con buf cp rh bodyLength chunked = readHeaders lib con buf cp rh bodyLength chunked
  | 0, _, _, _, _, _, _ => rfl
  | f + 1, con, buf, cp, rh, bodyLength, chunked => by rw [readHeaders]; unfold readHeadersF; simp only [readHeadersF_eq f, readLineF_eq, addLineF_eq]; first | done | rfl

def plainBodyF (con : Nat) (buf rc : Ptr) (bodyLength : Nat) : M Res := do
  if bodyLength ≠ 0 then
    if rc ≠ 0 then do
      let w ← prepare rc bodyLength
      match w with
      | none => ub "use of a pointer that is not initialised"
      | some p => do
        let r ← readChunkF lib m con p 0 bodyLength 0
        if r < 0 then pure .readDataFailed else pure .ok
    else do
      let _ ← skipNF m lib m con buf TEMP_BUFFER_SIZE bodyLength bodyLength
      pure .ok
  else pure .ok
theorem plainBodyF_eq : plainBodyF m = plainBody := by
  funext lib _ _ _ _; unfold plainBodyF plainBody; simp only [readChunkF_eq, skipNF_eq]; first | done | rfl

def skipCrlfF (con : Nat) (buf : Ptr) : M Bool := do
  let r ← readChunkF lib m con buf 0 2 0
  if r < 0 then pure false else do
  let a ← loadByte buf 0
  if a ≠ 13 then pure false else do
  let b ← loadByte buf 1
  pure (b == 10)
theorem skipCrlfF_eq : skipCrlfF m = skipCrlf := by
  funext lib _ _; unfold skipCrlfF skipCrlf; simp only [readChunkF_eq]; first | done | rfl

def chunkDataF (con : Nat) (buf rc : Ptr) (size : Nat) (z : Int) (received : Option Ptr) (result : Res) : M (Option (Option Ptr × Res)) := do
  let n := (z % szMod).toNat
  if rc ≠ 0 then do
    let x ← enlarge rc n received result
    match x.1 with
    | none => ub "use of a pointer that is not initialised"
    | some p => do
      let r ← readChunkF lib m con p size n 0
      if r < 0 then pure none else pure (some x)
  else do
    let r ← skipNF m lib m con buf TEMP_BUFFER_SIZE n n
    if r < 0 then pure none else pure (some (received, result))
theorem chunkDataF_eq : chunkDataF m = chunkData := by
  funext lib _ _ _ _ _ _ _; unfold chunkDataF chunkData; simp only [readChunkF_eq, skipNF_eq]; first | done | rfl

def chunkLoopF : Nat → Nat → Ptr → Ptr → Ptr → Nat → Option Ptr → Res → M Res
  | 0, con, buf, cp, rc, size, received, result => chunkLoop lib con buf cp rc size received result
  | f + 1, con, buf, cp, rc, size, received, result => do
    let r ← readLineF m lib con buf cp TEMP_BUFFER_SIZE
    if r < 0 then pure .readDataFailed else do
    let t ← cstr (.heap buf 0)
    match scanHex t with
    | none => pure .receiveResponseFailed
    | some u =>
      if ¬ fitsHex u then ub "number not representable" else do
      let z := toI32 (u % 2 ^ 32).toNat
      if z = 0 then do
        let ok ← skipCrlfF m lib con buf
        if ok then pure result else do
        let _ ← BUFFER_unbuild rc
        pure .readDataFailed
      else do
      let x ← chunkDataF m lib con buf rc size z received result
      match x with
      | none => pure .readDataFailed
      | some (received, result) => do
        let ok ← skipCrlfF m lib con buf
        if ok then chunkLoopF f con buf cp rc ((size + (z % szMod).toNat) % szMod) received result else pure .readDataFailed
theorem chunkLoopF_eq : ∀ f con buf cp rc size received result, chunkLoopF m lib f con buf cp rc size received result = chunkLoop lib con buf cp rc size received result
  | 0, _, _, _, _, _, _, _ => rfl
  | f + 1, con, buf, cp, rc, size, received, result => by rw [chunkLoop]; unfold chunkLoopF; simp only [chunkLoopF_eq f, readLineF_eq, skipCrlfF_eq, chunkDataF_eq]; first | done | rfl

def receiveF (con : Nat) (buf cp statusCode rh rc : Ptr) : M Res := do
  let r ← readLineF m lib con buf cp TEMP_BUFFER_SIZE
  if r < 0 then pure .readDataFailed else do
  let t ← cstr (.heap buf 0)
  match scanStatus t with
  | none => pure .readDataFailed
  | some z =>
    if ¬ fitsInt z then ub "number not representable" else do
    fillStatus statusCode z
    let x ← readHeadersF m lib m con buf cp rh 0 false
    match x with
    | none => pure .readDataFailed
    | some (bodyLength, chunked) =>
      if chunked then chunkLoopF m lib m con buf cp rc 0 none .ok else plainBodyF m lib con buf rc bodyLength
theorem receiveF_eq : receiveF m = receive := by
  funext lib _ _ _ _ _ _; unfold receiveF receive; simp only [readLineF_eq, readHeadersF_eq, plainBodyF_eq, chunkLoopF_eq]; first | done | rfl

def HTTPAPI_ExecuteRequestF (buf cp : Ptr) (handle : Ptr) (requestType : Nat) (relativePath : CharPtr) (httpHeadersHandle : Ptr) (content : CharPtr)
    (contentLength : Nat) (statusCode responseHeadersHandle responseContent : Ptr) : M Res := do
  if handle = 0 ∨ relativePath = .null ∨ httpHeadersHandle = 0 ∨ methodName requestType = .null then pure .invalidArg else do
  let x ← HTTPHeaders_GetHeaderCount httpHeadersHandle true
  match x with
  | (.ok, some headersCount) => do
    let con ← loadPtr handle fCon
    let r ← ensureConnected lib handle con
    if r ≠ .ok then pure r else do
    let r ← send lib con buf (methodName requestType) relativePath httpHeadersHandle headersCount content contentLength
    if r ≠ .ok then pure r else
    receiveF m lib con buf cp statusCode responseHeadersHandle responseContent
  | _ => pure .invalidArg
theorem HTTPAPI_ExecuteRequestF_eq : HTTPAPI_ExecuteRequestF m = HTTPAPI_ExecuteRequest := by
  funext lib _ _ _ _ _ _ _ _ _ _ _; unfold HTTPAPI_ExecuteRequestF HTTPAPI_ExecuteRequest; simp only [receiveF_eq]; first | done | rfl

def requestOneF (buf cp h : Ptr) (type : Nat) (path : Option Text) (hdrs : Option (List (Text × Text))) (content : Option Text) (len : Nat)
    (status : Option Val) (rhdrs : Option (List (Text × Text))) (rcontent : Bool) : M Res := do
  let hq ← Ex.mkHeaders hdrs
  let st ← Ex.mkStatus status
  let hr ← Ex.mkHeaders rhdrs
  let cr ← mkBody rcontent
  let r ← HTTPAPI_ExecuteRequestF m lib buf cp h type (Map.lit path) hq (Curl.dat content) (match content with | some bs => bs.length | none => len) st hr cr
  Headers.HTTPHeaders_Free hq
  free st
  Headers.HTTPHeaders_Free hr
  Buffer.BUFFER_delete cr
  pure r
theorem requestOneF_eq : requestOneF m = requestOne := by
  funext lib _ _ _ _ _ _ _ _ _ _ _; unfold requestOneF requestOne; simp only [HTTPAPI_ExecuteRequestF_eq]; first | done | rfl

def execF (buf cp : Ptr) (op : Op) (env : List Nat) : M (Option Out × List Nat) :=
  match op with
  | .request i type path hdrs content len status rhdrs rcontent => on1 env i fun h => do
    let r ← requestOneF m lib buf cp h type path hdrs content len status rhdrs rcontent
    pure (some (.result r), env)
  | op => exec lib buf cp op env
theorem execF_eq : execF m = exec := by
  funext lib buf cp op env; unfold execF; simp only [requestOneF_eq]; cases op <;> rfl
end

/-! ### A peer that answers -/

/-- a peer that sends `resp` for every two line feeds -/
def echo (resp : Text) : Plan := { S := fun n => (List.replicate (n / 2) resp).flatten }

/-- a response that is read to its end, whatever follows -/
def Whole (resp : Text) : Prop := ∀ c, (c = none ∨ c = some none) → ∀ rest, ∃ y, Says true c (resp ++ rest) y ∧ y.body.rest = rest

/-- a number of responses were read completely, at most as many as were sent -/
def Even (resp : Text) (host : Text) (w : Wire) : Prop := demoPeer (echo resp) host w ∧ ∃ k, w.pos = k * resp.length ∧ k ≤ w.out.count 10 / 2

theorem count_request {x : Args} {path : Text} {hs : Hdrs} : 2 ≤ (requestText x path hs).count 10 := by
  unfold requestText requestLine
  simp only [List.count_append]
  have : (crlf : Text).count 10 = 1 := by decide
  omega

theorem drop_replicate {resp : Text} : ∀ (k m : Nat), k ≤ m → ((List.replicate m resp).flatten).drop (k * resp.length) = (List.replicate (m - k) resp).flatten
  | 0, m, _ => by simp
  | k + 1, 0, h => by omega
  | k + 1, m + 1, h => by
    rw [List.replicate_succ, List.flatten_cons, show (k + 1) * resp.length = resp.length + k * resp.length by rw [Nat.succ_mul]; omega,
      ← List.drop_drop, List.drop_left, drop_replicate k m (by omega)]
    congr 2; omega

theorem echo_served {rel : Prop} {resp : Text} (h : Whole resp) : Served rel True (demoPeer (echo resp)) (Even resp) where
  fresh host w hp h1 h2 := ⟨hp, 0, by simp [h2], by simp⟩
  failed host w x path hs r w' hP hS hr := by
    obtain ⟨t, _, rfl, _, _⟩ := hS.all trivial
    obtain ⟨hp, k, h1, h2⟩ := hP
    refine ⟨hp, k, h1, ?_⟩
    simp only [Wire.sent, List.count_append]
    omega
  answered host w x path hs w' hP hS hx := by
    obtain ⟨t, _, rfl, ht, _⟩ := hS.all trivial
    have ht := ht rfl
    rw [pieces_text] at ht
    subst ht
    obtain ⟨hp, k, h1, h2⟩ := hP
    have hc := count_request (x := x) (path := path) (hs := hs)
    obtain ⟨m, hm⟩ : ∃ m, m = (w.out.count 10 + (requestText x path hs).count 10) / 2 := ⟨_, rfl⟩
    have hk : k + 1 ≤ m := by omega
    have hi : (w.sent (requestText x path hs)).ins = resp ++ (List.replicate (m - k - 1) resp).flatten := by
      unfold Wire.ins Wire.sent
      rw [hp.1]
      simp only [echo, List.count_append]
      rw [← hm, h1, drop_replicate k m (by omega), ← List.flatten_cons, ← List.replicate_succ]
      congr 2; omega
    obtain ⟨y, hy, hr⟩ := h x.rcontent hx ((List.replicate (m - k - 1) resp).flatten)
    refine ⟨y, ?_, hp, k + 1, ?_, ?_⟩
    · rw [hi]
      have : (w.sent (requestText x path hs)).fin = true := hp.2
      rw [this]; exact hy
    · unfold Wire.to Wire.got
      rw [hi, hr]
      simp only [List.length_append, Wire.sent, Nat.add_sub_cancel, h1, Nat.succ_mul]
    · simp only [Wire.to, Wire.got, Wire.sent, List.count_append]
      rw [← hm]; exact hk

/-- a response with two headers, one of them the length of the body, and a body -/
def answer : Text := statusLine (text "1") (text "1") (text "200") (text " OK") ++ crlf ++
  fieldLines [(text "E", text " f"), (text "Content-Length", text " 2")] ++ crlf ++ text "ab"
/-- the same body in two chunks -/
def answerChunked : Text := statusLine (text "1") (text "1") (text "200") (text " OK") ++ crlf ++
  fieldLines [(text "Transfer-Encoding", text " chunked"), (text "E", text " f")] ++ crlf ++ text "1;x\r\na\r\n1\r\nb\r\n0\r\n\r\n"

instance (t : Text) : Decidable (GoodLine t) := by unfold GoodLine; exact inferInstance
instance (t : Text) : Decidable (Digits t) := by unfold Digits; exact inferInstance
instance (t : Text) : Decidable (HexDigits t) := by unfold HexDigits; exact inferInstance
instance (t : Text) : Decidable (White t) := by unfold White; exact inferInstance
instance (n : String) (t : Text) : Decidable (Named n t) := by unfold Named; exact inferInstance

theorem status_ok : StatusOk (text "1") (text "1") (text "200") (text " OK") 200 :=
  ⟨by decide +kernel, by decide +kernel, by decide +kernel, by decide +kernel, by decide, .inr ⟨text "OK", rfl⟩, by decide +kernel⟩
theorem other_e : Other (text "E", text " f") := ⟨by decide +kernel, by decide +kernel, by decide +kernel, by decide +kernel⟩

/-- C89: the hypotheses of `plain_read` are met -/
theorem answer_read {fin : Bool} {c : Option Content} (hc : c = none ∨ c = some none) {rest : Text} :
    Says fin c (answer ++ rest) ⟨some 200, [(text "E", text " f"), (text "Content-Length", text " 2")], ⟨text "ab", .ok, false, rest⟩⟩ := by
  have := plain_read (fin := fin) (c := c) (hs1 := [(text "E", text " f")]) (hs2 := []) (p := (text "Content-Length", text " 2")) (d := text "ab") (rest := rest) status_ok
    (by intro q hq; simp at hq; subst hq; exact other_e) (by simp)
    ⟨by decide +kernel, ⟨text " ", text "2", [], by decide +kernel, by decide +kernel, by decide +kernel, by decide +kernel, by decide +kernel⟩, by decide +kernel⟩ (by decide) hc
  exact this

/-- C89: the hypotheses of `chunked_read` are met -/
theorem answerChunked_read {fin : Bool} {c : Option Content} (hc : c = none ∨ c = some none) {rest : Text} :
    Says fin c (answerChunked ++ rest) ⟨some 200, [(text "Transfer-Encoding", text " chunked"), (text "E", text " f")], ⟨text "ab", .ok, false, rest⟩⟩ := by
  have := chunked_read (fin := fin) (c := c) (hs1 := []) (hs2 := [(text "E", text " f")]) (p := (text "Transfer-Encoding", text " chunked"))
    (ks := [⟨text "1", text ";x", text "a"⟩, ⟨text "1", [], text "b"⟩]) (last := ⟨text "0", [], []⟩) (rest := rest) status_ok
    (by simp) (by intro q hq; simp at hq; subst hq; exact other_e)
    ⟨by decide +kernel, ⟨text " ", text "chunked", by decide +kernel, by decide +kernel, by decide +kernel⟩, by decide +kernel⟩
    (by
      intro k hk
      simp at hk
      rcases hk with rfl | rfl
      · exact ⟨⟨by decide +kernel, by decide +kernel, .inr ⟨text "x", rfl⟩, by decide +kernel, by decide⟩, by decide⟩
      · exact ⟨⟨by decide +kernel, by decide +kernel, .inl rfl, by decide +kernel, by decide⟩, by decide⟩)
    ⟨by decide +kernel, by decide +kernel, .inl rfl, by decide +kernel, by decide⟩ rfl
    (by rcases hc with rfl | rfl <;> decide)
  have e : statusLine (text "1") (text "1") (text "200") (text " OK") ++ crlf ++ fieldLines ([] ++ (text "Transfer-Encoding", text " chunked") :: [(text "E", text " f")]) ++ crlf ++
    chunkText [⟨text "1", text ";x", text "a"⟩, ⟨text "1", [], text "b"⟩] ++ text "0" ++ [] ++ crlf ++ crlf ++ rest = answerChunked ++ rest := by
    unfold answerChunked
    have : text "1;x\r\na\r\n1\r\nb\r\n0\r\n\r\n" = chunkText [⟨text "1", text ";x", text "a"⟩, ⟨text "1", [], text "b"⟩] ++ text "0" ++ [] ++ crlf ++ crlf := by decide +kernel
    rw [this]; simp only [List.append_assoc, List.nil_append]
  rw [← e]; exact this

theorem answer_whole : Whole answer := fun c hc rest => ⟨_, answer_read hc, rfl⟩
theorem answerChunked_whole : Whole answerChunked := fun c hc rest => ⟨_, answerChunked_read hc, rfl⟩

/-! ### Runs of the code on the demo -/

def blank : Block := List.replicate 4096 .undef
theorem blank_length : blank.length = 4096 := List.length_replicate ..

/-- memory of the demo: the automatic arrays (1000, 1001); allocation number `t` is refused if `refuse t` -/
noncomputable def demoSt (refuse : Nat → Bool) : St :=
  { heap := fun p => if p = 1000 then some blank else if p = 1001 then some [.undef] else none,
    alloc := fun t h _ => if refuse t then 0 else freshAt t h, tick := 0 }

theorem demoSt_fin {f : Nat → Bool} : (demoSt f).heap.fin := ⟨1002, fun p hp => by
  have h1 : p ≠ 1000 := by omega
  have h2 : p ≠ 1001 := by omega
  simp [demoSt, h1, h2]⟩

theorem demoSt_reliable : Reliable (demoSt fun _ => false).alloc := Curl.demoSt_reliable

theorem demoSt_net {f : Nat → Bool} : NetL demoNet 1000 1001 [] (demoSt f).heap := by
  have key : (1000 ↦ blank ∗ 1001 ↦ [.undef] ∗ emp) (demoSt f).heap := by
    refine peel rfl ⟨by decide, by rw [blank_length]; decide, rfl⟩ (peel rfl ⟨by decide, by decide, rfl⟩ ?_)
    funext p
    simp only [demoSt]
    by_cases h1 : p = 1000
    · subst h1; rfl
    by_cases h2 : p = 1001
    · subst h2; rfl
    simp [h1, h2, Heap.empty]
  refine (?_ : _ ⊢ₕ _) _ key
  rw [NetL_eq, demoNet, emp_sep, sep_emp, Arr_eq, Cell_eq]
  simp only [hex_sep, pand_sep, sep_hex]
  exact entails_ex_r Val.undef (entails_ex_r _ (entails_pand_r (entails_refl _) blank_length))

/-- what a run returns -/
noncomputable def report (ex : Op → List Nat → M (Option Out × List Nat)) (refuse : Nat → Bool) (ops : List Op) : Option (List (Option Out)) :=
  match runOps ex ops [] (demoSt refuse) with
  | some (.ok ((outs, _), _)) => some outs
  | _ => none

/-- `log` is the record of a run of the code on a connection class that meets the contract -/
def Recorded (Peer : Text → Wire → Prop) (ops : List Op) (outs : List (Option Out)) (as : List (Option Obj)) (log : Log) : Prop :=
  ∃ (lib : Lib) (Net : List Ev → HProp) (Con : Nat → Option Wire → HProp) (P : Text → Wire → Prop) (buf cp : Ptr) (s : St) (env : List Nat) (s' : St),
    Honours True lib Net Con Peer True ∧ Served True True Peer P ∧ s.heap.fin ∧ Reliable s.alloc ∧ NetL Net buf cp [] s.heap ∧ (∀ op ∈ ops, good op) ∧
    runOps (exec lib buf cp) ops [] s = some (.ok ((outs, env), s')) ∧
    Runs (step True True Peer) ([], []) ops outs (as, log) ∧ (Own (ORep (ServedR P Con)) env as ∗ NetL Net buf cp log) s'.heap

/-- from a computed run to its record -/
theorem read_report {resp : Text} (hr : Whole resp) {ops : List Op} {outs : List (Option Out)} (hops : ∀ op ∈ ops, good op)
    (h : report (exec (demoLib (echo resp)) 1000 1001) (fun _ => false) ops = some outs) : ∃ as log, Recorded (demoPeer (echo resp)) ops outs as log := by
  have H := demo_honours (rel := True) (echo resp) Nat.one_pos
  have S := echo_served (rel := True) hr
  obtain ⟨outs', env, as, log, s', k1, k2, k3⟩ := histories_run H S trivial ops hops (demoSt fun _ => false) demoSt_fin demoSt_reliable demoSt_net
  unfold report at h
  rw [k1] at h
  obtain rfl : outs' = outs := by simpa using h
  exact ⟨as, log, _, _, _, _, _, _, _, env, s', H, S, demoSt_fin, demoSt_reliable, demoSt_net, hops, k1, k2, k3⟩

/-- two handles; a `POST` with two headers and two `GET`s on the first -/
def sample : List Op :=
  [.create (some (text "h")), .setOption 0 (some (text "TrustedCerts")) (some (text "pem")), .create (some (text "g")),
   .request 0 1 (some (text "/p")) (some [(text "A", text "b"), (text "C", text "d")]) (some (text "xy")) 0 (some .undef) (some []) true,
   .request 0 0 (some (text "/q")) (some []) none 0 (some .undef) (some []) true, .request 0 0 (some (text "/r")) (some []) none 0 none none false, .close 0,
   .request 0 0 (some (text "/q")) (some []) none 0 (some .undef) (some []) true]
def sampleOuts : List (Option Out) :=
  [some .handle, some (.result .ok), some .handle, some (.result .ok), some (.result .ok), some (.result .ok), some .done, some (.result .invalidArg)]

theorem sample_run : report (exec (demoLib (echo answer)) 1000 1001) (fun _ => false) sample = some sampleOuts := by
  rw [← execF_eq 40]; decide +kernel
theorem sample_run_chunked : report (exec (demoLib (echo answerChunked)) 1000 1001) (fun _ => false) sample = some sampleOuts := by
  rw [← execF_eq 40]; decide +kernel

theorem sample_good : ∀ op ∈ sample, good op := by
  intro op hop
  simp only [sample, List.mem_cons, List.not_mem_nil, or_false] at hop
  rcases hop with rfl | rfl | rfl | rfl | rfl | rfl | rfl | rfl <;>
    simp [good, okText, Ex.okPairs, Ex.okBytes, text, NoNul, maxObj, total, headerLine]

/-- the hypotheses of the theorems about histories are met by a run in which requests succeed -/
theorem sample_recorded : ∃ as log, Recorded (demoPeer (echo answer)) sample sampleOuts as log := read_report answer_whole sample_good sample_run
theorem sample_recorded_chunked : ∃ as log, Recorded (demoPeer (echo answerChunked)) sample sampleOuts as log :=
  read_report answerChunked_whole sample_good sample_run_chunked

/-- two requests on a handle that stays open -/
def gets : List Op :=
  [.create (some (text "h")), .request 0 0 (some (text "/q")) (some []) none 0 none none true, .request 0 0 (some (text "/r")) (some []) none 0 none none true]

theorem gets_run : report (exec (demoLib (echo answer)) 1000 1001) (fun _ => false) gets = some [some .handle, some (.result .ok), some (.result .ok)] := by
  rw [← execF_eq 40]; decide +kernel

/-- an answered request of `gets` -/
theorem get_step {Peer : Text → Wire → Prop} {path : Text} {o : Obj} {log : Log} {as : List (Option Obj)} {log' : Log}
    (h : step True True Peer ([some o], log) (.request 0 0 (some path) (some []) none 0 none none true) (some (.result .ok)) (as, log')) :
    ∃ o' w x x' evs, as = [some o'] ∧ o'.wire = some w ∧ log' = log ++ [⟨0, .request x .ok x', evs⟩] ∧ x.type = 0 ∧ x.path = some path ∧ x.hdrs = some [] ∧ x.content = none ∧
      (x.rcontent = none ∨ x.rcontent = some none) := by
  rcases h with ⟨h, _⟩ | ⟨a, r, a', w', h1, ho, ⟨y, r', y', evs, hm, h4, h5, rfl⟩, h6⟩
  · simp at h
  cases h1
  cases ho
  cases h5
  cases h6
  obtain ⟨m1, m2, m3, m4, m5, m6, m7, m8⟩ := hm
  unfold ExecE at h4
  rw [m2] at h4
  cases hh : y.hdrs with
  | none => rw [hh] at h4; cases h4.1
  | some hs =>
    rw [hh] at h4
    dsimp only at h4
    obtain ⟨ps, hp, hb⟩ := m3.1 hs hh
    cases hp
    have e : hs = [] := hb
    subst e
    have hc : y.rcontent = none ∨ y.rcontent = some none := by
      rcases m8 with h | h
      · exact .inr h
      · exact .inl h.2
    rw [if_neg (by rw [m1]; omega)] at h4
    obtain ⟨r1, w1, _, ⟨h0, e0, _, _⟩ | ⟨_, w, rfl, ⟨_, h, _⟩ | ⟨_, r2, w2, _, ⟨_, _, _, rfl⟩ | ⟨_, z, _, _, _, rfl⟩⟩⟩⟩ := h4
    · exact absurd e0.symm h0
    · cases h
    · exact ⟨_, _, y, y', evs, rfl, rfl, rfl, m1, m2, hh, m4, hc⟩
    · exact ⟨_, _, y, y', evs, rfl, rfl, rfl, m1, m2, hh, m4, hc⟩

theorem get_text {x x' : Args} {r : Res} {path : Text} (h0 : x.type = 0) (h1 : x.path = some path) (h2 : x.hdrs = some []) (h3 : x.content = none) :
    (Called.request x r x').text = text "GET " ++ path ++ text " HTTP/1.1\r\n\r\n" := by
  simp [Called.text, requestText, requestLine, Args.body, h0, h1, h2, h3, verbOf, text]

/-- C90, C91: the hypotheses of `requests_sent` and `answers_matched` are met by a run of two requests, whose answers say more than nothing -/
theorem gets_matched : ∃ as log o w, Recorded (demoPeer (echo answer)) gets [some .handle, some (.result .ok), some (.result .ok)] as log ∧ as[0]? = some (some o) ∧
    o.wire = some w ∧ (∀ c ∈ callsOf 0 log, c.broken = false) ∧ (exchanges 0 log).length = 2 ∧
    ∀ host w0, demoPeer (echo answer) host w0 → ∃ ys, Answers w0.srv w0.fin (exchanges 0 log) ys := by
  have hg : ∀ op ∈ gets, good op := by
    intro op hop
    simp only [gets, List.mem_cons, List.not_mem_nil, or_false] at hop
    rcases hop with rfl | rfl | rfl <;> simp [good, okText, Ex.okPairs, Ex.okBytes, text, NoNul, maxObj, total, headerLine]
  obtain ⟨as, log, hR⟩ := read_report answer_whole hg gets_run
  obtain ⟨lib, Net, Con, P, buf, cp, s, env, s', _, _, _, _, _, _, _, hr, _⟩ := id hR
  obtain _ | ⟨h1, hr⟩ := hr
  obtain _ | ⟨h2, hr⟩ := hr
  obtain _ | ⟨h3, hr⟩ := hr
  obtain _ | _ := hr
  obtain ⟨r, a', w', ho, ⟨evs, hc, hr1, rfl⟩, rfl⟩ := h1
  cases ho
  cases a' with
  | none => rw [if_pos rfl] at hr1; cases hr1
  | some o =>
    rename_i x2
    obtain ⟨as2, log2⟩ := x2
    obtain ⟨o1, w1, x1, x1', evs1, rfl, _, rfl, q1, q2, q3, q4, q5⟩ := get_step h2
    obtain ⟨o2, w2, x2, x2', evs2, rfl, hw, rfl, p1, p2, p3, p4, p5⟩ := get_step h3
    refine ⟨_, _, o2, w2, hR, rfl, hw, ?_, rfl, ?_⟩
    · intro c hc
      simp [callsOf, ofPos] at hc
      rcases hc with rfl | rfl | rfl <;> rfl
    · intro host w0 hp
      have t1 := get_text (r := .ok) (x' := x1') q1 q2 q3 q4
      have t2 := get_text (r := .ok) (x' := x2') p1 p2 p3 p4
      have hx : exchanges 0 ([] ++ [⟨0, .create (some (text "h")), evs⟩] ++ [⟨0, .request x1 .ok x1', evs1⟩] ++ [⟨0, .request x2 .ok x2', evs2⟩]) = [.request x1 .ok x1', .request x2 .ok x2'] := rfl
      refine ⟨[(answer, ⟨some 200, [(text "E", text " f"), (text "Content-Length", text " 2")], ⟨text "ab", .ok, false, []⟩⟩),
        (answer, ⟨some 200, [(text "E", text " f"), (text "Content-Length", text " 2")], ⟨text "ab", .ok, false, []⟩⟩)], rfl, ?_, ?_⟩
      · intro k hk
        rw [hp.1]
        match k with
        | 0 => show (echo answer).S (List.count 10 ([] : Text)) = []; decide +kernel
        | 1 => show (echo answer).S (List.count 10 ((Called.request x1 .ok x1').text ++ [])) = _; rw [t1]; decide +kernel
        | 2 => show (echo answer).S (List.count 10 ((Called.request x1 .ok x1').text ++ ((Called.request x2 .ok x2').text ++ []))) = _; rw [t1, t2]; decide +kernel
        | k + 3 => exact absurd hk (by show ¬ k + 3 ≤ 2; omega)
      · intro k x r x' t y e1 e2
        match k with
        | 0 => cases e1; cases e2; exact ⟨by have := answer_read (fin := w0.fin) q5 (rest := []); rwa [List.append_nil] at this, rfl⟩
        | 1 => cases e1; cases e2; exact ⟨by have := answer_read (fin := w0.fin) p5 (rest := []); rwa [List.append_nil] at this, rfl⟩
        | k + 2 => cases e1

/-! ### what the code does wrong -/

/-- a request for which the buffer holds `old` before: the result, how many response headers there are, what the buffer holds afterwards -/
def fetch (ex : Lib → Ptr → Ptr → Ptr → Nat → CharPtr → Ptr → CharPtr → Nat → Ptr → Ptr → Ptr → M Res) (lib : Lib) (old : Text) : M (Res × Option Nat × Block) := do
  let h ← HTTPAPI_CreateConnection lib (.str (text "h"))
  let q ← Headers.HTTPHeaders_Alloc
  let st ← malloc 1
  let rh ← Headers.HTTPHeaders_Alloc
  let b ← if old = [] then Buffer.BUFFER_new else Buffer.BUFFER_create (.lit old) old.length
  let r ← ex lib 1000 1001 h 0 (.str (text "/")) q .null 0 st rh b
  let k ← Headers.HTTPHeaders_GetHeaderCount rh true
  let n ← Buffer.BUFFER_length b
  let p ← Buffer.BUFFER_u_char b
  let t ← if n = 0 then pure [] else loadN p 0 n
  pure (r, k.2, t)

/-- the peer sends `resp` as soon as it received the request -/
def once (resp : String) : Plan := { S := fun n => if n < 2 then [] else text resp }

/-- C89: a response whose length is given -/
example : outcome (fetch HTTPAPI_ExecuteRequest (demoLib (once "HTTP/1.1 200 OK\r\nA: b\r\nContent-Length: 3\r\n\r\nabc")) []) (demoSt fun _ => false) =
    some (.ok (.ok, some 2, bytesV (text "abc"))) := by
  rw [← HTTPAPI_ExecuteRequestF_eq 40]; decide +kernel

/-- C89: If the stream ends before the body is complete, the result still is `HTTPAPI_OK`, and the rest of the buffer was never written. -/
theorem cut_short : outcome (fetch HTTPAPI_ExecuteRequest (demoLib (once "HTTP/1.1 200 OK\r\nContent-Length: 3\r\n\r\na")) []) (demoSt fun _ => false) =
    some (.ok (.ok, some 1, [.byte 97, .undef, .undef])) := by
  rw [← HTTPAPI_ExecuteRequestF_eq 40]; decide +kernel

/-- C89: If receiving fails within the body, the next call of `receive` is told to write before the start of the buffer's memory (and to write one byte more than expected). -/
theorem wild_write : outcome (fetch HTTPAPI_ExecuteRequest (demoLib { once "HTTP/1.1 200 OK\r\nContent-Length: 3\r\n\r\n" with fin := false }) [])
    (demoSt fun _ => false) = some (.error (.ub "store out of bounds")) := by
  rw [← HTTPAPI_ExecuteRequestF_eq 40]; decide +kernel

/-- C89: If the buffer is not empty before, a body whose length is given is written through a pointer that is not initialised. -/
theorem used_buffer : outcome (fetch HTTPAPI_ExecuteRequest (demoLib (once "HTTP/1.1 200 OK\r\nContent-Length: 3\r\n\r\nabc")) (text "x")) (demoSt fun _ => false) =
    some (.error (.ub "use of a pointer that is not initialised")) := by
  rw [← HTTPAPI_ExecuteRequestF_eq 40]; decide +kernel

/-- C89: If the memory for the body is refused, it is written through a pointer that is not initialised. -/
theorem refused_body : outcome (fetch HTTPAPI_ExecuteRequest (demoLib (once "HTTP/1.1 200 OK\r\nContent-Length: 3\r\n\r\nabc")) []) (demoSt (· ≥ 12)) =
    some (.error (.ub "use of a pointer that is not initialised")) := by
  rw [← HTTPAPI_ExecuteRequestF_eq 40]; decide +kernel

/-- C89: If the peer closes the connection before it answers, a byte is used that was never written. -/
theorem no_answer : outcome (fetch HTTPAPI_ExecuteRequest (demoLib (once "")) []) (demoSt fun _ => false) =
    some (.error (.ub "byte read of a slot that holds no byte")) := by
  rw [← HTTPAPI_ExecuteRequestF_eq 40]; decide +kernel

/-- C89: A response header for which memory is refused is lost; the result still is `HTTPAPI_OK`. -/
theorem header_lost : outcome (fetch HTTPAPI_ExecuteRequest (demoLib (once "HTTP/1.1 204 No Content\r\nA: b\r\n\r\n")) []) (demoSt (· ≥ 11)) =
    some (.ok (.ok, some 0, [])) := by
  rw [← HTTPAPI_ExecuteRequestF_eq 40]; decide +kernel

/-- C89: A body that ends with the connection is not read. -/
theorem body_ignored : outcome (fetch HTTPAPI_ExecuteRequest (demoLib (once "HTTP/1.1 200 OK\r\nConnection: close\r\n\r\nabc")) []) (demoSt fun _ => false) =
    some (.ok (.ok, some 1, [])) := by
  rw [← HTTPAPI_ExecuteRequestF_eq 40]; decide +kernel

/-- C89: If trailers follow the last chunk, the request fails, and the body, that was received completely, is discarded. -/
theorem trailers_refused : outcome (fetch HTTPAPI_ExecuteRequest (demoLib (once "HTTP/1.1 200 OK\r\nTransfer-Encoding: chunked\r\n\r\n1\r\na\r\n0\r\nT: u\r\n\r\n")) [])
    (demoSt fun _ => false) = some (.ok (.readDataFailed, some 1, [])) := by
  rw [← HTTPAPI_ExecuteRequestF_eq 40]; decide +kernel

/-- two requests on one connection: the results -/
def twice (ex : Lib → Ptr → Ptr → Ptr → Nat → CharPtr → Ptr → CharPtr → Nat → Ptr → Ptr → Ptr → M Res) (lib : Lib) : M (Res × Res × Val) := do
  let h ← HTTPAPI_CreateConnection lib (.str (text "h"))
  let q ← Headers.HTTPHeaders_Alloc
  let st ← malloc 1
  let r1 ← ex lib 1000 1001 h 0 (.str (text "/")) q .null 0 0 0 0
  let r2 ← ex lib 1000 1001 h 0 (.str (text "/")) q .null 0 st 0 0
  let v ← load st 0
  pure (r1, r2, v)

/-- C91: After a failure the connection is kept, and what is left of the first response is taken for the second: here, within the first response, the status 302 of the second request. -/
theorem leftover : outcome (twice HTTPAPI_ExecuteRequest (demoLib (once "HTTP/1.1 200 OK\r\nContent-Length: ?\r\nHTTP/1.1 302 OK\r\n\r\n"))) (demoSt fun _ => false) = some (.ok (.readDataFailed, .ok, .int 302)) := by
  rw [← HTTPAPI_ExecuteRequestF_eq 40]; decide +kernel

/-- a connection whose `send_all` sends nothing and returns 0 (as that of `wolfssl_connection.cpp` does when it is not connected); the peer answers as soon as the connection is open -/
def mute (resp : String) : Lib := { demoLib { S := fun _ => text resp } with sendAll := fun _ _ _ => pure 0 }

/-- C90: A request of which nothing was sent is not told from one that was sent. -/
theorem not_sent : outcome (fetch HTTPAPI_ExecuteRequest (mute "HTTP/1.1 204 No Content\r\n\r\n") []) (demoSt fun _ => false) = some (.ok (.ok, some 0, [])) := by
  rw [← HTTPAPI_ExecuteRequestF_eq 40]; decide +kernel

end Verif.Mb
