import Verif.Ex.Ledger
/-!
# A transport that meets the contract, and what the code does on it

The history theorems are not vacuous, and the bounds of C40 are reached.
-/
set_option linter.unusedSimpArgs false
namespace Verif.Ex
open Verif.Vec
open Verif.Sock (loadI intV)

/-- the kind of a call and its outcome, as a digit -/
def Ev.kind : Ev → Nat
  | .init r => if r = .ok then 1 else 2
  | .deinit => 3
  | .create _ c => if c = 0 then 4 else 5
  | .close _ => 6
  | .setOption .. => 7
  | .clone .. => 8
  | .execute _ _ _ r _ => if r = .ok then 9 else 10

theorem kind_lt (e : Ev) : e.kind < 16 := by
  cases e <;> simp only [Ev.kind] <;> (try split) <;> omega

/-- The transport keeps one block at address 1000: the number of calls received, and their kinds, written in base 16 after a leading 1. -/
def code (ks : List Nat) : Nat := ks.foldl (fun a k => 16 * a + k) 1

/-- the next call: `plan n` says whether call number `n` should succeed -/
def tickOf (plan : Nat → Bool) (good bad : Nat) : M Nat := do
  let n ← loadInt 1000 0
  let c ← loadInt 1000 1
  store 1000 0 (.int (n + 1))
  store 1000 1 (.int (16 * c + if plan n then good else bad))
  pure n

def res (b : Bool) : Res := if b then .ok else .other

def demoApi (plan : Nat → Bool) : Http where
  init := do let n ← tickOf plan 1 2; pure (res (plan n))
  deinit := do let _ ← tickOf plan 3 3; pure ()
  createConnection _ := do let n ← tickOf plan 5 4; pure (if plan n then 100 + n else 0)
  closeConnection _ := do let _ ← tickOf plan 6 6; pure ()
  executeRequest _ _ _ _ _ _ st _ _ := do
    let n ← tickOf plan 9 10
    store st 0 (.int (200 + n))
    pure (res (plan n))
  setOption _ _ _ := do let n ← tickOf plan 7 7; pure (res (plan n))
  cloneOption _ _ := do
    let n ← tickOf plan 8 8
    let p ← malloc 1
    if p = 0 then pure (.other, 0) else do
    store p 0 (.byte 7)
    if plan n then pure (.ok, p) else do
    free p
    pure (.invalidArg, 0)

def demoNet (tr : List Ev) : HProp := 1000 ↦ [.int tr.length, .int (code (tr.map Ev.kind))]

theorem tickOf_spec {rel : Prop} {plan : Nat → Bool} {good bad : Nat} (tr : List Ev) : Triple rel (demoNet tr) (tickOf plan good bad)
    (fun n => (n = tr.length) ⋏ 1000 ↦ [.int (tr.length + 1), .int (code (tr.map Ev.kind ++ [if plan n then good else bad]))]) := by
  unfold tickOf demoNet
  stepd (loadInt_spec (n := tr.length) ?_)
  stepd (loadInt_spec (n := code (tr.map Ev.kind)) ?_)
  stepd (store_spec ?_)
  stepd (store_spec ?_)
  refine Triple.pure (entails_pand_r ?_ rfl)
  have e : ∀ (l : List Nat) k, code (l ++ [k]) = 16 * code l + k := by intro l k; simp [code]
  rw [e]
  exact entails_refl _

theorem demo_honours {rel : Prop} (plan : Nat → Bool) : Honours rel (demoApi plan) demoNet emp (fun _ => emp) := by
  have net : ∀ (tr : List Ev) (e : Ev) (k : Nat), e.kind = k → 1000 ↦ [.int (tr.length + 1), .int (code (tr.map Ev.kind ++ [k]))] ⊢ₕ demoNet (tr ++ [e]) := by
    intro tr e k h; unfold demoNet; rw [List.length_append, List.map_append]; subst h; exact entails_refl _
  constructor
  case init =>
    intro tr
    unfold demoApi
    step (tickOf_spec tr)
    refine Triple.pure ?_
    simp only [ite_self, sep_emp]
    refine net _ _ _ ?_
    cases plan (tr.length) <;> rfl
  case deinit =>
    intro tr
    rw [sep_emp]
    unfold demoApi
    step (tickOf_spec tr)
    refine Triple.pure (net _ _ _ ?_)
    cases plan (tr.length) <;> rfl
  case create =>
    intro s h tr
    simp only [emp_sep, ite_self, sep_emp]
    unfold demoApi
    step (tickOf_spec tr)
    refine Triple.pure (sep_mono (net _ _ _ ?_) (entails_refl _))
    cases plan (tr.length)
    · rfl
    · simp [Ev.kind]
  case close =>
    intro c tr
    simp only [sep_emp]
    unfold demoApi
    step (tickOf_spec tr)
    refine Triple.pure (net _ _ _ ?_)
    cases plan (tr.length) <;> rfl
  case execute =>
    intro c q g s hq pq st hr br tr
    simp only [emp_sep]
    unfold demoApi
    step (tickOf_spec tr)
    stepd (store_spec ?_)
    refine Triple.pure (entails_ex_r { g with status := .int (200 + tr.length) } ?_)
    refine entails_trans ?_ (sep_mono (net tr (.execute c q g (res (plan tr.length)) { g with status := .int (200 + tr.length) }) _ rfl) (entails_refl _))
    have : (if plan tr.length = true then 9 else 10) = (Ev.execute c q g (res (plan tr.length)) { g with status := .int (200 + tr.length) }).kind := by
      cases plan tr.length <;> rfl
    rw [this]
    simp only [List.set_cons_zero]
    sep_cancel
  case setOption =>
    intro c s n v b tr
    simp only [emp_sep]
    unfold demoApi
    step (tickOf_spec tr)
    refine Triple.pure (sep_mono (net _ _ _ ?_) (entails_refl _))
    cases plan (tr.length) <;> rfl
  case clone =>
    intro s n v b tr
    unfold demoApi
    step (tickOf_spec tr)
    have h8 : (if plan tr.length = true then 8 else 8) = 8 := by simp
    rw [h8]
    refine Triple.malloc (fun _ => ?_) fun p hp hm => ?_
    · rw [if_pos rfl]
      refine Triple.pure (entails_ex_r [] ?_)
      have : (if (Res.other, 0).1 = Res.ok then ((Res.other, 0) : Res × Ptr).2 ↦ [] else emp) = emp := if_neg (by simp)
      rw [this, sep_emp]
      exact sep_mono (net _ _ _ rfl) (entails_refl _)
    · rw [if_neg hp]
      step (store_spec (b := List.replicate 1 .undef) (by decide))
      refine Triple.ite (fun _ => ?_) fun _ => ?_
      · refine Triple.pure (entails_ex_r [.byte 7] ?_)
        rw [if_pos rfl]
        refine entails_trans ?_ (sep_mono (net tr (.clone n b .ok [.byte 7]) _ rfl) (entails_refl _))
        simp only [List.replicate, List.set_cons_zero]
        simp only [Ev.kind]
        sep_cancel
      · step free_spec
        refine Triple.pure (entails_ex_r [] ?_)
        have : (if (Res.invalidArg, 0).1 = Res.ok then ((Res.invalidArg, 0) : Res × Ptr).2 ↦ [] else emp) = emp := if_neg (by simp)
        rw [this, sep_emp]
        exact sep_mono (net _ _ _ rfl) (entails_refl _)

/-- memory of the demo: the transport's block, the static variable and the array; allocation number `t` is at `2000 + t`, except the
refused ones -/
def demoSt (refuse : Nat → Bool) : St :=
  { heap := fun p => if p = 1000 then some [.int 0, .int 1] else if p = 1001 then some [.undef] else if p = 1002 then some (List.replicate 22 .undef) else none,
    alloc := fun t _ _ => if refuse t then 0 else 2000 + t, tick := 0 }

theorem demoSt_fin {f : Nat → Bool} : (demoSt f).heap.fin := ⟨1003, fun p hp => by
  have h1 : p ≠ 1000 := by omega
  have h2 : p ≠ 1001 := by omega
  have h3 : p ≠ 1002 := by omega
  simp [demoSt, h1, h2, h3]⟩

theorem demoSt_net {f : Nat → Bool} : NetL demoNet 1002 1001 [] (demoSt f).heap := by
  refine ⟨.undef, List.replicate 22 .undef, by simp, Heap.single 1000 [.int 0, .int 1], fun p => if p = 1001 then some [.undef] else if p = 1002 then some (List.replicate 22 .undef) else none, ?_, ?_, ?_, ?_⟩
  · intro p
    by_cases h : p = 1000
    · subst h; right; rfl
    · left; simp [Heap.single, h]
  · funext p
    by_cases h : p = 1000 <;> simp [Heap.union, Heap.single, demoSt, h]
  · exact ⟨by decide, by decide, rfl⟩
  · refine ⟨Heap.single 1001 [.undef], Heap.single 1002 (List.replicate 22 .undef), ?_, ?_, ⟨by decide, by decide, rfl⟩, ⟨by decide, by decide, rfl⟩⟩
    · intro p
      by_cases h : p = 1001
      · subst h; right; rfl
      · left; simp [Heap.single, h]
    · funext p
      by_cases h : p = 1001 <;> simp [Heap.union, Heap.single, h]

/-- `log` is the record of a run of the code on a transport that meets the contract -/
def Recorded (ops : List Op) (outs : List (Option Out)) (as : List (Option Obj)) (log : Log) : Prop :=
  ∃ (api : Http) (Net : List Ev → HProp) (Sess : HProp) (Conn : Nat → HProp) (tmp dum : Ptr) (s : St) (env : List Nat) (s' : St),
    Honours False api Net Sess Conn ∧ s.heap.fin ∧ NetL Net tmp dum [] s.heap ∧ (∀ op ∈ ops, good op) ∧
    runOps (exec api tmp dum) ops [] s = some (.ok ((outs, env), s')) ∧
    Runs (step True) ([], []) ops outs (as, log) ∧ (Own (OEx Sess Conn) env as ∗ NetL Net tmp dum log) s'.heap

/-- the results of a run and the transport's block -/
def report (plan : Nat → Bool) (refuse : Nat → Bool) (ops : List Op) : Option (List (Option Out) × Option Block) :=
  match runOps (exec (demoApi plan) 1002 1001) ops [] (demoSt refuse) with
  | some (.ok ((outs, _), s')) => some (outs, s'.heap 1000)
  | _ => none

theorem code_inj : ∀ {a b : List Nat}, (∀ k ∈ a, k < 16) → (∀ k ∈ b, k < 16) → code a = code b → a = b := by
  have snoc : ∀ (a : List Nat) x, code (a ++ [x]) = 16 * code a + x := by intro a x; simp [code]
  have pos : ∀ a : List Nat, 0 < code a := by
    intro a
    induction a using snoc_ind with
    | h0 => decide
    | h1 a x ih => rw [snoc]; omega
  intro a
  induction a using snoc_ind with
  | h0 =>
    intro b _ _ h
    rcases List.eq_nil_or_concat b with rfl | ⟨l, x, rfl⟩
    · rfl
    · rw [List.concat_eq_append, snoc] at h
      have := pos l
      simp [code] at h
      unfold code at this
      omega
  | h1 l x ih =>
    intro b ha hb h
    rcases List.eq_nil_or_concat b with rfl | ⟨k, y, rfl⟩
    · rw [snoc] at h
      have := pos l
      simp [code] at h
      unfold code at this
      omega
    · rw [List.concat_eq_append] at h hb ⊢
      rw [snoc, snoc] at h
      have h1 := ha x (by simp)
      have h2 := hb y (by simp)
      have e1 : code l = code k := by omega
      have e2 : x = y := by omega
      rw [ih (fun k hk => ha k (by simp [hk])) (fun j hj => hb j (by simp [hj])) e1, e2]

/-- from a computed run to the record of calls -/
theorem read_report {plan : Nat → Bool} {refuse : Nat → Bool} {ops : List Op} (hops : ∀ op ∈ ops, good op) {outs : List (Option Out)} {ks : List Nat} {n : Nat}
    (hks : ∀ k ∈ ks, k < 16) (h : report plan refuse ops = some (outs, some [.int n, .int (code ks)])) :
    ∃ as log, Recorded ops outs as log ∧ (trace log).map Ev.kind = ks := by
  obtain ⟨outs', env, as, log, s', h1, h2, h3⟩ := histories_run (demo_honours plan) ops hops (demoSt refuse) demoSt_fin demoSt_net
  unfold report at h
  rw [h1] at h
  simp only [Option.some.injEq, Prod.mk.injEq] at h
  obtain ⟨rfl, h5⟩ := h
  have key : code ((trace log).map Ev.kind) = code ks := by
    obtain ⟨a, b, hd, hu, _, d, t, ht, hb⟩ := h3
    obtain ⟨b1, b2, hd2, rfl, ⟨_, _, rfl⟩, _⟩ := hb
    have ha : a 1000 = none := by
      cases ha : a 1000 with
      | none => rfl
      | some x =>
        have := hd 1000
        simp [Heap.single, Heap.union, ha] at this
    rw [hu] at h5
    simp [Heap.union, ha, Heap.single] at h5
    exact h5.2
  refine ⟨as, log, ⟨_, _, _, _, _, _, _, env, s', demo_honours plan, demoSt_fin, demoSt_net, hops, h1, h2, h3⟩, ?_⟩
  refine code_inj ?_ hks key
  intro k hk
  obtain ⟨e, _, rfl⟩ := List.mem_map.1 hk
  exact kind_lt e

/-! loops with a number of steps unfolded, so that the runs can be computed -/

def findBody (rec : Ptr → (VPtr → M Bool) → Nat → M VPtr) (handle : Ptr) (pred : VPtr → M Bool) (i : Nat) : M VPtr := do
  let count ← loadInt handle fCount
  if i < count then
    let storage ← loadPtr handle fStorage
    let es ← loadInt handle fSize
    let b ← pred (padd storage ((es * i) % szMod))
    if b = true then pure (padd storage ((es * i) % szMod))
    else rec handle pred (i + 1)
  else pure .null

def findN : Nat → Ptr → (VPtr → M Bool) → Nat → M VPtr
  | 0 => findLoop
  | n + 1 => findBody (findN n)

theorem findN_eq (n : Nat) : findN n = findLoop := by
  induction n with
  | zero => rfl
  | succ n ih => unfold findN; rw [ih]; funext a b c; rw [findLoop]; rfl

def loopBody (api : Http) (rec : Ptr → Nat → Used → List Bool → M Result) (handleData : Ptr) (requestType : Nat) (u : Used) (st : List Bool) : M Result := do
  let k ← loadI handleData fK
  if k > 2 then pure .recoveryFailed
  else if k < 0 then ub "index out of bounds"
  else do
  let goOn ← if st[k.toNat]? = some true then pure false else attempt api handleData requestType u k
  if goOn = true then do
    let k ← loadI handleData fK
    if k = 2 then pure .ok
    else do
      store handleData fK (intV (k + 1))
      let st := (st.set k.toNat true).set (k + 1).toNat false
      let k ← loadI handleData fK
      if k ≥ 0 then rec handleData requestType u st else pure .recoveryFailed
  else do
    let st := st.set k.toNat false
    store handleData fK (intV (k - 1))
    let k ← loadI handleData fK
    if k = 0 then api.deinit
    else if k = 1 then do
      let c ← loadPtr handleData fHttp
      api.closeConnection c
      store handleData fHttp (.ptr 0)
    else pure ()
    let k ← loadI handleData fK
    if k ≥ 0 then rec handleData requestType u st else pure .recoveryFailed

def loopN (api : Http) : Nat → Ptr → Nat → Used → List Bool → M Result
  | 0 => loop api
  | n + 1 => loopBody api (loopN api n)

theorem loopN_eq (api : Http) (n : Nat) : loopN api n = loop api := by
  induction n with
  | zero => rfl
  | succ n ih => unfold loopN; rw [ih]; funext a b c d; rw [loop]; rfl

/-! ## Runs -/

/-- an option is saved; a request succeeds; a request fails on the old connection and on a new one, and succeeds from the beginning -/
def retryOps : List Op := [.create (some [104]), .setOption 0 (some [111]) (some [.byte 1]), .request 0 0 none none none none none none,
  .request 0 1 (some [112]) (some [([65], [66])]) (some [1, 2, 3]) (some (.int 0)) none none]

def retryPlan (n : Nat) : Bool := n ≠ 5 ∧ n ≠ 9

theorem retry_report : report retryPlan (fun _ => false) retryOps =
    some ([some (.handle true), some (.result .ok), some (.result .ok), some (.result .ok)], some [.int 16, .int (code [8, 1, 5, 7, 9, 10, 6, 5, 7, 10, 6, 3, 1, 5, 7, 9])]) := by
  unfold report exec requestOne setOne HTTPAPIEX_ExecuteRequest HTTPAPIEX_SetOption createOrUpdateOption Vec.VECTOR_find_if
  rw [← loopN_eq (demoApi retryPlan) 12, ← findN_eq 3]
  decide +kernel

/-- what comes after the first 9, if the list is `a ++ 9 :: b` without a 9 in `a` -/
theorem after_first {a b l : List Nat} (h : a ++ 9 :: b = l) (ha : 9 ∉ a) : 9 :: b = l.dropWhile (· ≠ 9) := by
  subst h
  induction a with
  | nil => rfl
  | cons x a ih =>
    have hx : x ≠ 9 := fun h => ha (by simp [h])
    rw [List.cons_append, List.dropWhile_cons, if_pos (by simpa using hx)]
    exact ih fun h => ha (by simp [h])

theorem kind_nine {evs : List Ev} (h : NoneOk evs) : 9 ∉ evs.map Ev.kind := by
  intro hm
  obtain ⟨e, he, hk⟩ := List.mem_map.1 hm
  cases e <;> simp only [Ev.kind] at hk
  case init => split at hk <;> cases hk
  case create => split at hk <;> cases hk
  case execute c q g r g' =>
    split at hk
    · rename_i hr; subst hr; exact h _ _ _ _ he
    · cases hk
  all_goals cases hk

theorem kind_init (evs : List Ev) : evs.countP Ev.isInit = (evs.map Ev.kind).countP (fun k => k = 1 ∨ k = 2) := by
  rw [List.countP_map]; congr 1; funext e
  cases e <;> simp only [Ev.isInit, Ev.kind, Function.comp] <;> (try split) <;> rfl

theorem kind_create (evs : List Ev) : evs.countP Ev.isCreate = (evs.map Ev.kind).countP (fun k => k = 4 ∨ k = 5) := by
  rw [List.countP_map]; congr 1; funext e
  cases e <;> simp only [Ev.isCreate, Ev.kind, Function.comp] <;> (try split) <;> rfl

theorem kind_execute (evs : List Ev) : evs.countP Ev.isExecute = (evs.map Ev.kind).countP (fun k => k = 9 ∨ k = 10) := by
  rw [List.countP_map]; congr 1; funext e
  cases e <;> simp only [Ev.isExecute, Ev.kind, Function.comp] <;> (try split) <;> rfl

theorem good_retry : ∀ op ∈ retryOps, good op := by
  intro op hop
  simp only [retryOps, List.mem_cons, List.not_mem_nil, or_false] at hop
  rcases hop with rfl | rfl | rfl | rfl <;> simp [good, Map.okText, okPairs, okBytes, NoNul, maxObj]

/-- The bounds of C40 are reached: a request that makes one initialisation, two connections and three requests, and succeeds; it is
made on a connection left open by another request, and the handle has an option. -/
theorem bounds_reached : ∃ outs as log l1 y y' evs, Recorded retryOps outs as log ∧ log = l1 ++ [⟨0, .request y .ok y', evs⟩] ∧
    evs.countP Ev.isInit = 1 ∧ evs.countP Ev.isCreate = 2 ∧ evs.countP Ev.isExecute = 3 ∧
    (∃ b, savedOpts (ofPos 0 l1) = [([111], b)]) ∧ ∃ c, c ≠ 0 ∧ runs .idle (trace (ofPos 0 l1)) = some (.connected c) := by
  obtain ⟨as, log, hR, hk⟩ := read_report good_retry (by decide) retry_report
  obtain ⟨api, Net, Sess, Conn, tmp, dum, s, env, s', _, _, _, _, _, hr, _⟩ := hR
  have hr' := hr
  rw [retryOps] at hr
  cases hr with
  | cons h1 hr =>
  cases hr with
  | cons h2 hr =>
  cases hr with
  | cons h3 hr =>
  cases hr with
  | cons h4 hr =>
  cases hr
  obtain ⟨_, a1, w1, e, ⟨ok, hc, e', rfl⟩, rfl⟩ := h1
  cases e; cases e'
  rcases h2 with ⟨hn, _⟩ | ⟨b1, _, a2, w2, hb1, e, ⟨b, r, evs2, _, hE2, e', rfl⟩, rfl⟩
  · simp at hn
  cases e; cases e'
  rcases h3 with ⟨hn, _⟩ | ⟨b2, _, a3, w3, hb2, e, ⟨y3, d3, r, y3', d3', evs3, _, hE3, e', rfl⟩, rfl⟩
  · simp at hn
  cases e; cases e'
  rcases h4 with ⟨hn, _⟩ | ⟨b3, _, a4, w4, hb3, e, ⟨y4, d4, r, y4', d4', evs4, _, hE4, e', rfl⟩, e4⟩
  · simp at hn
  cases e; cases e'
  cases e4
  simp only [List.nil_append, List.length_nil] at hr' hk
  have hk' : evs2.map Ev.kind ++ (evs3.map Ev.kind ++ evs4.map Ev.kind) = [8, 1, 5, 7, 9, 10, 6, 5, 7, 10, 6, 3, 1, 5, 7, 9] := by
    simpa [trace] using hk
  have q3 := (ok_iff hr' (l1 := [_, _]) (l2 := [_]) (i := 0) (y := y3) (y' := y3') (evs := evs3) rfl)
  obtain ⟨x3, c3, rq3, g3, g3', rfl⟩ := q3.1.1 rfl
  have n3 := (q3.2 x3 [] _ _ _ _ rfl).2.1
  have s2 := ok_saves hr' (l1 := [_]) (l2 := [_, _]) (i := 0) rfl
  obtain ⟨nm, bb, copy, e1, e2, hh, hsv⟩ := s2
  have n2 : NoneOk evs2 := by
    intro c q g g' hm
    have hE : Eff True b1 (.setOption (some [111]) b .ok) a2 evs2 := hE2
    simp only [Eff, SetE] at hE
    split at hE
    · rcases hE with ⟨copy, h, _⟩ | ⟨copy, h, _⟩ | ⟨copy, h, _⟩ | ⟨copy, _, hE⟩
      · cases h
      · cases h
      · cases h
      · split at hE
        · rw [hE.2] at hm; simp at hm
        · obtain ⟨s, _, he⟩ := hE
          rw [he] at hm; simp at hm
    · rw [hE.2.2] at hm; cases hm
  have n9 : 9 ∉ (evs2 ++ x3).map Ev.kind := kind_nine (NoneOk_append n2 n3)
  have hd := after_first (a := (evs2 ++ x3).map Ev.kind) (b := evs4.map Ev.kind) (l := [8, 1, 5, 7, 9, 10, 6, 5, 7, 10, 6, 3, 1, 5, 7, 9]) (by rw [← hk']; simp [Ev.kind]) n9
  have h4k : evs4.map Ev.kind = [10, 6, 5, 7, 10, 6, 3, 1, 5, 7, 9] := by
    have := List.cons.inj (hd.trans (by decide : _ = [9, 10, 6, 5, 7, 10, 6, 3, 1, 5, 7, 9]))
    exact this.2
  refine ⟨_, _, _, [_, _, _], y4, y4', evs4, ⟨api, Net, Sess, Conn, tmp, dum, s, env, s', by assumption, by assumption, by assumption, by assumption, by assumption, hr', by assumption⟩, rfl, ?_, ?_, ?_, ?_, ?_⟩
  · rw [kind_init, h4k]; decide
  · rw [kind_create, h4k]; decide
  · rw [kind_execute, h4k]; decide
  · cases e1
    refine ⟨copy, ?_⟩
    have : ofPos 0 [⟨0, .create (some [104]) true, []⟩, ⟨0, .setOption (some [111]) b .ok, evs2⟩, ⟨0, .request y3 .ok y3', x3 ++ [.execute c3 rq3 g3 .ok g3']⟩] =
      [⟨0, .create (some [104]) true, []⟩, ⟨0, .setOption (some [111]) b .ok, evs2⟩, ⟨0, .request y3 .ok y3', x3 ++ [.execute c3 rq3 g3 .ok g3']⟩] := rfl
    rw [this]
    unfold savedOpts
    simp only [List.filterMap_cons, List.filterMap_nil, hsv, saves_request]
    rfl
  · obtain ⟨_, c, _, _, _, _, hc⟩ := ok_connected hr' (l1 := [_, _]) (l2 := [_]) (i := 0) (y := y3) (y' := y3') rfl
    refine ⟨c, ?_, hc⟩
    rintro rfl
    rcases request_entry hr' (l1 := [_, _]) (l2 := [_]) (i := 0) (y := y3) (y' := y3') rfl with ⟨_, hn⟩ | ⟨o, d, ok, c', g', _, hI, _⟩
    · simp at hn
    · have hne := (hI.2 _ rfl).1
      have h1 := hI.1
      dsimp only [List.append, Option.bind] at h1 hne
      have : some (Phase.connected 0) = some (phase c') := hc.symm.trans h1
      cases c' with
      | none => cases this
      | some c => cases this; exact hne rfl

/-- two handles; an option is updated; one request fails for good (no connection, then from the beginning again no connection), another
fails at the initialisation, and all is destroyed -/
def failOps : List Op := [.create (some [104]), .create (some [105]), .setOption 0 (some [111]) (some [.byte 1]), .setOption 0 (some [111]) (some [.byte 2]),
  .request 0 0 none none none none none none, .request 0 0 none none none none none none, .request 1 2 none none none none none none,
  .request 1 7 none none none none none none, .destroy 1, .request 0 0 none none none none none none, .destroy 0]

def failPlan (n : Nat) : Bool := n ≠ 6 ∧ n ≠ 8 ∧ n ≠ 11 ∧ n ≠ 13

theorem fail_report : report failPlan (fun _ => false) failOps =
    some ([some (.handle true), some (.handle true), some (.result .ok), some (.result .ok), some (.result .ok), some (.result .recoveryFailed),
      some (.result .recoveryFailed), some (.result .invalidArg), some .done, some (.result .ok), some .done],
      some [.int 20, .int (code [8, 8, 1, 5, 7, 9, 10, 6, 4, 3, 1, 4, 3, 2, 1, 5, 7, 9, 6, 3])]) := by
  unfold report exec requestOne setOne HTTPAPIEX_ExecuteRequest HTTPAPIEX_SetOption createOrUpdateOption Vec.VECTOR_find_if
  rw [← loopN_eq (demoApi failPlan) 12, ← findN_eq 3]
  decide +kernel

theorem good_fail : ∀ op ∈ failOps, good op := by
  intro op hop
  simp only [failOps, List.mem_cons, List.not_mem_nil, or_false] at hop
  rcases hop with rfl | rfl | rfl | rfl | rfl | rfl | rfl | rfl | rfl | rfl | rfl <;> simp [good, Map.okText, okPairs, okBytes, NoNul, maxObj]

/-- the theorems of the ledger apply to a run with failing requests, and all handles destroyed -/
example : ∃ outs as log, Recorded failOps outs as log ∧ some (Out.result .recoveryFailed) ∈ outs ∧
    (trace log).map Ev.kind = [8, 8, 1, 5, 7, 9, 10, 6, 4, 3, 1, 4, 3, 2, 1, 5, 7, 9, 6, 3] ∧ inits (trace log) = 3 ∧ deinits (trace log) = 3 := by
  obtain ⟨as, log, hR, hk⟩ := read_report good_fail (by decide) fail_report
  refine ⟨_, as, log, hR, by simp, hk, ?_, ?_⟩
  · have : inits (trace log) = ((trace log).map Ev.kind).count 1 := by
      unfold inits
      rw [List.count_eq_countP, List.count_eq_countP, List.countP_map]; congr 1; funext e
      cases e <;> simp only [Ev.kind, Function.comp] <;> (try split) <;> simp_all
    rw [this, hk]; decide
  · have : deinits (trace log) = ((trace log).map Ev.kind).count 3 := by
      unfold deinits
      rw [List.count_eq_countP, List.count_eq_countP, List.countP_map]; congr 1; funext e
      cases e <;> simp only [Ev.kind, Function.comp] <;> (try split) <;> simp_all
    rw [this, hk]; decide

end Verif.Ex
