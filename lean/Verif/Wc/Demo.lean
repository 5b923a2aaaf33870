import Verif.Wc.Ledger
import Verif.Wc.History
import Verif.Wc.Compose
import Verif.Mb.Demo
/-!
# A wolfSSL and lwIP that meet the contract of `Honours`, and runs of the code on them
-/
set_option linter.unusedSimpArgs false
set_option linter.unusedVariables false
namespace Verif.Wc
open Verif.Mb (Wire Put Received Bytes Text Plan demoPeer count_bytes echo Even)
open Verif.Sas (text)

/-- One context, one socket; a session is a block: whether it is in use, how many line feeds were sent, how many bytes were received.  `ok`: handshakes succeed. -/
def demoTls (d : Plan) (ok : Bool) : Tls where
  init := pure ()
  cleanup := pure ()
  method := pure 7
  ctxNew _ := pure 8
  ctxFree _ := pure ()
  setIO _ := pure ()
  sslNew _ := do
    let s ← mallocS 3
    if s = 0 then pure 0 else do
    storeN s 0 [.int 0, .int 0, .int 0]
    pure s
  setFd _ _ := pure ()
  handshake s := if ok then do
      storeN s 0 [.int 1, .int 0, .int 0]
      pure 1
    else pure 0
  write s p n := do
    let r ← storage p
    let k ← loadInt s 1
    store s 1 (.int (k + (r.take n.toNat).count (.byte 10)))
    pure n
  read s p off n := do
    let k ← loadInt s 1
    let pos ← loadInt s 2
    let ins := (d.S k).drop pos
    if ins = [] then
      if d.fin then pure 0 else do
      storeN p off (List.replicate n.toNat .undef)
      pure (-1)
    else do
      let t := ins.take (min d.cap n.toNat)
      storeN p off (bytesV t)
      store s 2 (.int (pos + t.length))
      pure t.length
  loadVerify _ _ _ := pure 1
  socket := pure 5
  address _ _ := pure (some 1)
  connect _ _ := pure 0
  close _ := pure ()

def demoLive (d : Plan) (s : Nat) (w : Wire) : HProp := (demoPeer d [] w) ⋏ s ↦ [.int 1, .int (w.out.count 10), .int w.pos]
def demoSes (s : Nat) : HProp := ∃∃ a b c : Val, s ↦ [a, b, c]

theorem demoLive_eq {d : Plan} {s : Nat} {w : Wire} : demoLive d s w = ((demoPeer d [] w) ⋏ s ↦ [.int 1, .int (w.out.count 10), .int w.pos]) := rfl
theorem demoSes_eq {s : Nat} : demoSes s = ∃∃ a b c : Val, s ↦ [a, b, c] := rfl

def demoReps (d : Plan) : Reps where
  Net _ := emp
  Ctx _ _ := emp
  Ses s _ := demoSes s
  Sk _ _ := emp
  Live s _ w := demoLive d s w
  At _ _ _ := True

theorem demoCtxN {d : Plan} {x : Nat} : ∀ {k : Nat}, (demoReps d).CtxN x k = emp
  | 0 => rfl
  | _ + 1 => rfl

theorem demo_honours {rel : Prop} (d : Plan) (ok : Bool) (hc : 0 < d.cap) : Honours rel (demoTls d ok) (demoReps d) (demoPeer d) True where
  init tr := Triple.pure (entails_refl _)
  cleanup tr := Triple.pure (entails_refl _)
  method := Triple.pure (entails_refl _)
  ctxNew m tr hm := Triple.pure (by simp only [demoReps, sep_emp]; exact entails_refl _)
  ctxFree x k tr := Triple.pure (by rw [demoCtxN]; simp only [demoReps, sep_emp]; exact entails_refl _)
  setIO x k := Triple.pure (entails_refl _)
  sslNew x k tr := by
    simp only [demoTls, demoReps, emp_sep]
    refine Triple.pre_eq (emp_sep (P := emp)).symm ?_
    refine Triple.mallocS (by decide) (fun hr => ?_) fun p hp => ?_
    · rw [if_pos rfl]
      exact Triple.pure (by simp only [emp_sep]; exact entails_refl _)
    rw [if_neg hp]
    step (storeN_spec' (p := p) (b := List.replicate 3 .undef) (off := 0) (vs := [.int 0, .int 0, .int 0]) (by simp))
    obtain ⟨q, rfl⟩ : ∃ q, p = q + 1 := ⟨p - 1, by omega⟩
    refine Triple.pure ?_
    simp only [sep_emp, demoSes_eq]
    exact entails_ex_r _ (entails_ex_r _ (entails_ex_r _ (entails_refl _)))
  setFd s fd := Triple.pure (entails_refl _)
  handshake s fd host := by
    simp only [demoTls, demoReps, sep_emp]
    cases ok with
    | false =>
      exact Triple.pure (entails_ex_r none (entails_pand_r (entails_refl _) (.inl ⟨by decide, rfl⟩)))
    | true =>
      simp only [if_true]
      conv => arg 2; rw [demoSes_eq]
      hoist; intro a b c
      step (storeN_spec' (p := s) (b := [a, b, c]) (off := 0) (vs := [.int 1, .int 0, .int 0]) (by simp))
      refine Triple.pure (entails_ex_r (some ⟨fun t => d.S (t.count 10), [], 0, d.fin⟩) (entails_pand_r ?_ (.inr ⟨rfl, _, rfl, ⟨rfl, rfl⟩, rfl, rfl⟩)))
      simp only [demoLive_eq]
      exact entails_pand_r (entails_refl _) ⟨rfl, rfl⟩
  write s fd w V p bs hb hr := by
    simp only [demoTls, demoReps]
    conv => arg 2; rw [demoLive_eq]
    step (hr.storage (rel := rel)) into r
    intro hp hpre
    step (loadInt_spec (p := s) (b := [.int 1, .int (w.out.count 10), .int w.pos]) (off := 1) (n := w.out.count 10) rfl)
    step (store_spec (p := s) (b := [.int 1, .int (w.out.count 10), .int w.pos]) (off := 1) (v := .int (w.out.count 10 + (r.take (bs.length : Int).toNat).count (.byte 10))) (by simp))
    refine Triple.pure (entails_ex_r (w.sent bs) (entails_pand_r ?_ ⟨⟨bs.length, Nat.le_refl _, by simp, fun _ _ => rfl⟩, .inl rfl, fun _ h => List.eq_nil_of_length_eq_zero (by omega)⟩))
    have e : r.take (bs.length : Int).toNat = bytesV bs := by
      obtain ⟨t, rfl⟩ := hpre
      simp [bytesV]
    rw [e, count_bytes, demoLive_eq]
    simp only [pand_sep]
    refine entails_pand_r ?_ hp
    simp only [Wire.sent, List.count_append, List.set_cons_succ, List.set_cons_zero]
    sep_cancel
  read s fd w p b off n hn hn2 hb := by
    simp only [demoTls, demoReps]
    conv => arg 2; rw [demoLive_eq]
    hoist; intro hp
    step (loadInt_spec (p := s) (b := [.int 1, .int (w.out.count 10), .int w.pos]) (off := 1) (n := w.out.count 10) rfl)
    step (loadInt_spec (p := s) (b := [.int 1, .int (w.out.count 10), .int w.pos]) (off := 2) (n := w.pos) rfl)
    have hi : (d.S (w.out.count 10)).drop w.pos = w.ins := by unfold Wire.ins; rw [hp.1]
    simp only [hi]
    by_cases h0 : w.ins = []
    · rw [if_pos h0]
      have hR : Received ((demoReps d).On fd) s w p b off n = fun r => if w.fin then (r = 0) ⋏ demoLive d s w ∗ p ↦ b
          else ∃∃ vs : List Val, (r < 0 ∧ vs.length = n) ⋏ demoLive d s w ∗ p ↦ patch b off vs := by
        funext r; unfold Received; rw [if_pos h0]; rfl
      rw [show ({ Net := fun _ => emp, Ctx := fun _ _ => emp, Ses := fun s _ => demoSes s, Sk := fun _ _ => emp, Live := fun s _ w => demoLive d s w, At := fun _ _ _ => True } : Reps) = demoReps d from rfl, hR]
      cases hf : d.fin with
      | true =>
        have : w.fin = true := by rw [hp.2, hf]
        simp only [this, if_true]
        refine Triple.pure (entails_pand_r ?_ rfl)
        rw [demoLive_eq]; simp only [pand_sep]
        exact entails_pand_r (by sep_cancel) hp
      | false =>
        have : w.fin = false := by rw [hp.2, hf]
        simp only [this, Bool.false_eq_true, if_false, Int.toNat_natCast]
        step (storeN_spec' (p := p) (b := b) (off := off) (vs := List.replicate n .undef) (by simpa using hb))
        refine Triple.pure (entails_ex_r (List.replicate n .undef) (entails_pand_r ?_ ⟨by omega, by simp⟩))
        rw [demoLive_eq]; simp only [pand_sep]
        exact entails_pand_r (by sep_cancel) hp
    · rw [if_neg h0]
      have hR : Received ((demoReps d).On fd) s w p b off n = fun r : Int => ∃∃ k : Nat, (r = k ∧ 0 < k ∧ k ≤ n ∧ k ≤ w.ins.length) ⋏ demoLive d s (w.got k) ∗ p ↦ patch b off (bytesV (w.ins.take k)) := by
        funext r; unfold Received; rw [if_neg h0]; rfl
      rw [show ({ Net := fun _ => emp, Ctx := fun _ _ => emp, Ses := fun s _ => demoSes s, Sk := fun _ _ => emp, Live := fun s _ w => demoLive d s w, At := fun _ _ _ => True } : Reps) = demoReps d from rfl, hR]
      have hlen : 0 < w.ins.length := by cases h : w.ins with
        | nil => exact absurd h h0
        | cons a l => simp
      simp only [Int.toNat_natCast]
      have ht : ∃ k, k = (w.ins.take (min d.cap n)).length ∧ w.ins.take (min d.cap n) = w.ins.take k ∧ 0 < k ∧ k ≤ n ∧ k ≤ w.ins.length := by
        refine ⟨_, rfl, ?_, ?_, ?_, ?_⟩
        · rw [List.take_eq_take_iff, List.length_take]; omega
        · rw [List.length_take]; omega
        · rw [List.length_take]; omega
        · rw [List.length_take]; omega
      obtain ⟨k, e1, e2, k1, k2, k3⟩ := ht
      rw [← e1, e2]
      step (storeN_spec' (p := p) (b := b) (off := off) (vs := bytesV (w.ins.take k)) (by simp [bytesV]; omega))
      step (store_spec (p := s) (b := [.int 1, .int (w.out.count 10), .int w.pos]) (off := 2) (v := .int (w.pos + k)) (by simp))
      refine Triple.pure (entails_ex_r k (entails_pand_r ?_ ⟨rfl, k1, k2, k3⟩))
      rw [demoLive_eq]; simp only [pand_sep]
      refine entails_pand_r ?_ hp
      simp only [Wire.got, List.set_cons_succ, List.set_cons_zero]
      sep_cancel
  loadVerify x k V p u tr hr := by
    simp only [demoTls, demoReps]
    exact Triple.pure (entails_refl _)
  socket tr := by
    simp only [demoTls, demoReps]
    exact Triple.pure (entails_pand_r (by simp only [emp_sep]; exact entails_refl _) (by decide))
  address V p u port hr := by
    simp only [demoTls, demoReps]
    exact Triple.pure (entails_pand_r (entails_refl _) fun _ _ => trivial)
  connect fd a u port _ := by
    simp only [demoTls, demoReps]
    exact Triple.pure (entails_refl _)
  close fd u tr := by
    simp only [demoTls, demoReps, emp_sep]
    exact Triple.pure (entails_refl _)
  apart s fd w := by
    simp only [demoReps, demoLive_eq, demoSes_eq]
    refine entails_pand_l fun _ => ?_
    simp only [hex_sep, sep_hex, sep_emp]
    exact entails_ex_r none (entails_ex_r _ (entails_ex_r _ (entails_ex_r _ (entails_refl _))))

/-- all of a life, in memory of its own -/
def whole (t : Tls) (ops : List Op) : M (List Out) := do
  let c ← mallocS 8
  life t c ops

/-- a peer that says `hi` for every two line feeds -/
def hi : Plan := { echo (text "hi") with cap := 5 }

def demoOps : List Op := [.load (text "c"), .send (text "x"), .connect (text "h") 443, .isConnected, .send (text "a\nb\n"), .receive 4, .receive 4, .send (text "\n"), .send (text "\n"), .receive 1, .receive 7, .close,
  .receive 1, .connect (text "h") 443, .isConnected]

/-- C93, C94: the hypotheses of `life_spec` are met, and the object does something -/
example : (∀ op ∈ demoOps, good op) := by
  intro op h
  simp only [demoOps, List.mem_cons, List.not_mem_nil, or_false] at h
  rcases h with rfl | rfl | rfl | rfl | rfl | rfl | rfl | rfl | rfl | rfl | rfl | rfl | rfl | rfl | rfl <;> simp only [good] <;> decide +kernel

example : outcome (whole (demoTls hi true) demoOps) (St.start bump) = some (.ok [.bool true, .num 0, .num 0, .bool true, .num 4, .data 2 [.byte 104, .byte 105, .undef, .undef], .data 0 (List.replicate 4 .undef), .num 1, .num 1,
    .data 1 [.byte 104], .data 1 (.byte 105 :: List.replicate 6 .undef), .bool true, .data 0 [.undef], .num 0, .bool true]) := by decide +kernel

/-- C93: an object reached, on which the peer got `a\nb\n` -/
example : ∃ o evs w, Lives (demoPeer hi) True [.connect (text "h") 443, .send (text "a\nb\n"), .receive 4] [.num 0, .num 4, .data 2 (bytesV (text "hi") ++ [.undef, .undef])] o evs ∧ o.live = some w ∧
    w.out = text "a\nb\n" ∧ w.pos = 2 := by
  let w0 : Wire := ⟨fun t => hi.S (t.count 10), [], 0, true⟩
  refine ⟨⟨8, 2, [9], some 5, some ((w0.sent (text "a\nb\n")).got 2)⟩, _, (w0.sent (text "a\nb\n")).got 2, ⟨⟨8, 1, [], none, none⟩, _, [[.socket 5, .session 8 9], [], []], .inr ⟨8, by decide, rfl, rfl⟩, ?_, rfl⟩, rfl, rfl, rfl⟩
  refine .cons ⟨0, rfl, .done (w := w0) (by decide) rfl (by decide) ⟨rfl, rfl⟩ rfl rfl⟩ (.cons ⟨4, rfl, ⟨w0.sent (text "a\nb\n"), rfl, ⟨4, by decide, rfl, fun _ _ => rfl⟩, .inl rfl, fun _ h => by cases h⟩, rfl⟩
    (.cons ⟨rfl, .inr ?_⟩ .nil))
  dsimp only
  rw [if_neg (by decide +kernel)]
  exact ⟨2, by decide, by decide, by decide +kernel, rfl, by decide +kernel⟩

/-- the calls of an object whose handshake fails -/
theorem failing : ∃ o evss, Steps (demoPeer hi) True ⟨8, 1, [], none, none⟩ [.connect (text "h") 443, .close, .connect (text "h") 443] [.num 136, .bool true, .num 102] o evss ∧ evss[0]? = some [.socket 5, .session 8 9] ∧
    o.refs = 2 ∧ failedHandshakes [.num 136, .bool true, .num 102] evss = 1 := by
  refine ⟨⟨8, 2, [9], some 5, none⟩, [[.socket 5, .session 8 9], [], []], ?_, rfl, rfl, by decide⟩
  exact .cons ⟨136, rfl, .refused (by decide) rfl (by decide) (by decide)⟩ (.cons ⟨true, rfl, rfl, rfl, rfl⟩ (.cons ⟨102, rfl, .again (by decide) (by simp) (by decide)⟩ .nil))

/-- C95 (negation): a handshake failed; after that `connect` fails although nothing but the object is at fault: it does not even call lwIP. -/
theorem no_second_try : outcome (whole (demoTls hi false) [.connect (text "h") 443, .close, .connect (text "h") 443, .isConnected]) (St.start bump) =
    some (.ok [.num 136, .bool true, .num 102, .bool false]) := by decide +kernel

/-- blocks left after a run -/
def leftAt (c : M (List Out)) (p : Nat) : Bool := match c (St.start bump) with
  | some (.ok (_, s)) => (s.heap p).isSome
  | _ => false

/-- C94 (negation): an object was connected, closed and destroyed: its session is left. -/
theorem session_left : leftAt (whole (demoTls hi true) [.connect (text "h") 443, .close]) 2 = true := by decide +kernel

/-! ### `httpapi_mbed.cpp` on top of the class -/

theorem stack_net {d : Plan} : Mb.NetL (NetR (demoReps d)) 1000 1001 [] (Mb.demoSt fun _ => false).heap := by
  refine (?_ : _ ⊢ₕ _) _ (Mb.demoSt_net (f := fun _ => false))
  rw [Mb.NetL_eq, Mb.NetL_eq]
  refine sep_mono ?_ (entails_refl _)
  rw [NetR_eq]
  refine entails_ex_r [] (entails_ex_r [] ?_)
  simp only [Lefts, demoReps, sep_emp]
  exact entails_refl _

/-- C93: the hypotheses of `stack_run` are met, and the requests succeed -/
theorem stack_demo : ∃ env as log s', runOps (Mb.exec (asLib (demoTls (echo Mb.answer) true)) 1000 1001) Mb.sample [] (Mb.demoSt fun _ => false) = some (.ok ((Mb.sampleOuts, env), s')) ∧
    Runs (Mb.step True True (demoPeer (echo Mb.answer))) ([], []) Mb.sample Mb.sampleOuts (as, log) := by
  obtain ⟨outs, env, as, log, s', k1, k2, _⟩ := stack_run (demo_honours (rel := True) (echo Mb.answer) true Nat.one_pos) (Mb.echo_served (rel := True) Mb.answer_whole) trivial
    Mb.sample Mb.sample_good (Mb.demoSt fun _ => false) Mb.demoSt_fin Mb.demoSt_reliable stack_net
  have h : Mb.report (Mb.exec (asLib (demoTls (echo Mb.answer) true)) 1000 1001) (fun _ => false) Mb.sample = some Mb.sampleOuts := by
    rw [← Mb.execF_eq 40]; decide +kernel
  unfold Mb.report at h
  rw [k1] at h
  obtain rfl : outs = Mb.sampleOuts := by simpa using h
  exact ⟨env, as, log, s', k1, k2⟩

end Verif.Wc
