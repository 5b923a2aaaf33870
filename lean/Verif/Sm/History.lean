import Verif.Sm.HSpec
import Verif.Sm.Props
/-! # C102: every history of calls runs without undefined behaviour and does what the specification says -/
namespace Verif.Sm
open Verif.Headers
open Verif.Sock (Obj Pend HostArg opened Act i32 SockR FdR BytesArg)
variable {rel : Prop} {os : Os} {Net : List Ev → HProp} {Conn : Int → HProp}

/-- the calls of a client: a table of handles -/
def call (os : Os) (op : Op) (env : List Nat) : M (Option Int × List Nat) :=
  match op with
  | .create host port logger => do
    let h ← socketio_create (some ⟨.str host, port⟩) logger
    pure (some (if h = 0 then 0 else 1), env ++ [h])
  | .createNull logger => do let h ← socketio_create none logger; pure (some (if h = 0 then 0 else 1), env ++ [h])
  | .accept _ _ => pure (none, env)
  | .destroy i => on1 env i fun h => do socketio_destroy os h; pure (some 0, env.set i 0)
  | .opn i f1 c1 f2 c2 f3 c3 => on1 env i fun h => do let r ← socketio_open os h f1 c1 f2 c2 f3 c3; pure (some r, env)
  | .close i f c => on1 env i fun h => do let r ← socketio_close os h f c; pure (some r, env)
  | .send i none cb ctx => on1 env i fun h => do let r ← socketio_send os h .null 1 cb ctx; pure (some r, env)
  | .send i (some bs) cb ctx => on1 env i fun h => do let r ← socketio_send os h (.lit bs) bs.length cb ctx; pure (some r, env)
  | .dowork i n m => on1 env i fun h => do let r ← socketio_dowork os n m h; pure (some (if r then 1 else 0), env)

/-- the client remembers which handles it has opened and not closed -/
def next (op : Op) (o : Option Int) (flags : List Bool) : List Bool :=
  match op, o with
  | .create .., some _ => flags ++ [false]
  | .createNull _, some _ => flags ++ [false]
  | .destroy i, some _ => flags.set i false
  | .opn i .., some r => if r = 0 then flags.set i true else flags
  | .close i .., some r => if r = 0 then flags.set i false else flags
  | _, _ => flags

/-- it does not open a handle that is open -/
def forbidden (op : Op) (flags : List Bool) : Bool :=
  match op with
  | .opn i .. => flags[i]? == some true
  | _ => false

/-- the client -/
def exec (os : Os) (op : Op) (env : List Nat × List Bool) : M (Option Int × List Nat × List Bool) :=
  if forbidden op env.2 then pure (none, env) else do
  let r ← call os op env.1
  pure (r.1, r.2, next op r.1 env.2)

/-- arguments are C strings, `int`s and objects -/
def good : Op → Prop
  | .create host port _ => NoNul host ∧ host.length < maxObj ∧ i32 port
  | .send _ (some bs) _ _ => bs.length < 2 ^ 31
  | _ => True

/-- the memory of the connection objects after the calls of the record, with the objects nobody knows any more -/
def NetL (Net : List Ev → HProp) (Conn : Int → HProp) (log : Log) : HProp := Net (trace log) ∗ Lost Conn (lostAll log)

theorem NetL_snoc {log : Log} {i : Nat} {op : Op} {r : Int} {evs : List Ev} {lost : List Int} :
    NetL Net Conn (log ++ [⟨i, op, r, evs, lost⟩]) = (Net (trace log ++ evs) ∗ Lost Conn (lostAll log) ∗ Lost Conn lost) := by
  simp [NetL, trace, lostAll, Lost_append]

/-- a call on the handle at position `i`, which is known to be in a certain state -/
theorem liftW_at {A W O α : Type} {R : Ptr → A → HProp} {Net : W → HProp} {env : List Nat} {x : List A × W} {i : Nat} {c : Nat → M α} {E : A → W → O → A → W → Prop} {f : α → O}
    (hc : ∀ h a w, x.1[i]? = some a → Triple rel (R h a ∗ Net w) (c h) (fun r => ∃∃ a' w', (E a w (f r) a' w') ⋏ R h a' ∗ Net w')) :
    Triple rel (OwnW R Net env x) (on1 env i fun h => do let r ← c h; pure (some (f r), env))
      (fun r => ∃∃ x', (On1W x i E r.1 x') ⋏ OwnW R Net r.2 x') := by
  refine Triple.know (φ := env.length = x.1.length) (by rintro _ ⟨a, b, _, _, h, _⟩; exact h.1) fun hl => ?_
  unfold on1
  cases hi : env[i]? with
  | none => exact Triple.pure (entails_ex_r x (entails_pand_r (entails_refl _) (Or.inl ⟨get_none hl hi, rfl, rfl⟩)))
  | some h =>
    obtain ⟨a, F, ha, h2, h3⟩ := Own_get (R := R) hi hl
    dsimp only
    unfold OwnW
    rw [h2, sep_assoc]
    step (hc h a x.2 ha) into r
    intro a' w' hE
    refine Triple.pure (entails_ex_r (x.1.set i a', w') (entails_pand_r ?_ (Or.inr ⟨a, _, a', w', ha, rfl, hE, rfl⟩)))
    have := h3 h a'
    rw [set_self hi] at this
    rw [this]; sep_cancel

/-- closed handles have no connection -/
def Wf (as : List (Option Obj)) : Prop := ∀ o, some o ∈ as → o.state = .closed → o.socket = -1

/-- the client's flags are right -/
def Flags (flags : List Bool) (as : List (Option Obj)) : Prop :=
  flags = as.map fun a => match a with
    | some o => decide (o.state ≠ .closed)
    | none => false

theorem call_spec (H : Honours rel os Net Conn) (op : Op) (hop : good op) (env : List Nat) (x : World) (hw : Wf x.1)
    (hopen : ∀ i f1 c1 f2 c2 f3 c3, op = .opn i f1 c1 f2 c2 f3 c3 → ¬ openAt x.1 i) :
    Triple rel (OwnW (ORep (SockR Conn)) (NetL Net Conn) env x) (call os op env)
      (fun r => ∃∃ x', (step (¬ rel) x op r.1 x') ⋏ OwnW (ORep (SockR Conn)) (NetL Net Conn) r.2 x') := by
  have hdec : ∀ r : Nat, (if decide (r ≠ 0) = true then (1 : Int) else 0) = if r = 0 then 0 else 1 := by
    intro r; by_cases h : r = 0 <;> simp [h]
  have nothing : ∀ log op r, NetL Net Conn log ⊢ₕ NetL Net Conn (log ++ [⟨x.1.length, op, r, [], []⟩]) := by
    intro log op r; rw [NetL_snoc, Lost_nil, sep_emp, List.append_nil]; exact entails_refl _
  cases op with
  | create host port logger =>
    unfold call step
    dsimp only
    refine liftW_new (f := fun h => if h = 0 then 0 else 1) fun log => ?_
    have hc := socketio_create_spec (rel := rel) (Conn := Conn) (some ⟨.str host, port⟩) (some (host, port)) logger
    have hcfg : CfgArg (some ⟨.str host, port⟩) (some (host, port)) = emp := by
      have h1 : CStr (.str host) host = emp := by
        funext z
        exact propext ⟨fun h => h.2, fun hh => CStr_str hop.1 hop.2.1 z hh⟩
      simp only [CfgArg, h1]
      simp [hop.2.2, true_pand]
    rw [hcfg] at hc
    simp only [sep_emp] at hc
    refine Triple.conseq (hc.frame (NetL Net Conn log)) (by rw [emp_sep]; exact entails_refl _) fun r => ?_
    simp only [hex_sep, pand_sep]
    refine entails_ex_l fun a' => entails_pand_l fun hE => entails_ex_r a' (entails_ex_r _ (entails_pand_r ?_ ⟨_, hE, (hdec r).symm, rfl⟩))
    exact sep_mono (entails_refl _) (nothing _ _ _)
  | createNull logger =>
    unfold call step
    dsimp only
    refine liftW_new (f := fun h => if h = 0 then 0 else 1) fun log => ?_
    have hc := socketio_create_spec (rel := rel) (Conn := Conn) none none logger
    simp only [CfgArg, sep_emp] at hc
    refine Triple.conseq (hc.frame (NetL Net Conn log)) (by rw [emp_sep]; exact entails_refl _) fun r => ?_
    simp only [hex_sep, pand_sep]
    refine entails_ex_l fun a' => entails_pand_l fun hE => entails_ex_r a' (entails_ex_r _ (entails_pand_r ?_ ⟨_, hE, (hdec r).symm, rfl⟩))
    exact sep_mono (entails_refl _) (nothing _ _ _)
  | accept port logger =>
    unfold call step
    dsimp only
    exact Triple.pure (entails_ex_r x (entails_pand_r (entails_refl _) ⟨rfl, rfl⟩))
  | destroy i =>
    unfold call step
    dsimp only
    refine liftW_del (o := (0 : Int)) (W := Log) (E := fun a log (r : Int) a' log' => r = 0 ∧ a' = none ∧ ∃ evs, DestroyE a evs ∧ log' = log ++ [(⟨i, .destroy i, r, evs, []⟩ : Entry)]) fun h a log => ?_
    refine Triple.conseq ((socketio_destroy_spec H h a (trace log)).frame (Lost Conn (lostAll log))) (by unfold NetL; rw [sep_assoc]; exact entails_refl _) fun _ => ?_
    simp only [hex_sep, pand_sep]
    refine entails_ex_l fun evs => entails_pand_l fun hE => entails_ex_r _ (entails_pand_r ?_ ⟨by trivial, by trivial, evs, hE, rfl⟩)
    rw [NetL_snoc, Lost_nil, sep_emp]; exact entails_refl _
  | opn i f1 c1 f2 c2 f3 c3 =>
    unfold call step
    dsimp only
    have hno := hopen i f1 c1 f2 c2 f3 c3 rfl
    have main : Triple rel (OwnW (ORep (SockR Conn)) (NetL Net Conn) env x)
        (on1 env i fun h => do let r ← socketio_open os h f1 c1 f2 c2 f3 c3; pure (some r, env))
        (fun r => ∃∃ x', (On1W x i (fun a log r a' log' => ∃ evs, OpenE f1 c1 f2 c2 f3 c3 a r a' evs ∧
          log' = log ++ [(⟨i, .opn i f1 c1 f2 c2 f3 c3, r, evs, []⟩ : Entry)]) r.1 x') ⋏ OwnW (ORep (SockR Conn)) (NetL Net Conn) r.2 x') := by
     refine liftW_at (f := id) fun h a log ha => ?_
     have hcl : ∀ o, a = some o → o.state = .closed ∧ o.socket = -1 := by
      rintro o rfl
      have h1 : o.state = .closed := Decidable.not_not.1 fun h => hno ⟨o, ha, h⟩
      exact ⟨h1, hw o (List.mem_of_getElem? ha) h1⟩
     refine Triple.conseq ((socketio_open_spec H f1 c1 f2 c2 f3 c3 h a hcl (trace log)).frame (Lost Conn (lostAll log))) (by unfold NetL; rw [sep_assoc]; exact entails_refl _) fun r => ?_
     simp only [hex_sep, pand_sep, sep_assoc]
     refine entails_ex_l fun a' => entails_ex_l fun evs => entails_pand_l fun hE => entails_ex_r a' (entails_ex_r _ (entails_pand_r ?_ ⟨evs, hE, rfl⟩))
     rw [NetL_snoc, Lost_nil, sep_emp]; exact entails_refl _
    exact main.conseq (entails_refl _) fun r => entails_ex_l fun x' => entails_pand_l fun hx => entails_ex_r x' (entails_pand_r (entails_refl _) (Or.inr ⟨hno, hx⟩))
  | close i f c =>
    unfold call step
    dsimp only
    refine liftW_op1 (f := id) fun h a log => ?_
    refine Triple.conseq ((socketio_close_spec H f c h a (trace log)).frame (Lost Conn (lostAll log))) (by unfold NetL; rw [sep_assoc]; exact entails_refl _) fun r => ?_
    simp only [hex_sep, pand_sep, sep_assoc]
    refine entails_ex_l fun a' => entails_ex_l fun evs => entails_ex_l fun lost => entails_pand_l fun hE => entails_ex_r a' (entails_ex_r _ (entails_pand_r ?_ ⟨evs, lost, hE, rfl⟩))
    rw [NetL_snoc]; sep_cancel
  | send i bs cb ctx =>
    cases bs with
    | none =>
      unfold call step
      dsimp only
      refine liftW_op1 (f := id) fun h a log => ?_
      have hs := socketio_send_spec H .null 1 none cb ctx h a (trace log)
      simp only [BytesArg, true_pand, sep_emp] at hs
      refine Triple.conseq (hs.frame (Lost Conn (lostAll log))) (by unfold NetL; rw [sep_assoc]; exact entails_refl _) fun r => ?_
      simp only [hex_sep, pand_sep, sep_assoc]
      refine entails_ex_l fun a' => entails_ex_l fun evs => entails_pand_l fun hE => entails_ex_r a' (entails_ex_r _ (entails_pand_r ?_ ⟨evs, hE, rfl⟩))
      rw [NetL_snoc, Lost_nil, sep_emp]; exact entails_refl _
    | some bs =>
      unfold call step
      dsimp only
      refine liftW_op1 (f := id) fun h a log => ?_
      have hs := socketio_send_spec H (.lit bs) bs.length (some bs) cb ctx h a (trace log)
      have hm : bs.length ≤ maxObj := Nat.le_of_lt (Nat.lt_of_lt_of_le (show bs.length < 2 ^ 31 from hop) (by decide))
      have e : BytesArg (.lit bs) bs.length (some bs) = emp := by
        simp only [BytesArg, Data_lit (List.prefix_refl bs) hm]
        simp [true_pand]
      rw [e, sep_emp] at hs
      simp only [sep_emp] at hs
      refine Triple.conseq (hs.frame (Lost Conn (lostAll log))) (by unfold NetL; rw [sep_assoc]; exact entails_refl _) fun r => ?_
      simp only [hex_sep, pand_sep, sep_assoc]
      refine entails_ex_l fun a' => entails_ex_l fun evs => entails_pand_l fun hE => entails_ex_r a' (entails_ex_r _ (entails_pand_r ?_ ⟨evs, hE, rfl⟩))
      rw [NetL_snoc, Lost_nil, sep_emp]; exact entails_refl _
  | dowork i n m =>
    unfold call step
    dsimp only
    refine liftW_op1 (f := fun r : Bool => if r then 1 else 0) fun h a log => ?_
    refine Triple.conseq ((socketio_dowork_spec H n m h a (trace log)).frame (Lost Conn (lostAll log))) (by unfold NetL; rw [sep_assoc]; exact entails_refl _) fun r => ?_
    simp only [hex_sep, pand_sep, sep_assoc]
    refine entails_ex_l fun a' => entails_ex_l fun evs => entails_pand_l fun hE => entails_ex_r a' (entails_ex_r _ (entails_pand_r ?_ ⟨r, evs, hE, rfl, rfl⟩))
    rw [NetL_snoc, Lost_nil, sep_emp]; exact entails_refl _

theorem SendE_none {oom : Prop} {bs : Option (List UInt8)} {cb ctx : Nat} {o : Obj} {r : Int} {evs : List Ev} :
    ¬ SendE oom bs cb ctx (some o) r none evs := by
  intro h
  cases bs with
  | none => exact absurd h.2.1 (by simp)
  | some bs =>
    simp only [SendE] at h
    split at h
    · exact absurd h.2.1 (by simp)
    · split at h
      · rcases h with ⟨_, ⟨_, h⟩ | ⟨_, _, h⟩⟩ <;> simp at h
      · rcases h with ⟨_, h, _⟩ | ⟨n, _, _, ⟨_, h⟩ | ⟨_, _, h⟩⟩ <;> simp at h

theorem SendE_same {oom : Prop} {bs : Option (List UInt8)} {cb ctx : Nat} {a : Option Obj} {o' : Obj} {r : Int} {evs : List Ev}
    (h : SendE oom bs cb ctx a r (some o') evs) : ∃ o, a = some o ∧ o'.state = o.state ∧ o'.socket = o.socket := by
  cases a with
  | none => exact absurd h.2.1 (by simp)
  | some o =>
    refine ⟨o, rfl, ?_⟩
    cases bs with
    | none => have := h.2.1; cases this; exact ⟨rfl, rfl⟩
    | some bs =>
      simp only [SendE] at h
      split at h
      · have := h.2.1; cases this; exact ⟨rfl, rfl⟩
      · split at h
        · rcases h with ⟨_, ⟨_, h⟩ | ⟨_, _, h⟩⟩ <;> cases h <;> exact ⟨rfl, rfl⟩
        · rcases h with ⟨_, h, _⟩ | ⟨n, _, _, ⟨_, h⟩ | ⟨_, _, h⟩⟩ <;> cases h <;> exact ⟨rfl, rfl⟩

theorem Wf_step {oom : Prop} {x x' : World} {op : Op} {o : Option Int} (h : step oom x op o x') (hw : Wf x.1) : Wf x'.1 := by
  have hset : ∀ (i : Nat) (a : Option Obj), (∀ o, a = some o → o.state = .closed → o.socket = -1) → Wf (x.1.set i a) := by
    intro i a ha o ho
    rcases List.mem_or_eq_of_mem_set ho with h | h
    · exact hw o h
    · exact ha o h.symm
  have hnew : ∀ c logger ok a', CreateE oom c logger ok a' → Wf (x.1 ++ [a']) := by
    intro c logger ok a' hE o ho
    rcases List.mem_append.1 ho with h | h
    · exact hw o h
    · have h : some o = a' := by simpa using h
      unfold CreateE at hE
      split at hE
      · rw [hE.2] at h; simp at h
      · rcases hE with ⟨_, h', _⟩ | ⟨_, h'⟩
        · rw [h'] at h; simp at h
        · rw [h'] at h; cases h; simp
  have hold : ∀ (i : Nat) o, x.1[i]? = some (some o) → o.state = .closed → o.socket = -1 := fun i o h => hw o (List.mem_of_getElem? h)
  cases op with
  | create host port logger =>
    obtain ⟨r, a', w', ho, ⟨ok, h1, h2, rfl⟩, rfl⟩ := h
    exact hnew _ _ _ _ h1
  | createNull logger =>
    obtain ⟨r, a', w', ho, ⟨ok, h1, h2, rfl⟩, rfl⟩ := h
    exact hnew _ _ _ _ h1
  | accept port logger => rw [h.2]; exact hw
  | destroy i =>
    rcases h with ⟨_, hn, rfl⟩ | ⟨a, r, a', w', h1, ho, ⟨h2, rfl, evs, h4, rfl⟩, rfl⟩
    · exact hw
    · exact hset _ _ (by simp)
  | dowork i n m =>
    rcases h with ⟨_, hn, rfl⟩ | ⟨a, r, a', w', h1, ho, ⟨fin, evs, h4, h5, rfl⟩, rfl⟩
    · exact hw
    · refine hset _ _ fun o ho hs => ?_
      subst ho
      cases a with
      | none => exact absurd h4.2.1 (by simp)
      | some o0 =>
        simp only [DoworkE] at h4
        split at h4
        · have := h4.2.1; cases this; exact hold i o h1 hs
        · rename_i hop
          obtain ⟨o', e, h4⟩ := h4
          cases e
          have hop : o0.state = .opn := Decidable.not_not.1 hop
          have : o.state = o0.state ∨ o.state = .error := by
            rcases h4 with ⟨_, h4⟩ | ⟨_, _, _, h4, _⟩
            · exact h4.same.2.2.2
            · exact h4.same.2.2.2
          rw [hop, hs] at this; simp at this
  | opn i f1 c1 f2 c2 f3 c3 =>
    rcases h with ⟨_, _, rfl⟩ | ⟨_, ⟨_, hn, rfl⟩ | ⟨a, r, a', w', h1, ho, ⟨evs, h4, rfl⟩, rfl⟩⟩
    · exact hw
    · exact hw
    · refine hset _ _ fun o ho hs => ?_
      subst ho
      cases a with
      | none => exact absurd h4.2.1 (by simp)
      | some o0 =>
        rcases h4 with ⟨_, e, _⟩ | ⟨c, _, _, ⟨_, _, _, e, _⟩ | ⟨_, e, _⟩⟩
        · cases e; exact hold i o h1 hs
        · cases e; exact hold i o h1 hs
        · cases e; simp [opened] at hs
  | close i f c =>
    rcases h with ⟨_, hn, rfl⟩ | ⟨a, r, a', w', h1, ho, ⟨evs, lost, h4, rfl⟩, rfl⟩
    · exact hw
    · refine hset _ _ fun o ho hs => ?_
      subst ho
      cases a with
      | none => exact absurd h4.2.1 (by simp)
      | some o0 =>
        simp only [CloseE] at h4
        split at h4
        · have := h4.2.1; cases this; exact hold i o h1 hs
        · have := h4.2.1; cases this; rfl
  | send i bs cb ctx =>
    rcases h with ⟨_, hn, rfl⟩ | ⟨a, r, a', w', h1, ho, ⟨evs, h4, rfl⟩, rfl⟩
    · exact hw
    · refine hset _ _ fun o ho hs => ?_
      subst ho
      obtain ⟨o0, rfl, h2, h3⟩ := SendE_same h4
      rw [h3]; exact hold i o0 h1 (by rw [← h2]; exact hs)

theorem Flags_step {oom : Prop} {x x' : World} {op : Op} {o : Option Int} {flags : List Bool} (h : step oom x op o x') (hf : Flags flags x.1) :
    Flags (next op o flags) x'.1 := by
  have hsame : ∀ (i : Nat) (o o' : Obj), x.1[i]? = some (some o) → (o'.state = .closed ↔ o.state = .closed) → Flags flags (x.1.set i (some o')) := by
    intro i o o' hi hs
    unfold Flags at hf ⊢
    rw [hf, List.map_set]
    refine (set_self ?_).symm
    rw [List.getElem?_map, hi]
    simp [hs]
  have hset : ∀ (i : Nat) (a : Option Obj) (b : Bool), (match a with
    | some o => decide (o.state ≠ .closed)
    | none => false) = b → Flags (flags.set i b) (x.1.set i a) := by
    rintro i a b rfl
    unfold Flags at hf ⊢
    rw [hf, List.map_set]
  have hnew : ∀ c logger ok a', CreateE oom c logger ok a' → Flags (flags ++ [false]) (x.1 ++ [a']) := by
    intro c logger ok a' hE
    unfold Flags at hf ⊢
    rw [hf, List.map_append]
    congr 1
    unfold CreateE at hE
    split at hE
    · rw [hE.2]; rfl
    · rcases hE with ⟨_, h', _⟩ | ⟨_, h'⟩
      · rw [h']; rfl
      · rw [h']; rfl
  have hback : ∀ (i : Nat) (a : Option Obj), x.1[i]? = some a → Flags flags (x.1.set i a) := by
    intro i a hi; rw [set_self hi]; exact hf
  cases op with
  | create host port logger =>
    obtain ⟨r, a', w', rfl, ⟨ok, h1, h2, rfl⟩, rfl⟩ := h
    exact hnew _ _ _ _ h1
  | createNull logger =>
    obtain ⟨r, a', w', rfl, ⟨ok, h1, h2, rfl⟩, rfl⟩ := h
    exact hnew _ _ _ _ h1
  | accept port logger => rw [h.1, h.2]; exact hf
  | destroy i =>
    rcases h with ⟨_, rfl, rfl⟩ | ⟨a, r, a', w', h1, rfl, ⟨h2, rfl, evs, h4, rfl⟩, rfl⟩
    · exact hf
    · exact hset _ _ _ rfl
  | dowork i n m =>
    rcases h with ⟨_, rfl, rfl⟩ | ⟨a, r, a', w', h1, rfl, ⟨fin, evs, h4, h5, rfl⟩, rfl⟩
    · exact hf
    · show Flags flags _
      cases a with
      | none => rw [h4.2.1]; exact hback _ _ h1
      | some o0 =>
        simp only [DoworkE] at h4
        split at h4
        · rw [h4.2.1]; exact hback _ _ h1
        · rename_i hop
          obtain ⟨o', rfl, h4⟩ := h4
          have hop : o0.state = .opn := Decidable.not_not.1 hop
          have : o'.state = o0.state ∨ o'.state = .error := by
            rcases h4 with ⟨_, h4⟩ | ⟨_, _, _, h4, _⟩
            · exact h4.same.2.2.2
            · exact h4.same.2.2.2
          refine hsame i o0 o' h1 ?_
          rcases this with h | h <;> simp [h, hop]
  | opn i f1 c1 f2 c2 f3 c3 =>
    rcases h with ⟨_, rfl, rfl⟩ | ⟨_, ⟨_, rfl, rfl⟩ | ⟨a, r, a', w', h1, rfl, ⟨evs, h4, rfl⟩, rfl⟩⟩
    · exact hf
    · exact hf
    · show Flags (if r = 0 then flags.set i true else flags) _
      cases a with
      | none => rw [if_neg h4.1, h4.2.1]; exact hback _ _ h1
      | some o0 =>
        rcases h4 with ⟨hr, rfl, _⟩ | ⟨c, _, _, ⟨_, _, hr, rfl, _⟩ | ⟨hr, rfl, _⟩⟩
        · rw [if_neg hr]; exact hback _ _ h1
        · rw [if_neg hr]; exact hback _ _ h1
        · rw [if_pos hr]; exact hset _ _ _ (by simp [opened])
  | close i f c =>
    rcases h with ⟨_, rfl, rfl⟩ | ⟨a, r, a', w', h1, rfl, ⟨evs, lost, h4, rfl⟩, rfl⟩
    · exact hf
    · show Flags (if r = 0 then flags.set i false else flags) _
      cases a with
      | none => rw [if_neg h4.1, h4.2.1]; exact hback _ _ h1
      | some o0 =>
        simp only [CloseE] at h4
        split at h4
        · rw [if_neg h4.1, h4.2.1]; exact hback _ _ h1
        · rw [if_pos h4.1, h4.2.1]; exact hset _ _ _ (by simp)
  | send i bs cb ctx =>
    rcases h with ⟨_, rfl, rfl⟩ | ⟨a, r, a', w', h1, rfl, ⟨evs, h4, rfl⟩, rfl⟩
    · exact hf
    · show Flags flags _
      cases a' with
      | none =>
        cases a with
        | none => exact hback _ _ h1
        | some o0 => exact absurd h4 SendE_none
      | some o' =>
        obtain ⟨o0, rfl, h2, h3⟩ := SendE_same h4
        exact hsame i o0 o' h1 (by rw [h2])

/-- all memory: handles, connection objects, and what the client knows -/
def All (Net : List Ev → HProp) (Conn : Int → HProp) (env : List Nat × List Bool) (x : World) : HProp :=
  (Wf x.1 ∧ Flags env.2 x.1) ⋏ OwnW (ORep (SockR Conn)) (NetL Net Conn) env.1 x

theorem exec_spec (H : Honours rel os Net Conn) (op : Op) (hop : good op) (env : List Nat × List Bool) (x : World) :
    Triple rel (All Net Conn env x) (exec os op env) (fun r => ∃∃ x', (step (¬ rel) x op r.1 x') ⋏ All Net Conn r.2 x') := by
  unfold All
  hoist
  intro hw hf
  unfold exec
  have hflag : ∀ i, env.2[i]? = some true ↔ openAt x.1 i := by
    intro i
    have hf' : env.2 = _ := hf
    rw [hf', List.getElem?_map]
    unfold openAt
    cases hi : x.1[i]? with
    | none => simp
    | some a =>
      cases a with
      | none => simp
      | some o => simp
  by_cases hb : forbidden op env.2 = true
  · rw [if_pos hb]
    refine Triple.pure (entails_ex_r x (entails_pand_r (entails_pand_r (entails_refl _) ⟨hw, hf⟩) ?_))
    cases op with
    | opn i f1 c1 f2 c2 f3 c3 =>
      refine Or.inl ⟨(hflag i).1 ?_, rfl, rfl⟩
      simpa [forbidden] using hb
    | _ => simp [forbidden] at hb
  · rw [if_neg hb]
    refine Triple.bind' (call_spec H op hop env.1 x hw ?_) fun r => ?_
    · rintro i f1 c1 f2 c2 f3 c3 rfl h
      exact hb (by simpa [forbidden] using (hflag i).2 h)
    · hoist
      intro x' hx
      refine Triple.pure (entails_ex_r x' (entails_pand_r (entails_pand_r (entails_refl _) ⟨Wf_step hx hw, Flags_step hx hf⟩) hx))

/-- Every history on any number of handles: no undefined behaviour; results, callbacks and calls of the connection objects are those of the specification. -/
theorem histories (H : Honours rel os Net Conn) (ops : List Op) (hops : ∀ op ∈ ops, good op) (env : List Nat × List Bool) (x : World) :
    Triple rel (All Net Conn env x) (runOps (exec os) ops env)
      (fun r => ∃∃ x', (Runs (step (¬ rel)) x ops r.1 x') ⋏ All Net Conn r.2 x') :=
  runOps_spec (fun op hop env x => exec_spec H op hop env x) ops hops env x

/-- From a state in which only the system owns memory. -/
theorem histories_run (H : Honours False os Net Conn) (ops : List Op) (hops : ∀ op ∈ ops, good op) (s : St)
    (hf : s.heap.fin) (h0 : Net [] s.heap) :
    ∃ outs env as log s', runOps (exec os) ops ([], []) s = some (.ok ((outs, env), s')) ∧
      Runs (step True) ([], []) ops outs (as, log) ∧ (Own (ORep (SockR Conn)) env.1 as ∗ Net (trace log) ∗ Lost Conn (lostAll log)) s'.heap := by
  have t := histories H ops hops ([], []) ([], [])
  have t : Triple False (Net []) _ _ := t.pre (entails_pand_r (entails_of_eq (by rw [OwnW, Own_nil, emp_sep]; simp [NetL, trace, lostAll, Lost_nil, sep_emp]))
    ⟨fun o h => by simp at h, rfl⟩)
  obtain ⟨r, s', h1, ⟨x', hx, _, hh⟩⟩ := t.run s hf (fun h => h.elim) h0
  refine ⟨r.1, r.2, x'.1, x'.2, s', h1, ?_, hh⟩
  simpa using hx

end Verif.Sm
