import Verif.Sync.Spec
/-! # The invariant of the machine of threads, locks and condition variables -/
namespace Verif.Sync

/-- where a thread is -/
inductive Pt where
  | idle
  | iStart | iRaw (p : Nat) | iFree (p : Nat) | iDone (p : Nat)
  | lStart (h : Nat) | lDone (h : Nat) (r : LOCK_RESULT)
  | uStart (h : Nat) | uDone (h : Nat) (r : LOCK_RESULT)
  | dStart (h : Nat) | dFree (h : Nat) | dDone (h : Nat) (r : LOCK_RESULT)
  | ciStart | ciRaw (p : Nat) | ciDone (p : Nat)
  | pStart (c : Nat) | pDone (c : Nat) (r : COND_RESULT)
  | wStart (c h : Nat) (ms : Int) | wCall (c h : Nat) (ms : Int) | wSleep (c h : Nat) (ms : Int) | wWoken (c h : Nat) (ms : Int) (code : Nat)
  | wDone (c h : Nat) (ms : Int) (r : COND_RESULT)
  | cdStart (c : Nat) | cdFree (c : Nat) | cdDone (c : Nat)

def Pt.op : Pt → Option Op
  | .idle => none
  | .iStart | .iRaw _ | .iFree _ | .iDone _ => some .lockInit
  | .lStart h | .lDone h _ => some (.lock h)
  | .uStart h | .uDone h _ => some (.unlock h)
  | .dStart h | .dFree h | .dDone h _ => some (.lockDeinit h)
  | .ciStart | .ciRaw _ | .ciDone _ => some .condInit
  | .pStart c | .pDone c _ => some (.post c)
  | .wStart c h ms | .wCall c h ms | .wSleep c h ms | .wWoken c h ms _ | .wDone c h ms _ => some (.wait c h ms)
  | .cdStart c | .cdFree c | .cdDone c => some (.condDeinit c)

def timed (ms : Int) : Bool := decide (ms > 0)

/-- the end of a wait with this result -/
def waitEnd (ms : Int) (r : Nat) : COND_RESULT :=
  if ms > 0 then (if r = ETIMEDOUT then .timeout else if r = 0 then .ok else .error) else if r ≠ 0 then .error else .ok

def waitK (ms : Int) : Nat → Prog := fun r =>
  if ms > 0 then (if r = ETIMEDOUT then .ret (.cond .timeout) else if r = 0 then .ret (.cond .ok) else .ret (.cond .error))
  else if r ≠ 0 then .ret (.cond .error) else .ret (.cond .ok)

theorem waitK_eq (ms : Int) (r : Nat) : waitK ms r = .ret (.cond (waitEnd ms r)) := by
  unfold waitK waitEnd; split <;> split <;> (try split) <;> rfl

def lockK (r : Nat) : LOCK_RESULT := if r = 0 then .ok else .error

/-- the program that is left -/
def Pt.prog : Pt → Prog
  | .idle => .ret .none
  | .iStart => Lock_Init
  | .iRaw p => .call (.mutexInit p) fun r => if r ≠ 0 then .call (.free p) fun _ => .ret (.handle 0) else .ret (.handle p)
  | .iFree p => .call (.free p) fun _ => .ret (.handle 0)
  | .iDone p => .ret (.handle p)
  | .lStart h => .call (.mutexLock h) fun r => if r = 0 then .ret (.lock .ok) else .ret (.lock .error)
  | .lDone _ r | .uDone _ r | .dDone _ r => .ret (.lock r)
  | .uStart h => .call (.mutexUnlock h) fun r => if r = 0 then .ret (.lock .ok) else .ret (.lock .error)
  | .dStart h => .call (.mutexDestroy h) fun r => if r = 0 then .call (.free h) fun _ => .ret (.lock .ok) else .ret (.lock .error)
  | .dFree h => .call (.free h) fun _ => .ret (.lock .ok)
  | .ciStart => Condition_Init
  | .ciRaw p => .call (.condInit p) fun _ => .ret (.handle p)
  | .ciDone p => .ret (.handle p)
  | .pStart c => .call (.condBroadcast c) fun r => if r = 0 then .ret (.cond .ok) else .ret (.cond .error)
  | .pDone _ r => .ret (.cond r)
  | .wStart c h ms => .call .clock fun _ => .call (.condWait c h (timed ms)) (waitK ms)
  | .wCall c h ms => .call (.condWait c h (timed ms)) (waitK ms)
  | .wSleep _ _ ms | .wWoken _ _ ms _ => waitK ms 0
  | .wDone _ _ _ r => .ret (.cond r)
  | .cdStart c => .call (.condDestroy c) fun _ => .call (.free c) fun _ => .ret .none
  | .cdFree c => .call (.free c) fun _ => .ret .none
  | .cdDone _ => .ret .none

def Pt.thr (pt : Pt) : Thr :=
  match pt with
  | .idle => .idle
  | .wSleep c h ms => .sleep (.wait c h ms) c h (timed ms) (waitK ms)
  | .wWoken c h ms code => .woken (.wait c h ms) h code (waitK ms)
  | _ => .run (pt.op.getD .lockInit) pt.prog

/-- where a thread is when it has just entered a function -/
def start : Op → Pt
  | .lockInit => .iStart
  | .lock h => if h = 0 then .lDone h .error else .lStart h
  | .unlock h => if h = 0 then .uDone h .error else .uStart h
  | .lockDeinit h => if h = 0 then .dDone h .error else .dStart h
  | .condInit => .ciStart
  | .post c => if c = 0 then .pDone c .invalid_arg else .pStart c
  | .wait c h ms => if c = 0 ∨ h = 0 then .wDone c h ms .invalid_arg else if ms > 0 then .wStart c h ms else .wCall c h ms
  | .condDeinit c => if c = 0 then .cdDone c else .cdStart c

theorem start_op (op : Op) : (start op).op = some op := by
  cases op <;> simp only [start] <;> (repeat' split) <;> rfl

theorem start_thr (op : Op) : (start op).thr = .run op (body op) := by
  cases op with
  | lockInit => rfl
  | condInit => rfl
  | lock h => simp only [start, body, Lock]; split <;> simp [Pt.thr, Pt.op, Pt.prog, *]
  | unlock h => simp only [start, body, Unlock]; split <;> simp [Pt.thr, Pt.op, Pt.prog, *]
  | lockDeinit h => simp only [start, body, Lock_Deinit]; split <;> simp [Pt.thr, Pt.op, Pt.prog, *]
  | post c => simp only [start, body, Condition_Post]; split <;> simp [Pt.thr, Pt.op, Pt.prog, *]
  | condDeinit c => simp only [start, body, Condition_Deinit]; split <;> simp [Pt.thr, Pt.op, Pt.prog, *]
  | wait c h ms =>
    simp only [start, body, Condition_Wait]
    split
    · simp [Pt.thr, Pt.op, Pt.prog]
    · split
      · rename_i hm; simp [Pt.thr, Pt.op, Pt.prog, timed, hm]; funext _; congr 1; funext r; simp [waitK, hm]
      · rename_i hm; simp [Pt.thr, Pt.op, Pt.prog, timed, hm]; funext r; simp [waitK, hm]

/-- inside a function the thread owns the mutex -/
def Pt.owns (h : Nat) : Pt → Prop
  | .lDone p .ok => p = h
  | .uStart p => p = h
  | .uDone p .error => p = h ∧ p ≠ 0
  | .wStart _ p _ | .wCall _ p _ => p = h
  | .wDone c p _ _ => p = h ∧ c ≠ 0 ∧ p ≠ 0
  | _ => False

/-- a block that is not known to the client: made and not yet returned, or given up and not yet released -/
def Pt.pend : Pt → Option Nat
  | .iRaw p | .iFree p | .dStart p | .dFree p | .ciRaw p | .cdStart p | .cdFree p => some p
  | .iDone p | .ciDone p | .dDone p .error => if p = 0 then none else some p
  | _ => none

/-- waiting -/
def Pt.waits : Pt → Option (Nat × Nat)
  | .wStart c h _ | .wCall c h _ | .wSleep c h _ | .wWoken c h _ _ => some (c, h)
  | _ => none

def Good (mem : Nat → Cell) (log : Log) (t : Tid) : Pt → Prop
  | .iRaw p | .iFree p | .dFree p | .ciRaw p | .cdFree p => mem p = .raw
  | .iDone p | .dDone p .error => p = 0 ∨ mem p = .mutex none
  | .lStart h => live log h = true ∧ held log t h = false
  | .lDone h .ok => live log h = true
  | .uStart h => live log h = true ∧ held log t h = false
  | .uDone h .error => h = 0 ∨ live log h = true
  | .dStart h => mem h = .mutex none
  | .ciDone p => p = 0 ∨ mem p = .cond
  | .pStart c => liveC log c = true
  | .wStart c h _ | .wCall c h _ | .wSleep c h _ | .wWoken c h _ _ => liveC log c = true ∧ live log h = true ∧ held log t h = false
  | .wDone c h _ _ => c = 0 ∨ h = 0 ∨ live log h = true
  | .cdStart c => mem c = .cond
  | _ => True

structure J (pts : Tid → Pt) (mem : Nat → Cell) (log : Log) : Prop where
  call : ∀ t, inCall log t = (pts t).op
  own : ∀ t h, mem h = .mutex (some t) ↔ (held log t h = true ∨ (pts t).owns h)
  lv : ∀ h, live log h = true → h ≠ 0 ∧ ∃ o, mem h = .mutex o
  lvc : ∀ c, liveC log c = true → c ≠ 0 ∧ mem c = .cond
  hl : ∀ t h, held log t h = true → live log h = true
  good : ∀ t, Good mem log t (pts t)
  disj : ∀ t u p, (pts t).pend = some p → (pts u).pend = some p → t = u
  pfree : ∀ t p, (pts t).pend = some p → live log p = false ∧ liveC log p = false
  all : ∀ p, mem p ≠ .free → live log p = true ∨ liveC log p = true ∨ ∃ t, (pts t).pend = some p
  nz : ∀ t p, (pts t).pend = some p → p ≠ 0
  same : ∀ t u c h h', (pts t).waits = some (c, h) → (pts u).waits = some (c, h') → h = h'

theorem inCall_snoc {log : Log} {e : Ev} {t : Tid} : inCall (log ++ [e]) t = inCallStep t (inCall log t) e := by simp [inCall]
theorem live_snoc {log : Log} {e : Ev} {h : Nat} : live (log ++ [e]) h = liveStep h (live log h) e := by simp [live]
theorem liveC_snoc {log : Log} {e : Ev} {c : Nat} : liveC (log ++ [e]) c = liveCStep c (liveC log c) e := by simp [liveC]
theorem held_snoc {log : Log} {e : Ev} {t : Tid} {h : Nat} : held (log ++ [e]) t h = heldStep t h (held log t h) e := by simp [held]

theorem J_init : J (fun _ => .idle) State.init.mem [] := by
  refine ⟨fun _ => rfl, fun t h => ?_, ?_, ?_, ?_, fun _ => trivial, ?_, ?_, ?_, ?_, ?_⟩ <;> simp [State.init, held, live, liveC, Pt.owns, Pt.pend, Pt.waits]


theorem Good_frame {mem mem' : Nat → Cell} {log log' : Log} {u : Tid} {pt : Pt} (h : Good mem log u pt) (h1 : ∀ p, pt.pend = some p → mem' p = mem p)
    (h2 : ∀ p op, pt.op = some op → op.usesLock p = true → live log p = true → live log' p = true)
    (h3 : ∀ p op, pt.op = some op → op.usesCond p = true → liveC log p = true → liveC log' p = true)
    (h4 : ∀ p, held log u p = false → held log' u p = false) : Good mem' log' u pt := by
  cases pt <;> simp only [Good, Pt.pend, Pt.op, Option.some.injEq, forall_eq', Op.usesLock, Op.usesCond, decide_eq_true_eq] at * <;>
    first | trivial | grind

theorem owns_uses {pt : Pt} {h : Nat} (k : pt.owns h) : ∃ op, pt.op = some op ∧ op.usesLock h = true := by
  cases pt with
  | lDone p r => cases r <;> simp_all [Pt.owns, Pt.op, Op.usesLock]
  | uDone p r => cases r <;> simp_all [Pt.owns, Pt.op, Op.usesLock]
  | _ => simp_all [Pt.owns, Pt.op, Op.usesLock]

theorem J.unowned {pts : Tid → Pt} {mem : Nat → Cell} {log : Log} (j : J pts mem log) {h : Nat} (h1 : live log h = true) (h2 : ∀ u, held log u h = false)
    (h3 : ∀ u op, inCall log u = some op → op.usesLock h = false) : mem h = .mutex none := by
  obtain ⟨o, ho⟩ := (j.lv h h1).2
  cases o with
  | none => exact ho
  | some u =>
    rcases (j.own u h).1 ho with k | k
    · rw [h2 u] at k; cases k
    · obtain ⟨op, k1, k2⟩ := owns_uses k
      rw [h3 u op (by rw [j.call u, k1])] at k2; cases k2

theorem start_pend {op : Op} : (start op).pend = match op with
    | .lockDeinit h => if h = 0 then none else some h
    | .condDeinit h => if h = 0 then none else some h
    | _ => none := by
  cases op <;> simp only [start] <;> (repeat' split) <;> simp_all [Pt.pend]

theorem start_waits {op : Op} : (start op).waits = match op with
    | .wait c h _ => if c = 0 ∨ h = 0 then none else some (c, h)
    | _ => none := by
  cases op <;> simp only [start] <;> (repeat' split) <;> simp_all [Pt.waits]

theorem waits_op {pt : Pt} {c h : Nat} (k : pt.waits = some (c, h)) : ∃ ms, pt.op = some (.wait c h ms) := by
  cases pt <;> simp_all [Pt.waits, Pt.op]

theorem J_enter {pts : Tid → Pt} {mem : Nat → Cell} {log : Log} (j : J pts mem log) {t : Tid} (ht : pts t = .idle) {op : Op} (ha : Allowed log t op) :
    J (upd pts t (start op)) mem (log ++ [.enter t op]) := by
  have free := fun h => j.unowned (h := h)
  obtain ⟨call, own, lv, lvc, hl, good, disj, pfree, all, nz, same⟩ := j
  have ho : ∀ h, ¬ (pts t).owns h := by rw [ht]; intro h k; exact k
  have hp : (pts t).pend = none := by rw [ht]; rfl
  have hw : (pts t).waits = none := by rw [ht]; rfl
  constructor
  · intro u; have := call u
    simp only [inCall_snoc, inCallStep, upd]
    by_cases e : u = t
    · subst e; simp [start_op]
    · rw [if_neg e, if_neg (fun k => e k.symm)]; exact this
  · intro u h; have o1 := own u h
    simp only [held_snoc, upd]
    by_cases e : u = t
    · subst e; rw [if_pos rfl, o1]
      have := ho h
      cases op <;> simp only [start, heldStep, Allowed] at * <;> (repeat' split) <;> simp only [Pt.owns] <;> grind
    · rw [if_neg e, o1]
      have e' : t ≠ u := fun k => e k.symm
      cases op <;> simp [heldStep, e']
  · intro h; have := lv h; simp only [live_snoc]; cases op <;> simp only [liveStep] at * <;> grind
  · intro h; have := lvc h; simp only [liveC_snoc]; cases op <;> simp only [liveCStep] at * <;> grind
  · intro u h; have := hl u h; simp only [live_snoc, held_snoc]; cases op <;> simp only [liveStep, heldStep, Allowed] at * <;> grind
  · intro u
    simp only [upd]
    by_cases e : u = t
    · subst e; rw [if_pos rfl]
      cases op <;> simp only [start, Allowed] at * <;> (repeat' split) <;> simp only [Good, live_snoc, liveC_snoc, held_snoc, liveStep, liveCStep, heldStep] <;> grind
    · rw [if_neg e]
      have e' : t ≠ u := fun k => e k.symm
      have c1 := call u
      refine Good_frame (good u) (fun _ _ => rfl) ?_ ?_ ?_
      · intro p op' h1 h2 h3; simp only [live_snoc]; cases op <;> simp only [liveStep, Allowed] at * <;> grind
      · intro p op' h1 h2 h3; simp only [liveC_snoc]; cases op <;> simp only [liveCStep, Allowed] at * <;> grind
      · intro p h; simp only [held_snoc]; cases op <;> simp [heldStep, e', h]
  · intro u v p; have := disj u v p
    simp only [upd]
    by_cases e1 : u = t <;> by_cases e2 : v = t
    · intro _ _; rw [e1, e2]
    · rw [if_pos e1, if_neg e2, start_pend]
      have := pfree v p
      cases op <;> simp only [Allowed] at * <;> grind
    · rw [if_neg e1, if_pos e2, start_pend]
      have := pfree u p
      cases op <;> simp only [Allowed] at * <;> grind
    · rw [if_neg e1, if_neg e2]; exact this
  · intro u p; have := pfree u p
    have l1 := lv p
    have l2 := lvc p
    simp only [upd, live_snoc, liveC_snoc]
    by_cases e : u = t
    · rw [if_pos e, start_pend]
      cases op <;> simp only [Allowed, liveStep, liveCStep] at * <;> grind
    · rw [if_neg e]
      cases op <;> simp only [Allowed, liveStep, liveCStep] at * <;> grind
  · intro p hp
    have l1 := lv p
    have l2 := lvc p
    rcases all p hp with h | h | ⟨u, h⟩
    · by_cases k : op = .lockDeinit p
      · subst k; exact Or.inr (Or.inr ⟨t, by simp [upd, start_pend, (l1 h).1]⟩)
      · left; simp only [live_snoc]; cases op <;> simp only [liveStep] at * <;> grind
    · by_cases k : op = .condDeinit p
      · subst k; exact Or.inr (Or.inr ⟨t, by simp [upd, start_pend, (l2 h).1]⟩)
      · right; left; simp only [liveC_snoc]; cases op <;> simp only [liveCStep] at * <;> grind
    · have e : u ≠ t := fun e => by rw [e, ht] at h; cases h
      exact Or.inr (Or.inr ⟨u, by simp only [upd, if_neg e]; exact h⟩)
  · intro u p
    simp only [upd]
    by_cases e : u = t
    · rw [if_pos e, start_pend]
      cases op <;> simp only <;> grind
    · rw [if_neg e]; exact nz u p
  · intro u v c h h'
    simp only [upd]
    by_cases e1 : u = t <;> by_cases e2 : v = t
    · rw [if_pos e1, if_pos e2]; intro a b; rw [a] at b; grind
    · rw [if_pos e1, if_neg e2, start_waits]
      intro a b
      obtain ⟨ms, k⟩ := waits_op b
      have := call v
      cases op <;> simp only [Allowed] at * <;> grind
    · rw [if_neg e1, if_pos e2, start_waits]
      intro a b
      obtain ⟨ms, k⟩ := waits_op a
      have := call u
      cases op <;> simp only [Allowed] at * <;> grind
    · rw [if_neg e1, if_neg e2]; exact same u v c h h'

end Verif.Sync
