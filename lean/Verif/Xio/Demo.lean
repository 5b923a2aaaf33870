import Verif.Xio.Props
/-!
# C46: consequences and a concrete implementation

Spec-level consequences read off `step`, and an IO implementation that meets the contract, so that `forwards`
is not vacuous.
-/
namespace Verif.Xio

/-- destroyed objects never receive a call again, objects are destroyed at most once: seen from the ledger of
one `create`, the events of a history.  This is the number of objects currently alive in the client's table. -/
def live (as : List (Option Obj)) : Nat := (as.filter (·.isSome)).length

def created (tr : List Ev) : Nat := (tr.filter fun | .create _ _ _ h => h ≠ 0 | _ => false).length
def destroyed (tr : List Ev) : Nat := (tr.filter fun | .destroy _ _ => true | _ => false).length

theorem live_set {as : List (Option Obj)} {i : Nat} {a b : Option Obj} (h : as[i]? = some a) :
    live (as.set i b) + (if a.isSome then 1 else 0) = live as + (if b.isSome then 1 else 0) := by
  induction as generalizing i with
  | nil => simp at h
  | cons x as ih =>
    cases i with
    | zero => simp at h; subst h; cases x <;> cases b <;> simp [live]
    | succ i =>
      simp at h
      have := ih h
      cases x <;> simp [live] at this ⊢ <;> omega

theorem created_snoc (tr : List Ev) (e : Ev) :
    created (tr ++ [e]) = created tr + (match e with | .create _ _ _ h => if h ≠ 0 then 1 else 0 | _ => 0) := by
  cases e <;> simp [created, List.filter_cons]
  split <;> simp_all

theorem destroyed_snoc (tr : List Ev) (e : Ev) :
    destroyed (tr ++ [e]) = destroyed tr + (match e with | .destroy _ _ => 1 | _ => 0) := by
  cases e <;> simp [destroyed]

theorem call_ledger {ev : Obj → Int → Ev} {bad : Int → Prop} {ok : Int → Int → Prop} {a a' : Option Obj} {tr tr' : List Ev} {r : Int}
    (hev : ∀ o v, created [ev o v] = 0 ∧ destroyed [ev o v] = 0) (h : CallE ev bad ok a tr r a' tr') :
    a' = a ∧ created tr' = created tr ∧ destroyed tr' = destroyed tr := by
  cases a with
  | none => obtain ⟨_, rfl, rfl⟩ := h; exact ⟨rfl, rfl, rfl⟩
  | some o =>
    obtain ⟨v, _, rfl, rfl⟩ := h
    have := hev o v
    simp [created, destroyed] at this ⊢
    exact ⟨this.1, this.2⟩

/-- Objects created through xio are exactly those destroyed plus those still held. -/
theorem step_ledger {ro : Nat → Option Iface} {oom : Prop} {x x' : List (Option Obj) × List Ev} {op : Op} {o : Option Int}
    (h : step ro oom x op o x') (hb : created x.2 = destroyed x.2 + live x.1) :
    created x'.2 = destroyed x'.2 + live x'.1 := by
  have key : ∀ (i : Nat) (ev : Obj → Int → Ev) (bad : Int → Prop) (ok : Int → Int → Prop),
      (∀ o v, created [ev o v] = 0 ∧ destroyed [ev o v] = 0) → On1W x i (CallE ev bad ok) o x' →
      created x'.2 = destroyed x'.2 + live x'.1 := by
    intro i ev bad ok hev h
    rcases h with ⟨_, _, rfl⟩ | ⟨a, r, a', w', ha, _, hE, rfl⟩
    · exact hb
    · obtain ⟨rfl, h1, h2⟩ := call_ledger hev hE
      simp only [set_self ha]
      omega
  cases op with
  | create d prm lg =>
    obtain ⟨r, a', w', _, hE, rfl⟩ := h
    rcases hE with ⟨_, rfl, rfl, _⟩ | ⟨i, h, _, _, _, rfl, ⟨rfl, _, rfl⟩ | ⟨hh, _, rfl⟩⟩
    · simp [live] at *; omega
    · simp only [created_snoc, destroyed_snoc]; simp [live] at *; omega
    · simp only [created_snoc, destroyed_snoc]; simp [live, hh] at *; omega
  | destroy i =>
    rcases h with ⟨_, _, rfl⟩ | ⟨a, r, a', w', ha, _, ⟨rfl, rfl⟩, rfl⟩
    · exact hb
    · have := live_set (b := none) ha
      cases a with
      | none => simp at this ⊢; omega
      | some ob =>
        simp only [Option.map_some, Option.toList, created_snoc, destroyed_snoc] at this ⊢
        simp at this ⊢; omega
  | opn i a b c d e f => exact key _ _ _ _ (fun _ _ => ⟨rfl, rfl⟩) h
  | close i a b => exact key _ _ _ _ (fun _ _ => ⟨rfl, rfl⟩) h
  | send i a b c d => exact key _ _ _ _ (fun _ _ => ⟨rfl, rfl⟩) h
  | dowork i => exact key _ _ _ _ (fun _ _ => ⟨rfl, rfl⟩) h
  | setoption i a b =>
    rcases h with ⟨_, _, rfl⟩ | ⟨a, r, a', w', ha, _, hE, rfl⟩
    · exact hb
    · split at hE
      · obtain ⟨_, rfl, rfl⟩ := hE; simp only [set_self ha]; exact hb
      · obtain ⟨rfl, h1, h2⟩ := call_ledger (fun _ _ => ⟨rfl, rfl⟩) hE
        simp only [set_self ha]; omega

/-- Over every history: concrete objects created = concrete objects destroyed + handles still held. -/
theorem ledger {ro : Nat → Option Iface} {oom : Prop} {x x' : List (Option Obj) × List Ev} {ops : List Op} {os : List (Option Int)}
    (h : Runs (step ro oom) x ops os x') (hb : created x.2 = destroyed x.2 + live x.1) :
    created x'.2 = destroyed x'.2 + live x'.1 := by
  induction h with
  | nil => exact hb
  | cons h1 _ ih => exact ih (step_ledger h1 hb)

/-! ## An implementation -/

/-- The implementation keeps one block at address 1000 with the number of calls received; creation returns a fresh
number, every third call fails. -/
def tickOf : M Nat := do
  let n ← loadInt 1000 0
  store 1000 0 (.int (n + 1))
  pure n

def demoCode : Code where
  create _ prm _ := do let n ← tickOf; pure (if prm = 0 then 0 else n + 1)
  destroy _ _ := do let _ ← tickOf; pure ()
  opn _ _ _ _ _ _ _ _ := do let n ← tickOf; pure (if n % 3 = 2 then -7 else 0)
  close _ _ _ _ := do let n ← tickOf; pure (if n % 3 = 2 then -7 else 0)
  send _ _ _ _ _ _ := do let n ← tickOf; pure (if n % 3 = 2 then -7 else 0)
  dowork _ _ := do let _ ← tickOf; pure ()
  setoption _ _ _ _ := do let n ← tickOf; pure (if n % 3 = 2 then -7 else 0)

def demoNet (tr : List Ev) : HProp := 1000 ↦ [.int tr.length]

theorem tickOf_spec {rel : Prop} (tr : List Ev) : Triple rel (demoNet tr) tickOf (fun r => (r = tr.length) ⋏ 1000 ↦ [.int (tr.length + 1)]) := by
  unfold tickOf demoNet
  stepd (loadInt_spec (n := tr.length) ?_)
  stepd (store_spec ?_)
  exact Triple.pure (entails_pand_r (entails_refl _) rfl)

theorem demo_honours {rel : Prop} : Honours rel demoCode demoNet (fun _ _ => emp) := by
  have net : ∀ (tr : List Ev) (e : Ev), 1000 ↦ [.int (tr.length + 1)] ⊢ₕ demoNet (tr ++ [e]) := by
    intro tr e; unfold demoNet; rw [List.length_append]; exact entails_refl _
  constructor
  · intro i prm lg tr _
    unfold demoCode
    step (tickOf_spec tr)
    refine Triple.pure ?_
    rw [show (if (if prm = 0 then 0 else tr.length + 1) = 0 then emp else emp) = emp by split <;> rfl, sep_emp]
    exact net _ _
  all_goals
    intros
    rw [sep_emp]
    try simp only [sep_emp]
    unfold demoCode
    step (tickOf_spec _)
    exact Triple.pure (net _ _)

/-- descriptions: a complete one at 1, an incomplete one at 2 -/
def demoRo : Nat → Option Iface
  | 1 => some ⟨10, 11, 12, 13, 14, 15, 16⟩
  | 2 => some ⟨10, 11, 12, 13, 14, 0, 16⟩
  | _ => none

def demoOps : List Op :=
  [.create 1 5 0, .create 2 5 0, .create 1 0 0, .opn 0 1 2 3 4 5 6, .send 0 70 8 9 9, .setoption 0 0 1, .dowork 0, .send 1 1 1 1 1,
   .close 0 3 4, .destroy 0, .destroy 1, .close 0 1 1]

def demoSt : St := { heap := fun p => if p = 1000 then some [.int 0] else none, alloc := bump, tick := 0 }

/-- the history theorem applies to the demo -/
example : ∃ outs env as tr s', runOps (exec demoRo demoCode) demoOps [] demoSt = some (.ok ((outs, env), s')) ∧
      Runs (step demoRo True) ([], []) demoOps outs (as, tr) ∧ (Own (ORep (XioR demoRo fun _ _ => emp)) env as ∗ demoNet tr) s'.heap := by
  refine forwards_run demo_honours demoOps (by simp [demoOps, good, demoRo]) demoSt ⟨1001, ?_⟩ ?_
  · intro p hp
    have : p ≠ 1000 := by omega
    simp [demoSt, this]
  · refine ⟨by decide, by decide, ?_⟩
    funext p; simp [demoSt, Heap.single]

/-- and this is what the demo does -/
example : outcome (runOps (exec demoRo demoCode) demoOps []) demoSt = some (.ok
    ([some 1, some 0, some 0, some 90, some 0, some 174, some 0, some 139, some 119, some 0, some 0, some 109], [0, 0, 0])) := by
  decide +kernel

end Verif.Xio
