import Verif.Wh.History
import Verif.Ti.Ledger
/-! # C104–C107: what every history of calls of `httpapi.h` does on WinHTTP -/
set_option linter.unusedSimpArgs false
set_option linter.unusedVariables false
namespace Verif.Wh
open Verif.Headers (Hdrs isLWS stored StoreE okName)
open Verif.Buffer (Content)
open Verif.Curl (Args)
open Verif.Sas (text)
variable {rel : Prop} {W : Codec} {ops : List Op} {outs : List (Option Out)} {as : List (Option Obj)} {log : Log}

/-! ## Definitions used in the statements -/

/-- the connection at position `i` according to the record: obtained by `HTTPAPI_CreateConnection`, with the timeout set last, until it is closed -/
def objStep (i : Nat) (a : Option Obj) (e : Entry) : Option Obj :=
  if e.pos = some i then
    match e.call with
    | .create _ c => c.obj
    | .close _ => none
    | .setOption _ (some v) .ok => a.map fun o => { o with timeout := v % 2 ^ 32 }
    | _ => a
  else a
def objAt (i : Nat) (log : Log) : Option Obj := log.foldl (objStep i) none

/-- how often the handle `h` was obtained from WinHTTP, and how often it was closed -/
def Ev.gives (h : Nat) : Ev → Bool
  | .session s => s = h
  | .connect _ _ _ c => c = h
  | .openRequest _ _ _ q => q = h
  | _ => false
def opened (h : Nat) (tr : List Ev) : Nat := tr.countP (Ev.gives h)
def closed (h : Nat) (tr : List Ev) : Nat := tr.count (.close h)

/-- the handle a call is made on; `none`: a call without a handle -/
def Ev.on : Ev → Option Nat
  | .session _ => none
  | .connect s _ _ _ => some s
  | .openRequest c _ _ _ => some c
  | .timeouts q _ _ _ _ _ | .security q _ _ | .send q _ _ _ | .receive q _ | .status q _ | .avail q _ | .read q _ | .rawSize q _ | .raw q _ => some q
  | .close h => some h

/-- connections of the table, and connections left open, that have the handle `h` -/
def holders (h : Nat) (as : List (Option Obj)) : Nat := as.countP fun a => a.any (·.con = h)
def leftWith (h : Nat) (l : List Obj) : Nat := l.countP (·.con = h)

/-! ## The record -/

/-- effect of a call on an existing connection; `n`: number of users -/
def Eff (rel : Prop) (W : Codec) (n : Nat) (a : Option Obj) (c : Called) (a' : Option Obj) (evs : List Ev) : Prop :=
  match c with
  | .close b => b = a ∧ a' = none ∧ CloseE n a evs
  | .setOption m v r => SetE m v a r a' ∧ evs = []
  | .request y r y' k => ExecE rel W n a y r y' evs k ∧ a' = a
  | _ => False

/-- effect of a call without a connection -/
def PlainE (rel : Prop) (n s : Nat) (c : Called) (evs : List Ev) : Prop :=
  match c with
  | .init r => ∃ n' s', InitE n s r n' s' evs
  | .deinit => ∃ n' s', DeinitE n s n' s' evs
  | .clone m v d r copy => CloneE (¬ rel) m v d r copy ∧ evs = []
  | _ => False

theorem step_cases {x x' : World} {op : Op} {o : Option Out} (h : step rel W x op o x') :
    x' = x ∨ (∃ c evs, PlainE rel (users x.2) (held x.2) c evs ∧ x' = (x.1, x.2 ++ [⟨none, c, evs⟩])) ∨
    (∃ host c evs, CreateE rel W (users x.2) (held x.2) host c evs ∧ x' = (x.1 ++ [c.obj], x.2 ++ [⟨some x.1.length, .create host c, evs⟩])) ∨
    ∃ i a c a' evs, x.1[i]? = some a ∧ Eff rel W (users x.2) a c a' evs ∧ x' = (x.1.set i a', x.2 ++ [⟨some i, c, evs⟩]) := by
  cases op with
  | init => obtain ⟨b, w, _, ⟨r, n', s', evs, hE, _, rfl⟩, rfl⟩ := h; exact .inr (.inl ⟨.init r, evs, ⟨n', s', hE⟩, rfl⟩)
  | deinit => obtain ⟨b, w, _, ⟨n', s', evs, hE, _, rfl⟩, rfl⟩ := h; exact .inr (.inl ⟨.deinit, evs, ⟨n', s', hE⟩, rfl⟩)
  | clone n v out => obtain ⟨b, w, _, ⟨b1, d, r, copy, _, _, hE, _, rfl⟩, rfl⟩ := h; exact .inr (.inl ⟨.clone n b1 d r copy, [], ⟨hE, rfl⟩, rfl⟩)
  | create host =>
    obtain ⟨r, a', w', ho, ⟨c, evs, h1, _, rfl, rfl⟩, rfl⟩ := h
    exact .inr (.inr (.inl ⟨host, c, evs, h1, rfl⟩))
  | close i =>
    rcases h with ⟨_, hn, h⟩ | ⟨a, r, a', w', h1, ho, ⟨h2, h3, evs, h4, rfl⟩, rfl⟩
    · exact .inl h
    · exact .inr (.inr (.inr ⟨i, a, .close a, a', evs, h1, ⟨rfl, h3, h4⟩, rfl⟩))
  | setOption i n v =>
    rcases h with ⟨_, hn, h⟩ | ⟨a, r, a', w', h1, ho, ⟨b, r', _, h2, _, rfl⟩, rfl⟩
    · exact .inl h
    · exact .inr (.inr (.inr ⟨i, a, .setOption n b r', a', [], h1, ⟨h2, rfl⟩, rfl⟩))
  | request i type path hdrs content status rhdrs rcontent =>
    rcases h with ⟨_, hn, h⟩ | ⟨a, r, a', w', h1, ho, ⟨y, r', y', evs, k, _, h4, h5, h6, rfl⟩, rfl⟩
    · exact .inl h
    · exact .inr (.inr (.inr ⟨i, a, .request y r' y' k, a', evs, h1, ⟨h4, h5⟩, rfl⟩))

/-- an invariant of all histories -/
theorem always {Inv : World → Prop} (h0 : Inv ([], []))
    (hp : ∀ x c evs, Inv x → PlainE rel (users x.2) (held x.2) c evs → Inv (x.1, x.2 ++ [⟨none, c, evs⟩]))
    (hn : ∀ x host c evs, Inv x → CreateE rel W (users x.2) (held x.2) host c evs → Inv (x.1 ++ [c.obj], x.2 ++ [⟨some x.1.length, .create host c, evs⟩]))
    (hs : ∀ x i a c a' evs, Inv x → x.1[i]? = some a → Eff rel W (users x.2) a c a' evs → Inv (x.1.set i a', x.2 ++ [⟨some i, c, evs⟩]))
    (h : Runs (step rel W) ([], []) ops outs (as, log)) : Inv (as, log) := by
  have gen : ∀ (x : World) ops outs x', Runs (step rel W) x ops outs x' → Inv x → Inv x' := by
    intro x ops outs x' hr
    induction hr with
    | nil => exact id
    | cons h1 _ ih =>
      intro hx
      apply ih
      rcases step_cases h1 with rfl | ⟨c, evs, hc, rfl⟩ | ⟨host, a', evs, hc, rfl⟩ | ⟨i, a, c, a', evs, hi, hE, rfl⟩
      · exact hx
      · exact hp _ c evs hx hc
      · exact hn _ host a' evs hx hc
      · exact hs _ i a c a' evs hx hi hE
  exact gen _ _ _ _ h h0

theorem objAt_snoc {i : Nat} {log : Log} {e : Entry} : objAt i (log ++ [e]) = objStep i (objAt i log) e := by simp [objAt]

theorem Eff.obj {n i : Nat} {a a' : Option Obj} {c : Called} {evs : List Ev} (h : Eff rel W n a c a' evs) : objStep i a ⟨some i, c, evs⟩ = a' := by
  unfold objStep
  rw [if_pos rfl]
  unfold Eff at h
  split at h
  · exact h.2.1.symm
  · rename_i m v r
    obtain ⟨hS, _⟩ := h
    unfold SetE at hS
    split at hS
    · split at hS
      · obtain ⟨rfl, rfl⟩ := hS; rfl
      · obtain ⟨rfl, rfl⟩ := hS; rfl
    · obtain ⟨rfl, rfl⟩ := hS
      cases v <;> rfl
  · exact h.2.symm
  · exact h.elim

/-- the connections of the client are those of the record -/
theorem objects (h : Runs (step rel W) ([], []) ops outs (as, log)) (i : Nat) : objAt i log = (as[i]?).join := by
  refine (always (rel := rel) (W := W) (Inv := fun w => (∀ i, objAt i w.2 = (w.1[i]?).join) ∧ ∀ e ∈ w.2, ∀ i, e.pos = some i → i < w.1.length) ?_ ?_ ?_ ?_ h).1 i
  · exact ⟨fun i => rfl, fun e he => by simp at he⟩
  · intro x c evs hx hc
    refine ⟨fun i => ?_, fun e he i hi => ?_⟩
    · rw [objAt_snoc, hx.1]; rfl
    · rcases List.mem_append.1 he with he | he
      · exact hx.2 e he i hi
      · simp at he; subst he; cases hi
  · intro x host c evs hx hc
    refine ⟨fun i => ?_, fun e he i hi => ?_⟩
    · rw [objAt_snoc, hx.1]
      unfold objStep
      dsimp only
      by_cases hi : x.1.length = i
      · subst hi; simp
      · rw [if_neg (by simpa using hi)]
        rcases Nat.lt_or_ge i x.1.length with h1 | h1
        · rw [List.getElem?_append_left h1]
        · rw [List.getElem?_append_right h1, List.getElem?_eq_none h1, List.getElem?_eq_none (by simp; omega)]
    · simp only [List.length_append, List.length_singleton]
      rcases List.mem_append.1 he with he | he
      · have := hx.2 e he i hi; omega
      · simp at he; subst he; simp at hi; omega
  · intro x j a c a' evs hx hj hE
    have hlt : j < x.1.length := (List.getElem?_eq_some_iff.1 hj).1
    refine ⟨fun i => ?_, fun e he i hi => ?_⟩
    · rw [objAt_snoc, hx.1]
      by_cases hi : j = i
      · subst hi
        dsimp only
        rw [hj, Option.join_some, hE.obj, List.getElem?_set_self hlt, Option.join_some]
      · unfold objStep
        rw [if_neg (by simpa using hi), List.getElem?_set_ne hi]
    · rw [List.length_set]
      rcases List.mem_append.1 he with he | he
      · exact hx.2 e he i hi
      · simp at he; subst he; simp at hi; omega

/-- every call of the record did what the specification says in the situation described by the record before it -/
theorem calls (h : Runs (step rel W) ([], []) ops outs (as, log)) {pre post : Log} {e : Entry} (he : log = pre ++ e :: post) :
    (e.pos = none ∧ PlainE rel (users pre) (held pre) e.call e.evs) ∨
    (∃ i host c, e.pos = some i ∧ e.call = .create host c ∧ CreateE rel W (users pre) (held pre) host c e.evs) ∨
    ∃ i a', e.pos = some i ∧ Eff rel W (users pre) (objAt i pre) e.call a' e.evs := by
  have gen : ∀ (ops : List Op) (outs : List (Option Out)) (x x' : World), Runs (step rel W) x ops outs x' →
      (∃ ops0 outs0, Runs (step rel W) ([], []) ops0 outs0 x) →
      (∀ pre e post, x.2 = pre ++ e :: post → (e.pos = none ∧ PlainE rel (users pre) (held pre) e.call e.evs) ∨
        (∃ i host c, e.pos = some i ∧ e.call = .create host c ∧ CreateE rel W (users pre) (held pre) host c e.evs) ∨
        ∃ i a', e.pos = some i ∧ Eff rel W (users pre) (objAt i pre) e.call a' e.evs) →
      (∀ pre e post, x'.2 = pre ++ e :: post → (e.pos = none ∧ PlainE rel (users pre) (held pre) e.call e.evs) ∨
        (∃ i host c, e.pos = some i ∧ e.call = .create host c ∧ CreateE rel W (users pre) (held pre) host c e.evs) ∨
        ∃ i a', e.pos = some i ∧ Eff rel W (users pre) (objAt i pre) e.call a' e.evs) := by
    intro ops outs x x' hr
    induction hr with
    | nil => intro _ h; exact h
    | @cons x op o x1 ops os x2 h1 _ ih =>
      rintro ⟨ops0, outs0, h0⟩ hx
      have snoc : ∀ {x y z : World} {l : List Op} {os : List (Option Out)} {op : Op} {o : Option Out}, Runs (step rel W) x l os y → step rel W y op o z →
          Runs (step rel W) x (l ++ [op]) (os ++ [o]) z := by
        intro x y z l os op o hr hs
        induction hr with
        | nil => exact .cons hs (.nil _)
        | cons h _ ih => exact .cons h (ih hs)
      refine ih ⟨_, _, snoc h0 h1⟩ ?_
      have split : ∀ {l : Log} {e0 : Entry} {pre : Log} {e : Entry} {post : Log}, l ++ [e0] = pre ++ e :: post →
          (∃ post', l = pre ++ e :: post') ∨ (l = pre ∧ e0 = e) := by
        intro l e0 pre e post hl
        rcases List.eq_nil_or_concat post with rfl | ⟨p, q, rfl⟩
        · obtain ⟨h1, h2⟩ := List.append_inj' hl rfl
          exact .inr ⟨h1, by simpa using h2⟩
        · rw [List.concat_eq_append, ← List.cons_append, ← List.append_assoc] at hl
          obtain ⟨h1, h2⟩ := List.append_inj' hl rfl
          exact .inl ⟨p, h1⟩
      rcases step_cases h1 with rfl | ⟨c, evs, hc, rfl⟩ | ⟨host, c, evs, hc, rfl⟩ | ⟨i, a, c, a', evs, hi, hE, rfl⟩
      · exact hx
      · intro pre e post hl
        rcases split hl with ⟨p, hp⟩ | ⟨rfl, rfl⟩
        · exact hx pre e p hp
        · exact .inl ⟨rfl, hc⟩
      · intro pre e post hl
        rcases split hl with ⟨p, hp⟩ | ⟨rfl, rfl⟩
        · exact hx pre e p hp
        · exact .inr (.inl ⟨_, host, c, rfl, rfl, hc⟩)
      · intro pre e post hl
        rcases split hl with ⟨p, hp⟩ | ⟨rfl, rfl⟩
        · exact hx pre e p hp
        · refine .inr (.inr ⟨i, a', rfl, ?_⟩)
          have := objects h0 i
          rw [hi, Option.join_some] at this
          rw [this]; exact hE
  exact gen ops outs ([], []) (as, log) h ⟨[], [], .nil _⟩ (by intro pre e post h; simp at h) pre e post he

/-- every request of the record -/
theorem requests (h : Runs (step rel W) ([], []) ops outs (as, log)) {pre post : Log} {p : Option Nat} {x x' : Args} {r : Res} {k : Nat} {evs : List Ev}
    (he : log = pre ++ ⟨p, .request x r x' k, evs⟩ :: post) : ∃ i, p = some i ∧ ExecE rel W (users pre) (objAt i pre) x r x' evs k := by
  rcases calls h he with ⟨_, h⟩ | ⟨_, _, _, _, h, _⟩ | ⟨i, a', h1, h2⟩
  · exact h.elim
  · cases h
  · exact ⟨i, h1, h2.1⟩

/-- the arguments of every request of the record were made from those of an operation of the client -/
theorem requests_made (h : Runs (step rel W) ([], []) ops outs (as, log)) {p : Option Nat} {x x' : Args} {r : Res} {k : Nat} {evs : List Ev}
    (he : (⟨p, .request x r x' k, evs⟩ : Entry) ∈ log) : ∃ i type path hdrs content status rhdrs rcontent, p = some i ∧
      Op.request i type path hdrs content status rhdrs rcontent ∈ ops ∧ Made rel type path hdrs content status rhdrs rcontent x := by
  have gen : ∀ (w : World) ops outs w', Runs (step rel W) w ops outs w' → (⟨p, .request x r x' k, evs⟩ : Entry) ∈ w'.2 → (⟨p, .request x r x' k, evs⟩ : Entry) ∈ w.2 ∨
      ∃ i type path hdrs content status rhdrs rcontent, p = some i ∧
      Op.request i type path hdrs content status rhdrs rcontent ∈ ops ∧ Made rel type path hdrs content status rhdrs rcontent x := by
    intro w ops outs w' hr
    induction hr with
    | nil => exact .inl
    | @cons _ op _ _ _ _ _ h1 _ ih =>
      intro hm
      rcases ih hm with hm | ⟨i, t, q, hd, ct, st, rh, rc, h2, h3, h4⟩
      · clear ih
        have plain : ∀ {w2 : Log} {e : Entry}, (⟨p, .request x r x' k, evs⟩ : Entry) ∈ w2 ++ [e] → (∀ a b c d, e.call ≠ .request a b c d) → (⟨p, .request x r x' k, evs⟩ : Entry) ∈ w2 := by
          intro w2 e hm hne
          rcases List.mem_append.1 hm with hm | hm
          · exact hm
          · simp at hm; subst hm; exact absurd rfl (hne _ _ _ _)
        cases op with
        | init => obtain ⟨b, w2, _, ⟨_, _, _, _, _, _, rfl⟩, rfl⟩ := h1; exact .inl (plain hm (by simp))
        | deinit => obtain ⟨b, w2, _, ⟨_, _, _, _, _, rfl⟩, rfl⟩ := h1; exact .inl (plain hm (by simp))
        | clone n v out => obtain ⟨b, w2, _, ⟨_, _, _, _, _, _, _, _, rfl⟩, rfl⟩ := h1; exact .inl (plain hm (by simp))
        | create host => obtain ⟨b, a', w2, _, ⟨_, _, _, _, _, rfl⟩, rfl⟩ := h1; exact .inl (plain hm (by simp))
        | close i =>
          rcases h1 with ⟨_, _, rfl⟩ | ⟨a, r, a', w2, _, _, ⟨_, _, evs, _, rfl⟩, rfl⟩
          · exact .inl hm
          · exact .inl (plain hm (by simp))
        | setOption i n v =>
          rcases h1 with ⟨_, _, rfl⟩ | ⟨a, r, a', w2, _, _, ⟨_, _, _, _, _, rfl⟩, rfl⟩
          · exact .inl hm
          · exact .inl (plain hm (by simp))
        | request i t q hd ct st rh rc =>
          rcases h1 with ⟨_, _, rfl⟩ | ⟨a, r2, a', w2, _, _, ⟨y, r1, y', evs1, k1, hM, _, _, _, rfl⟩, rfl⟩
          · exact .inl hm
          · rcases List.mem_append.1 hm with hm | hm
            · exact .inl hm
            · simp at hm
              obtain ⟨rfl, ⟨rfl, rfl, rfl, rfl⟩, rfl⟩ := hm
              exact .inr ⟨i, t, q, hd, ct, st, rh, rc, rfl, by simp, hM⟩
      · exact .inr ⟨i, t, q, hd, ct, st, rh, rc, h2, by simp [h3], h4⟩
  rcases gen _ _ _ _ h he with h | h
  · simp at h
  · exact h

/-! ## Handles -/

/-- a call on the request `q` that neither gives nor closes a handle -/
def Ev.inside (q : Nat) : Ev → Prop
  | .timeouts q' _ _ _ _ _ | .security q' _ _ | .send q' _ _ _ | .receive q' _ | .status q' _ | .avail q' _ | .read q' _ | .rawSize q' _ | .raw q' _ => q' = q
  | _ => False

theorem BodyE.inside {q : Nat} {c c' : Content} {r : Res} {evs : List Ev} (h : BodyE rel q c r c' evs) : ∀ e ∈ evs, e.inside q := by
  induction h with
  | failed => simp [Ev.inside]
  | last => simp [Ev.inside]
  | full => simp [Ev.inside]
  | broken => simp [Ev.inside]
  | nothing => simp [Ev.inside]
  | piece _ _ _ ih => intro e he; simp at he; rcases he with rfl | rfl | he
                      · rfl
                      · rfl
                      · exact ih e he

theorem HeadersE.inside {q : Nat} {hs hs' : Hdrs} {r : Res} {evs : List Ev} {k : Nat} (h : HeadersE rel W q hs r hs' evs k) : ∀ e ∈ evs, e.inside q := by
  obtain ⟨len, ⟨_, _, _, rfl, _⟩ | ⟨_, _, rfl, _⟩ | ⟨w, rfl, _⟩⟩ := h <;> simp [Ev.inside]

theorem ReceiveE.inside {q : Nat} {x x' : Args} {r : Res} {evs : List Ev} {k : Nat} (h : ReceiveE rel W q x r x' evs k) : ∀ e ∈ evs, e.inside q := by
  rcases h with ⟨_, _, rfl, _⟩ | ⟨_, _, rfl, _⟩ | ⟨code, evs1, h, rfl⟩
  · simp [Ev.inside]
  · simp [Ev.inside]
  · have : ∀ e ∈ evs1, e.inside q := by
      rcases h with ⟨_, _, _, _, rfl, _⟩ | ⟨r1, c', evs2, hB, ⟨_, _, _, rfl, _⟩ | ⟨_, hs, hs', evs3, _, hH, _, rfl⟩⟩
      · simp
      · exact hB.inside
      · intro e he
        rcases List.mem_append.1 he with he | he
        · exact hB.inside e he
        · exact hH.inside e he
    intro e he
    simp at he
    rcases he with rfl | rfl | he
    · rfl
    · rfl
    · exact this e he

theorem OnE.inside {q t : Nat} {wh : Wide} {x x' : Args} {r : Res} {evs : List Ev} {k : Nat} (h : OnE rel W q t wh x r x' evs k) : ∀ e ∈ evs, e.inside q := by
  rcases h with ⟨_, _, rfl, _⟩ | ⟨_, _, rfl, _⟩ | ⟨_, _, rfl, _⟩ | ⟨evs1, h, rfl⟩
  · simp [Ev.inside]
  · simp [Ev.inside]
  · simp [Ev.inside]
  · intro e he
    simp at he
    rcases he with rfl | rfl | rfl | he
    · rfl
    · rfl
    · rfl
    · exact h.inside e he

/-- The calls of a request: none, an attempt to open one, or one that is opened, used, and closed at the end. -/
theorem ExecE.shape {n : Nat} {a : Option Obj} {x x' : Args} {r : Res} {evs : List Ev} {k : Nat} (h : ExecE rel W n a x r x' evs k) :
    evs = [] ∨ (n ≠ 0 ∧ ∃ o, a = some o ∧ ∃ verb path, evs = [.openRequest o.con verb path 0] ∨
      ∃ q mid, q ≠ 0 ∧ (∀ e ∈ mid, e.inside q) ∧ evs = .openRequest o.con verb path q :: (mid ++ [.close q])) := by
  unfold ExecE at h
  split at h
  · exact .inl h.2.2.1
  · rename_i hn
    split at h
    · rename_i o path hs _ _
      split at h
      · exact .inl h.2.2.1
      · rcases h with ⟨_, _, _, h, _⟩ | ⟨_, _, _, h, _⟩ | ⟨wp, wh, _, _, ⟨_, _, h, _⟩ | ⟨q, evs1, hq, hO, h⟩⟩
        · exact .inl h
        · exact .inl h
        · exact .inr ⟨hn, o, rfl, _, wp, .inl h⟩
        · exact .inr ⟨hn, o, rfl, _, wp, .inr ⟨q, evs1, hq, hO.inside, h⟩⟩
    · exact .inl h.2.2.1

theorem opened_append {h : Nat} {l1 l2 : List Ev} : opened h (l1 ++ l2) = opened h l1 + opened h l2 := List.countP_append
theorem closed_append {h : Nat} {l1 l2 : List Ev} : closed h (l1 ++ l2) = closed h l1 + closed h l2 := List.count_append
theorem opened_cons {h : Nat} {e : Ev} {l : List Ev} : opened h (e :: l) = opened h l + if Ev.gives h e then 1 else 0 := List.countP_cons
theorem closed_cons {h : Nat} {e : Ev} {l : List Ev} : closed h (e :: l) = closed h l + if e = .close h then 1 else 0 := by
  unfold closed; rw [List.count_cons]; simp

theorem inside_opened {q h : Nat} : ∀ {evs : List Ev}, (∀ e ∈ evs, e.inside q) → opened h evs = 0 ∧ closed h evs = 0
  | [], _ => ⟨rfl, rfl⟩
  | e :: l, hi => by
    obtain ⟨h1, h2⟩ := inside_opened (h := h) (evs := l) fun e he => hi e (by simp [he])
    have := hi e (by simp)
    rw [opened_cons, closed_cons, h1, h2]
    cases e <;> simp [Ev.inside, Ev.gives] at this ⊢

theorem ExecE.balance {h n : Nat} (hh : h ≠ 0) {a : Option Obj} {x x' : Args} {r : Res} {evs : List Ev} {k : Nat} (hE : ExecE rel W n a x r x' evs k) :
    opened h evs = closed h evs := by
  rcases hE.shape with rfl | ⟨_, o, _, verb, path, rfl | ⟨q, mid, hq, hm, rfl⟩⟩
  · rfl
  · simp [opened, closed, Ev.gives, hh.symm]
  · rw [opened_cons, closed_cons, opened_append, closed_append, (inside_opened hm).1, (inside_opened hm).2]
    by_cases hqh : q = h <;> simp [opened, closed, Ev.gives, hqh]

theorem count_set {h : Nat} {as : List (Option Obj)} {i : Nat} {a a' : Option Obj} (hi : as[i]? = some a) :
    holders h (as.set i a') + (if a.any (·.con = h) then 1 else 0) = holders h as + if a'.any (·.con = h) then 1 else 0 := by
  unfold holders
  induction as generalizing i with
  | nil => simp at hi
  | cons b bs ih =>
    cases i with
    | zero =>
      simp at hi; subst hi
      simp only [List.set_cons_zero, List.countP_cons]
      omega
    | succ i =>
      simp only [List.getElem?_cons_succ] at hi
      have := ih hi
      simp only [List.set_cons_succ, List.countP_cons]
      omega

theorem SetE.con {m : Option Text} {v : Option Nat} {a a' : Option Obj} {r : Res} (h : SetE m v a r a') (p : Nat → Bool) : a'.any (fun o => p o.con) = a.any fun o => p o.con := by
  unfold SetE at h
  split at h
  · split at h
    · rw [h.2]; rfl
    · rw [h.2]
  · rw [h.2]

theorem PlainE.users {n t : Nat} {c : Called} {evs : List Ev} (hx : n = 0 ↔ t = 0) (hc : PlainE rel n t c evs) :
    usersStep n ⟨none, c, evs⟩ = 0 ↔ (heldStep (n, t) ⟨none, c, evs⟩).2 = 0 := by
  unfold PlainE at hc
  split at hc
  · obtain ⟨n', s', hc⟩ := hc
    unfold InitE at hc
    split at hc
    · rename_i h0
      rcases hc with ⟨rfl, rfl, rfl, rfl⟩ | ⟨hs, rfl, rfl, rfl⟩
      · simp [usersStep, heldStep, h0]
      · simp [usersStep, heldStep, h0, hs]
    · rename_i h0
      obtain ⟨rfl, rfl, rfl, rfl⟩ := hc
      simp only [usersStep, heldStep, if_true]
      have := mt hx.2 h0
      constructor
      · intro h; omega
      · intro h; exact absurd h this
  · obtain ⟨n', s', h1, h2⟩ := hc
    simp only [usersStep, heldStep]
    split
    · rename_i h; rw [h]
    · rename_i h; rw [← hx]; omega
  · exact hx
  · exact hc.elim

theorem Eff.users {n : Nat} {a a' : Option Obj} {i : Nat} {c : Called} {evs : List Ev} (hE : Eff rel W n a c a' evs) :
    (∀ m, usersStep m ⟨some i, c, evs⟩ = m) ∧ ∀ y, (heldStep y ⟨some i, c, evs⟩).2 = y.2 := by
  unfold Eff at hE
  split at hE
  · exact ⟨fun _ => rfl, fun _ => rfl⟩
  · exact ⟨fun _ => rfl, fun _ => rfl⟩
  · exact ⟨fun _ => rfl, fun _ => rfl⟩
  · exact hE.elim

/-- C106: there is a session if and only if there are users -/
theorem users_held (h : Runs (step rel W) ([], []) ops outs (as, log)) : users log = 0 ↔ held log = 0 := by
  refine always (rel := rel) (W := W) (Inv := fun w => users w.2 = 0 ↔ held w.2 = 0) ?_ ?_ ?_ ?_ h
  · exact Iff.rfl
  · intro x c evs hx hc
    dsimp only
    rw [users_snoc, held_snoc]
    exact hc.users hx
  · intro x host c evs hx hc
    dsimp only
    rw [users_snoc, held_snoc]
    exact hx
  · intro x i a c a' evs hx hi hE
    dsimp only
    rw [users_snoc, held_snoc, hE.users.1, hE.users.2]
    exact hx

theorem holders_snoc {h : Nat} {as : List (Option Obj)} {a : Option Obj} : holders h (as ++ [a]) = holders h as + if a.any (·.con = h) then 1 else 0 := by
  unfold holders; rw [List.countP_append, List.countP_singleton]

/-- C106: whatever the history, a handle obtained from WinHTTP has been closed, or it is the session of the users, belongs to a connection
of the client, or to one that was closed while there were no users. -/
theorem handles_balance (hr : Runs (step rel W) ([], []) ops outs (as, log)) {h : Nat} (hh : h ≠ 0) :
    opened h (trace log) = closed h (trace log) + (if held log = h then 1 else 0) + holders h as + leftWith h (left log) := by
  refine (always (rel := rel) (W := W) (Inv := fun w => (users w.2 = 0 ↔ held w.2 = 0) ∧
    opened h (trace w.2) = closed h (trace w.2) + (if held w.2 = h then 1 else 0) + holders h w.1 + leftWith h (left w.2)) ?_ ?_ ?_ ?_ hr).2
  · refine ⟨Iff.rfl, ?_⟩
    show 0 = 0 + (if 0 = h then 1 else 0) + 0 + 0
    rw [if_neg hh.symm]
  · intro x c evs ⟨hu, hx⟩ hc
    replace hx : opened h (trace x.2) = closed h (trace x.2) + (if held x.2 = h then 1 else 0) + holders h x.1 + leftWith h (left x.2) := hx
    refine ⟨by dsimp only; rw [users_snoc, held_snoc]; exact hc.users hu, ?_⟩
    dsimp only
    rw [trace_snoc, opened_append, closed_append, held_snoc, left_snoc]
    have e3 : (leftStep (users x.2, left x.2) ⟨none, c, evs⟩).2 = left x.2 := by
      unfold PlainE at hc
      split at hc
      · rfl
      · rfl
      · rfl
      · exact hc.elim
    rw [e3]
    dsimp only
    suffices hk : opened h evs + (if held x.2 = h then 1 else 0) = closed h evs + if (heldStep (users x.2, held x.2) ⟨none, c, evs⟩).2 = h then 1 else 0 by omega
    unfold PlainE at hc
    split at hc
    · obtain ⟨n', s', hc⟩ := hc
      unfold InitE at hc
      split at hc
      · rename_i h0
        have h1 := hu.1 h0
        rcases hc with ⟨rfl, rfl, rfl, rfl⟩ | ⟨hs, rfl, rfl, rfl⟩
        · simp [opened, closed, Ev.gives, heldStep, h1, hh.symm]
        · simp [opened, closed, Ev.gives, heldStep, h1, hh.symm]
          by_cases h2 : s' = h <;> simp [h2]
      · obtain ⟨rfl, rfl, rfl, rfl⟩ := hc
        rfl
    · obtain ⟨n', s', h1, h2⟩ := hc
      simp only [heldStep]
      split at h2
      · rename_i h3
        rw [h3, h2.2]
        by_cases h4 : held x.2 = h <;> simp [opened, closed, Ev.gives, h4, hh.symm]
      · rename_i h3
        rw [if_neg h3, h2.2]; rfl
    · rw [hc.2]; rfl
    · exact hc.elim
  · intro x host c evs ⟨hu, hx⟩ hc
    replace hx : opened h (trace x.2) = closed h (trace x.2) + (if held x.2 = h then 1 else 0) + holders h x.1 + leftWith h (left x.2) := hx
    refine ⟨by dsimp only; rw [users_snoc, held_snoc]; exact hu, ?_⟩
    dsimp only
    rw [trace_snoc, opened_append, closed_append, held_snoc, left_snoc, holders_snoc]
    have e2 : (heldStep (users x.2, held x.2) ⟨some x.1.length, .create host c, evs⟩).2 = held x.2 := rfl
    have e3 : (leftStep (users x.2, left x.2) ⟨some x.1.length, .create host c, evs⟩).2 = left x.2 := rfl
    rw [e2, e3]
    dsimp only
    suffices hk : opened h evs = closed h evs + if c.obj.any (·.con = h) then 1 else 0 by omega
    unfold CreateE at hc
    split at hc
    · obtain ⟨rfl, rfl⟩ := hc; rfl
    · rcases hc with ⟨rfl, _, rfl⟩ | ⟨rfl, _, rfl⟩ | ⟨w, d, _, rfl, rfl⟩
      · rfl
      · rfl
      · by_cases hd : d = 0
        · simp [opened, closed, Ev.gives, hd, hh.symm, Conn.obj]
        · by_cases hdh : d = h <;> simp [opened, closed, Ev.gives, hd, Conn.obj, hdh, hh]
  · intro x i a c a' evs ⟨hu, hx⟩ hi hE
    replace hx : opened h (trace x.2) = closed h (trace x.2) + (if held x.2 = h then 1 else 0) + holders h x.1 + leftWith h (left x.2) := hx
    have hset := count_set (h := h) (a' := a') hi
    refine ⟨by dsimp only; rw [users_snoc, held_snoc, hE.users.1, hE.users.2]; exact hu, ?_⟩
    dsimp only
    rw [trace_snoc, opened_append, closed_append, held_snoc, left_snoc, hE.users.2]
    dsimp only
    unfold Eff at hE
    split at hE
    · rename_i b
      obtain ⟨hb, rfl, hE⟩ := hE
      subst hb
      unfold CloseE at hE
      subst hE
      cases b with
      | none =>
        simp only [Option.any_none, Bool.false_eq_true, if_false] at hset
        have e3 : (leftStep (users x.2, left x.2) ⟨some i, .close none, (if users x.2 = 0 then [] else [])⟩).2 = left x.2 := rfl
        rw [e3, ite_self]
        show _ + 0 = _ + 0 + _ + _ + _
        omega
      | some o =>
        simp only [Option.any_none, Option.any_some, decide_eq_true_eq, Bool.false_eq_true, if_false] at hset
        by_cases h0 : users x.2 = 0
        · simp only [leftStep, h0, if_true]
          have e4 : leftWith h (o :: left x.2) = leftWith h (left x.2) + if o.con = h then 1 else 0 := by simp [leftWith, List.countP_cons]
          rw [e4]
          show _ + 0 = _ + 0 + _ + _ + _
          omega
        · simp only [leftStep, h0, if_false]
          have e4 : closed h [.close o.con] = if o.con = h then 1 else 0 := by simp [closed, List.count_cons]
          rw [e4]
          show _ + 0 = _
          omega
    · obtain ⟨hS, rfl⟩ := hE
      have := hS.con (fun c => c = h)
      rw [this] at hset
      show _ + 0 = _ + 0 + _ + _ + leftWith h (left x.2)
      omega
    · obtain ⟨hE, rfl⟩ := hE
      have := hE.balance hh
      show _ = _ + _ + leftWith h (left x.2)
      omega
    · exact hE.elim

/-- appending calls to a record keeps every call on an open handle, if the new ones are -/
theorem uses_append {tr evs : List Ev}
    (h1 : ∀ pre e post h, tr = pre ++ e :: post → Ev.on e = some h → closed h pre < opened h pre)
    (h2 : ∀ pre e post h, evs = pre ++ e :: post → Ev.on e = some h → closed h (tr ++ pre) < opened h (tr ++ pre)) :
    ∀ pre e post h, tr ++ evs = pre ++ e :: post → Ev.on e = some h → closed h pre < opened h pre := by
  intro pre e post h he ho
  rcases List.append_eq_append_iff.1 he with ⟨l, rfl, h4⟩ | ⟨l, rfl, h4⟩
  · exact h2 l e post h h4 ho
  · cases l with
    | nil => simp at h4; exact (by simpa using h2 [] e post h h4.symm ho)
    | cons d l =>
      simp at h4
      obtain ⟨rfl, h4⟩ := h4
      exact h1 pre e l h rfl ho

/-- one call on a handle that is open -/
theorem uses_one {tr : List Ev} {d : Ev} (hd : ∀ h, Ev.on d = some h → closed h tr < opened h tr) :
    ∀ pre e post h, [d] = pre ++ e :: post → Ev.on e = some h → closed h (tr ++ pre) < opened h (tr ++ pre) := by
  intro pre e post h he ho
  cases pre with
  | nil => simp at he; rw [List.append_nil]; exact hd h (by rw [he.1]; exact ho)
  | cons b pre => simp at he

theorem uses_nil {tr : List Ev} : ∀ pre e post h, ([] : List Ev) = pre ++ e :: post → Ev.on e = some h → closed h (tr ++ pre) < opened h (tr ++ pre) := by
  intro pre e post h he; simp at he

theorem inside_on {q : Nat} {e : Ev} (h : e.inside q) : Ev.on e = some q := by cases e <;> simp_all [Ev.inside, Ev.on]

theorem ExecE.uses {n : Nat} {a : Option Obj} {x x' : Args} {r : Res} {evs : List Ev} {k : Nat} {tr : List Ev} (hE : ExecE rel W n a x r x' evs k)
    (ha : ∀ o, a = some o → closed o.con tr < opened o.con tr) (hq : ∀ q, q ≠ 0 → closed q tr ≤ opened q tr) :
    ∀ pre e post h, evs = pre ++ e :: post → Ev.on e = some h → closed h (tr ++ pre) < opened h (tr ++ pre) := by
  rcases hE.shape with rfl | ⟨_, o, hao, verb, path, rfl | ⟨q, mid, hq0, hm, rfl⟩⟩
  · exact uses_nil
  · exact uses_one fun h hh => by simp [Ev.on] at hh; subst hh; exact ha o hao
  · intro pre e post h he ho
    cases pre with
    | nil =>
      simp at he
      rw [List.append_nil]
      rw [← he.1] at ho
      simp [Ev.on] at ho; subst ho; exact ha o hao
    | cons b pre =>
      simp at he
      obtain ⟨rfl, he⟩ := he
      have hq1 := hq q hq0
      have key : ∀ l, (∀ e ∈ l, e.inside q) → closed q (tr ++ (.openRequest o.con verb path q :: l)) < opened q (tr ++ (.openRequest o.con verb path q :: l)) := by
        intro l hl
        rw [closed_append, opened_append, closed_cons, opened_cons, (inside_opened hl).1, (inside_opened hl).2]
        simp [Ev.gives]; omega
      have hon : ∀ e, (e ∈ mid ∨ e = .close q) → Ev.on e = some h → h = q := by
        intro e he ho
        rcases he with he | rfl
        · rw [inside_on (hm e he)] at ho; simpa using ho.symm
        · simpa [Ev.on] using ho.symm
      have hmem : e ∈ mid ∨ e = .close q := by
        have : e ∈ mid ++ [.close q] := by rw [he]; simp
        simpa using this
      have := hon e hmem ho
      subst this
      refine key pre fun d hd => hm d ?_
      rcases List.eq_nil_or_concat post with rfl | ⟨p, z, rfl⟩
      · obtain ⟨h1, _⟩ := List.append_inj' he rfl
        rw [h1]; exact hd
      · rw [List.concat_eq_append, ← List.cons_append, ← List.append_assoc] at he
        obtain ⟨h1, _⟩ := List.append_inj' he rfl
        rw [h1]; simp [hd]

theorem holders_pos {as : List (Option Obj)} {i : Nat} {o : Obj} (h : as[i]? = some (some o)) : 0 < holders o.con as := by
  unfold holders
  rw [List.countP_pos_iff]
  exact ⟨some o, List.mem_of_getElem? h, by simp⟩

/-- connections of the client have handles -/
theorem con_ne (h : Runs (step rel W) ([], []) ops outs (as, log)) {i : Nat} {o : Obj} (hi : as[i]? = some (some o)) : o.con ≠ 0 := by
  refine always (rel := rel) (W := W) (Inv := fun w => ∀ i o, w.1[i]? = some (some o) → o.con ≠ 0) ?_ ?_ ?_ ?_ h i o hi
  · intro i o h; simp at h
  · intro x c evs hx _; exact hx
  · intro x host c evs hx hc i o hi
    dsimp only at hi
    rcases Nat.lt_or_ge i x.1.length with h1 | h1
    · rw [List.getElem?_append_left h1] at hi; exact hx i o hi
    · rw [List.getElem?_append_right h1] at hi
      rcases hz : i - x.1.length with _ | m
      · rw [hz] at hi
        simp at hi
        unfold CreateE at hc
        split at hc
        · rw [hc.1] at hi; cases hi
        · rcases hc with ⟨rfl, _⟩ | ⟨rfl, _⟩ | ⟨w, d, _, _, rfl⟩
          · cases hi
          · cases hi
          · split at hi
            · cases hi
            · rename_i hd; cases hi; exact hd
      · rw [hz] at hi; simp at hi
  · intro x j a c a' evs hx hj hE i o hi
    dsimp only at hi
    by_cases hij : j = i
    · subst hij
      rw [List.getElem?_set_self (List.getElem?_eq_some_iff.1 hj).1] at hi
      have ha : a' = some o := by simpa using hi
      subst ha
      unfold Eff at hE
      split at hE
      · cases hE.2.1
      · obtain ⟨hS, _⟩ := hE
        unfold SetE at hS
        split at hS
        · split at hS
          · rename_i o1 _ _ _
            obtain ⟨_, hS⟩ := hS; cases hS; exact (show o1.con ≠ 0 from hx j o1 hj)
          · rw [← hS.2] at hj; exact hx j o hj
        · rw [← hS.2] at hj; exact hx j o hj
      · rw [← hE.2] at hj; exact hx j o hj
      · exact hE.elim
    · rw [List.getElem?_set_ne hij] at hi; exact hx i o hi

/-- C106: no call is made on a handle that is not open: every call of WinHTTP that takes a handle takes one that was obtained before, more often
than it was closed. -/
theorem uses_open (hr : Runs (step rel W) ([], []) ops outs (as, log)) {pre post : List Ev} {e : Ev} {h : Nat} (he : trace log = pre ++ e :: post) (ho : Ev.on e = some h) :
    closed h pre < opened h pre := by
  have gen : ∀ (ops : List Op) (outs : List (Option Out)) (x x' : World), Runs (step rel W) x ops outs x' →
      (∃ ops0 outs0, Runs (step rel W) ([], []) ops0 outs0 x) →
      (∀ pre e post h, trace x.2 = pre ++ e :: post → Ev.on e = some h → closed h pre < opened h pre) →
      ∀ pre e post h, trace x'.2 = pre ++ e :: post → Ev.on e = some h → closed h pre < opened h pre := by
    intro ops outs x x' hr
    induction hr with
    | nil => intro _ h; exact h
    | @cons x op o x1 ops os x2 h1 _ ih =>
      rintro ⟨ops0, outs0, h0⟩ hx
      have snoc : ∀ {x y z : World} {l : List Op} {os : List (Option Out)} {op : Op} {o : Option Out}, Runs (step rel W) x l os y → step rel W y op o z →
          Runs (step rel W) x (l ++ [op]) (os ++ [o]) z := by
        intro x y z l os op o hr hs
        induction hr with
        | nil => exact .cons hs (.nil _)
        | cons h _ ih => exact .cons h (ih hs)
      refine ih ⟨_, _, snoc h0 h1⟩ ?_
      have hb : ∀ h, h ≠ 0 → opened h (trace x.2) = closed h (trace x.2) + (if held x.2 = h then 1 else 0) + holders h x.1 + leftWith h (left x.2) :=
        fun h hh => handles_balance (as := x.1) (log := x.2) h0 hh
      have hu := users_held (as := x.1) (log := x.2) h0
      have hheld : users x.2 ≠ 0 → closed (held x.2) (trace x.2) < opened (held x.2) (trace x.2) := by
        intro h
        have := hb (held x.2) (mt hu.2 h)
        rw [if_pos rfl] at this; omega
      have hcon : ∀ (i : Nat) (o : Obj), x.1[i]? = some (some o) → closed o.con (trace x.2) < opened o.con (trace x.2) := by
        intro i o hi
        have h1 := hb o.con (con_ne (as := x.1) (log := x.2) h0 hi)
        have h2 := holders_pos hi
        omega
      rcases step_cases h1 with rfl | ⟨c, evs, hc, rfl⟩ | ⟨host, c, evs, hc, rfl⟩ | ⟨i, a, c, a', evs, hi, hE, rfl⟩
      · exact hx
      · dsimp only
        rw [trace_snoc]
        refine uses_append hx ?_
        dsimp only
        unfold PlainE at hc
        split at hc
        · obtain ⟨n', s', hc⟩ := hc
          unfold InitE at hc
          split at hc
          · rcases hc with ⟨_, _, _, rfl⟩ | ⟨_, _, _, rfl⟩
            · exact uses_one fun h hh => by simp [Ev.on] at hh
            · exact uses_one fun h hh => by simp [Ev.on] at hh
          · rw [hc.2.2.2]; exact uses_nil
        · obtain ⟨n', s', _, h2⟩ := hc
          split at h2
          · rename_i hn
            rw [h2.2]
            exact uses_one fun h hh => by simp [Ev.on] at hh; subst hh; exact hheld (by omega)
          · rw [h2.2]; exact uses_nil
        · rw [hc.2]; exact uses_nil
        · exact hc.elim
      · dsimp only
        rw [trace_snoc]
        refine uses_append hx ?_
        dsimp only
        unfold CreateE at hc
        split at hc
        · rw [hc.2]; exact uses_nil
        · rename_i hn
          rcases hc with ⟨_, _, rfl⟩ | ⟨_, _, rfl⟩ | ⟨w, d, _, rfl, _⟩
          · exact uses_nil
          · exact uses_nil
          · exact uses_one fun h hh => by simp [Ev.on] at hh; subst hh; exact hheld hn
      · dsimp only
        rw [trace_snoc]
        refine uses_append hx ?_
        dsimp only
        unfold Eff at hE
        split at hE
        · obtain ⟨_, _, hE⟩ := hE
          unfold CloseE at hE
          subst hE
          split
          · exact uses_nil
          · cases a with
            | none => exact uses_nil
            | some o => exact uses_one fun h hh => by simp [Ev.on] at hh; subst hh; exact hcon i o hi
        · rw [hE.2]; exact uses_nil
        · refine hE.1.uses (fun o ho => hcon i o (by rw [hi, ho])) fun q hq => ?_
          have := hb q hq
          omega
        · exact hE.elim
  exact gen ops outs ([], []) (as, log) hr ⟨[], [], .nil _⟩ (by intro pre e post h he; simp [trace] at he) pre e post h he ho

end Verif.Wh
