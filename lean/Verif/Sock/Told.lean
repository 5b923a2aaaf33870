import Verif.Sock.Ledger
/-! # C108, C109: errors, received bytes, and the rounds of `socketio_dowork` (socketio_berkeley.c) -/
set_option linter.unusedSimpArgs false
namespace Verif.Sock

theorem sendLoop_rounds {o o' : Obj} {fin : Bool} {k : Nat} {evs : List Ev} (h : SendLoop k o fin o' evs) :
    (fin = false → k ≤ o.pending.length + partly evs) ∧ o'.pending.length ≤ o.pending.length ∧ o'.onBytes = o.onBytes ∧ o'.onBytesCtx = o.onBytesCtx ∧
      o'.onErr = o.onErr ∧ o'.onErrCtx = o.onErrCtx ∧ recvd evs = [] ∧ deliveries evs = [] ∧
      (errors evs = if o.onErr = 0 then [] else List.replicate (failures evs) (o.onErr, o.onErrCtx)) ∧ (0 < failures evs → o'.state = .error) := by
  have hc : ∀ f c evs, partly (evCompleted f c ++ evs) = partly evs ∧ recvd (evCompleted f c ++ evs) = recvd evs ∧ deliveries (evCompleted f c ++ evs) = deliveries evs ∧
      errors (evCompleted f c ++ evs) = errors evs ∧ failures (evCompleted f c ++ evs) = failures evs := by
    intro f c evs; unfold evCompleted; split <;> exact ⟨rfl, rfl, rfl, rfl, rfl⟩
  have he : ∀ (o : Obj) evs, partly (evError o ++ evs) = partly evs ∧ recvd (evError o ++ evs) = recvd evs ∧ deliveries (evError o ++ evs) = deliveries evs ∧
      errors (evError o ++ evs) = (if o.onErr = 0 then [] else [(o.onErr, o.onErrCtx)]) ++ errors evs ∧ failures (evError o ++ evs) = failures evs := by
    intro o evs; unfold evError; split <;> exact ⟨rfl, rfl, rfl, rfl, rfl⟩
  induction h with
  | done h => simp [recvd, deliveries, errors, failures]
  | cut h => simp [recvd, deliveries, errors, failures]
  | @whole k o p ps fin o' evs hp _ ih =>
    obtain ⟨h1, h2, h3, h4, h5, h6, h7, h8, h9, h10⟩ := ih
    obtain ⟨a1, a2, a3, a4, a5⟩ := hc p.cb p.ctx evs
    have e1 : ∀ l (c : Int) (bs : List UInt8), partly (.send c bs bs.length :: l) = partly l := fun _ _ _ => by simp [partly, List.countP_cons]
    have e2 : ∀ l (c : Int) (bs : List UInt8), failures (.send c bs bs.length :: l) = failures l := fun _ _ _ => by simp [failures, List.countP_cons]
    refine ⟨fun hf => ?_, ?_, h3, h4, h5, h6, a2.trans h7, a3.trans h8, ?_, ?_⟩
    · have := h1 hf
      rw [List.cons_append, e1, a1, hp]
      simp only [List.length_cons]
      dsimp only at this
      omega
    · rw [hp]; simp only [List.length_cons]; dsimp only at h2; omega
    · rw [List.cons_append, e2, a5]; exact a4.trans h9
    · rw [List.cons_append, e2, a5]; exact h10
  | @fail k o p ps fin o' evs hp hl ih =>
    obtain ⟨h1, h2, h3, h4, h5, h6, h7, h8, h9, h10⟩ := ih
    obtain ⟨a1, a2, a3, a4, a5⟩ := he o evs
    have e1 : ∀ l (c : Int) (bs : List UInt8), partly (.send c bs (-1) :: l) = partly l := fun _ _ _ => by simp [partly, List.countP_cons]
    have e2 : ∀ l (c : Int) (bs : List UInt8), failures (.send c bs (-1) :: l) = failures l + 1 := fun _ _ _ => by simp [failures, List.countP_cons]
    refine ⟨fun hf => ?_, ?_, h3, h4, h5, h6, a2.trans h7, a3.trans h8, ?_, ?_⟩
    · have := h1 hf
      rw [List.cons_append, e1, a1, hp]
      simp only [List.length_cons]
      dsimp only at this
      omega
    · rw [hp]; simp only [List.length_cons]; dsimp only at h2; omega
    · rw [List.cons_append, e2, a5]
      refine a4.trans ?_
      rw [h9]
      dsimp only
      split <;> simp [List.replicate_succ]
    · exact fun _ => (sendLoop_state hl).elim (fun h => h) (fun h => h)
  | @part k o p ps fin o' evs n hp hn _ ih =>
    obtain ⟨h1, h2, h3, h4, h5, h6, h7, h8, h9, h10⟩ := ih
    have e2 : ∀ l, failures (.send o.socket p.bytes n :: l) = failures l := fun l => by simp [failures, List.countP_cons]
    refine ⟨fun hf => ?_, ?_, h3, h4, h5, h6, h7, h8, ?_, ?_⟩
    · have := h1 hf
      have e' : ∀ l, partly (.send o.socket p.bytes n :: l) = partly l + 1 := fun l => by simp [partly, List.countP_cons, hn]
      rw [e', hp]
      simp only [List.length_cons] at this ⊢
      omega
    · rw [hp]; simpa using h2
    · rw [e2]; exact h9
    · rw [e2]; exact h10

theorem recvLoop_rounds {o : Obj} {fin : Bool} {k : Nat} {evs : List Ev} (h : RecvLoop o k fin evs) :
    (fin = false → (recvd evs).length = k) ∧ (deliveries evs = if o.onBytes = 0 then [] else (recvd evs).map fun b => (o.onBytes, o.onBytesCtx, [b])) ∧
      errors evs = [] ∧ failures evs = 0 := by
  induction h with
  | cut => simp [recvd, deliveries, errors, failures]
  | @last k r b hr =>
    have h1 : recvd [.recv o.socket r b] = [] := by
      have : ¬ r = 1 := by omega
      simp [recvd, this]
    refine ⟨by simp, ?_, rfl, rfl⟩
    rw [h1]
    simp [deliveries]
  | @more k b fin evs _ ih =>
    obtain ⟨h1, h2, h3, h4⟩ := ih
    have e1 : recvd (.recv o.socket 1 b :: evReceived o.onBytes o.onBytesCtx [b] ++ evs) = b :: recvd evs := by
      unfold evReceived; split <;> simp [recvd]
    have e2 : deliveries (.recv o.socket 1 b :: evReceived o.onBytes o.onBytesCtx [b] ++ evs) =
        if o.onBytes = 0 then deliveries evs else (o.onBytes, o.onBytesCtx, [b]) :: deliveries evs := by
      unfold evReceived; split <;> simp [deliveries]
    refine ⟨fun hf => by rw [e1]; simp [h1 hf], ?_, ?_, ?_⟩
    · rw [e1, e2, h2]
      split <;> simp
    · rw [← h3]; unfold evReceived; split <;> rfl
    · rw [← h4]; unfold evReceived; split <;> rfl

theorem OpenedWith.snoc {L : Log} {e : Entry} {f2 c2 f3 c3 : Nat} (h : OpenedWith L f2 c2 f3 c3) (he : e.op.isClose = false) :
    OpenedWith (L ++ [e]) f2 c2 f3 c3 := by
  obtain ⟨l1, e0, l2, j, f1, c1, rfl, h1, h2, h3⟩ := h
  refine ⟨l1, e0, l2 ++ [e], j, f1, c1, by simp, h1, h2, fun x hx => ?_⟩
  rcases List.mem_append.1 hx with h | h
  · exact h3 x h
  · simp at h; subst h; exact he

/-- what the record of one call says, given the calls before it -/
def Told (l1 : Log) (e : Entry) : Prop :=
  (∀ j n m, e.op = .dowork j n m → e.r = 0 → n ≤ (l1.filterMap Entry.sent).length + partly e.evs ∨ (recvd e.evs).length = m) ∧
  ((e.op.isSend = true ∨ ∃ j n m, e.op = .dowork j n m) → e.evs ≠ [] → ∃ f2 c2 f c, OpenedWith l1 f2 c2 f c ∧
    (deliveries e.evs = if f2 = 0 then [] else (recvd e.evs).map fun b => (f2, c2, [b])) ∧
    (errors e.evs = if f = 0 then [] else List.replicate (failures e.evs) (f, c)))

theorem Told.nothing {l1 : Log} {e : Entry} (h1 : e.op.isSend = true) (h : e.evs = []) : Told l1 e :=
  ⟨fun j n m hj => by rw [hj] at h1; simp [Op.isSend] at h1, fun _ hne => absurd h hne⟩

theorem Told.other {l1 : Log} {e : Entry} (h1 : e.op.isSend = false) (h : ∀ j n m, e.op ≠ .dowork j n m) : Told l1 e :=
  ⟨fun j n m hj => absurd hj (h j n m), fun h' => by
    rcases h' with h' | ⟨j, n, m, h'⟩
    · rw [h1] at h'; cases h'
    · exact absurd h' (h j n m)⟩

def Inv4 (a : Option Obj) (L : Log) : Prop :=
  (pendingOf a).length ≤ (L.filterMap Entry.sent).length ∧
  (∀ o, a = some o → o.state = .opn → OpenedWith L o.onBytes o.onBytesCtx o.onErr o.onErrCtx) ∧
  ∀ l1 e l2, L = l1 ++ e :: l2 → Told l1 e

theorem Inv4.snoc {a a' : Option Obj} {L : Log} {e : Entry} (h : Inv4 a L)
    (h1 : (pendingOf a').length ≤ ((L ++ [e]).filterMap Entry.sent).length)
    (h2 : ∀ o, a' = some o → o.state = .opn → OpenedWith (L ++ [e]) o.onBytes o.onBytesCtx o.onErr o.onErrCtx)
    (h3 : Told L e) : Inv4 a' (L ++ [e]) := by
  refine ⟨h1, h2, fun l1 x l2 h0 => ?_⟩
  rcases List.eq_nil_or_concat l2 with rfl | ⟨l, y, rfl⟩
  · have := List.append_inj' h0 rfl
    simp at this
    obtain ⟨rfl, rfl⟩ := this
    exact h3
  · rw [List.concat_eq_append] at h0
    have h0 : L ++ [e] = (l1 ++ x :: l) ++ [y] := by rw [h0]; simp
    exact h.2.2 l1 x l (List.append_inj' h0 rfl).1

theorem Inv4_new {oom : Prop} (j : Nat) (op : Op) (r : Int) (a' : Option Obj) (evs : List Ev) (h : New oom op r a' evs) : Inv4 a' [⟨j, op, r, evs⟩] := by
  have fresh : ∀ {c lg ok}, CreateE oom c lg ok a' → closedOf a' ∧ pendingOf a' = [] := by
    intro c lg ok h
    cases c with
    | none => obtain ⟨_, rfl⟩ := h; exact ⟨trivial, rfl⟩
    | some c =>
      rcases h with ⟨_, rfl, _⟩ | ⟨_, _, rfl⟩
      · exact ⟨trivial, rfl⟩
      · exact ⟨rfl, rfl⟩
  have base : Inv4 none [] := ⟨by simp [pendingOf], by simp, by simp⟩
  have go : op.isSend = false → (∀ j n m, op ≠ .dowork j n m) → closedOf a' ∧ pendingOf a' = [] → Inv4 a' [⟨j, op, r, evs⟩] := by
    intro h3 h4 h5
    refine Inv4.snoc (L := []) base (by simp [h5.2]) ?_ (Told.other h3 h4)
    rintro o rfl ho
    have : o.state = .closed := h5.1
    rw [this] at ho
    cases ho
  cases op with
  | create _ _ _ => obtain ⟨ok, h1, _, rfl⟩ := h; exact go rfl (by simp) (fresh h1)
  | createNull _ => obtain ⟨ok, h1, _, rfl⟩ := h; exact go rfl (by simp) (fresh h1)
  | accept _ _ => obtain ⟨ok, fd, _, _, h1, _, rfl⟩ := h; exact go rfl (by simp) (fresh h1)
  | destroy _ => exact h.elim
  | opn _ _ _ _ _ _ _ => exact h.elim
  | close _ _ _ => exact h.elim
  | send _ _ _ _ => exact h.elim
  | dowork _ _ _ => exact h.elim

/-- a call that is neither a send nor `socketio_dowork` nor a `socketio_close` that works -/
theorem Inv4.keep {a : Option Obj} {L : Log} {e : Entry} (h : Inv4 a L) (h1 : e.op.isClose = true → closedOf a) (h3 : Told L e) :
    Inv4 a (L ++ [e]) := by
  refine h.snoc ?_ ?_ h3
  · rw [List.filterMap_append, List.length_append]; have := h.1; omega
  · rintro o rfl ho
    have hc : e.op.isClose = false := by
      cases hc : e.op.isClose with
      | false => rfl
      | true => have : o.state = .closed := h1 hc
                rw [this] at ho; cases ho
    exact (h.2.1 o rfl ho).snoc hc

theorem Inv4_step {oom : Prop} (j : Nat) (a : Option Obj) (L : Log) (op : Op) (r : Int) (a' : Option Obj) (evs : List Ev) (h : Inv4 a L)
    (hE : Eff oom a op r a' evs) : Inv4 a' (L ++ [⟨j, op, r, evs⟩]) := by
  have grow : ∀ e : Entry, (L.filterMap Entry.sent).length ≤ ((L ++ [e]).filterMap Entry.sent).length := by
    intro e; rw [List.filterMap_append, List.length_append]; omega
  cases op with
  | create _ _ _ => exact hE.elim
  | createNull _ => exact hE.elim
  | accept _ _ => exact hE.elim
  | destroy i =>
    obtain ⟨_, rfl, _⟩ := hE
    exact h.snoc (by simp [pendingOf]) (by simp) (Told.other rfl (by simp))
  | opn i f1 c1 f2 c2 f3 c3 =>
    have t : Told L ⟨j, .opn i f1 c1 f2 c2 f3 c3, r, evs⟩ := Told.other rfl (by simp)
    cases a with
    | none => obtain ⟨_, rfl, _⟩ := hE; exact h.keep (by simp [Op.isClose]) t
    | some o =>
      have new : ∀ fd : Int, r = 0 → a' = some (opened o fd f2 c2 f3 c3) → Inv4 a' (L ++ [⟨j, .opn i f1 c1 f2 c2 f3 c3, r, evs⟩]) := by
        rintro fd hr rfl
        refine h.snoc (Nat.le_trans h.1 (grow _)) ?_ t
        rintro o' ho' _
        simp only [Option.some.injEq] at ho'
        subst ho'
        exact ⟨L, _, [], i, f1, c1, rfl, rfl, hr, by simp⟩
      have same : a' = some o → Inv4 a' (L ++ [⟨j, .opn i f1 c1 f2 c2 f3 c3, r, evs⟩]) := by
        rintro rfl; exact h.keep (by simp [Op.isClose]) t
      simp only [Eff, OpenE] at hE
      split at hE
      · exact same hE.2.1
      split at hE
      · exact new _ hE.1 hE.2.1
      rcases hE with ⟨h0, h1, _⟩ | ⟨fd, _, _, ⟨_, _, _, h0, h1, _⟩ | ⟨ai, ⟨_, _, h0, h1, _⟩ | ⟨h0, h1, _⟩ | ⟨_, _, h0, h1, _⟩ | ⟨_, _, _, _, h0, h1, _⟩⟩⟩
      · exact same h1
      · exact same h1
      · exact same h1
      · exact same h1
      · exact same h1
      · exact new _ h0 h1
  | close i f c =>
    have t : Told L ⟨j, .close i f c, r, evs⟩ := Told.other rfl (by simp)
    cases a with
    | none => obtain ⟨_, rfl, _⟩ := hE; exact h.keep (fun _ => trivial) t
    | some o =>
      simp only [Eff, CloseE] at hE
      split at hE
      · rename_i hs
        obtain ⟨_, rfl, _⟩ := hE
        refine h.snoc (Nat.le_trans h.1 (grow _)) ?_ t
        rintro o' ho' hop
        simp only [Option.some.injEq] at ho'
        subst ho'
        rcases hs with hs | hs <;> (rw [hs] at hop; cases hop)
      · obtain ⟨_, rfl, _⟩ := hE
        refine h.snoc (Nat.le_trans h.1 (grow _)) ?_ t
        rintro o' ho' hop
        simp only [Option.some.injEq] at ho'
        subst ho'
        cases hop
  | send i bs cb ctx =>
    have tl : evs = [] → Told L ⟨j, .send i bs cb ctx, r, evs⟩ := fun h => Told.nothing (e := ⟨j, .send i bs cb ctx, r, evs⟩) rfl h
    cases a with
    | none => obtain ⟨_, rfl, h2⟩ := hE; exact h.keep (by simp [Op.isClose]) (tl h2)
    | some o =>
      cases bs with
      | none => obtain ⟨_, rfl, h2⟩ := hE; exact h.keep (by simp [Op.isClose]) (tl h2)
      | some bs =>
        have queue : ∀ q, r = 0 → q.length ≤ o.pending.length + 1 → a' = some { o with pending := q } → Told L ⟨j, .send i (some bs) cb ctx, r, evs⟩ → Inv4 a' (L ++ [⟨j, .send i (some bs) cb ctx, r, evs⟩]) := by
          rintro q rfl hq rfl tl
          refine h.snoc ?_ ?_ tl
          · have : (L ++ [(⟨j, .send i (some bs) cb ctx, 0, evs⟩ : Entry)]).filterMap Entry.sent = L.filterMap Entry.sent ++ [(bs, cb, ctx)] := by
              rw [List.filterMap_append]; rfl
            rw [this, List.length_append]
            have := h.1
            simp only [pendingOf, List.length_cons, List.length_nil] at *
            omega
          · rintro o' ho' hop
            simp only [Option.some.injEq] at ho'
            subst ho'
            exact (h.2.1 o rfl hop).snoc rfl
        simp only [Eff, SendE] at hE
        split at hE
        · obtain ⟨_, rfl, h2⟩ := hE; exact h.keep (by simp [Op.isClose]) (tl h2)
        · rename_i hs
          have hs : o.state = .opn := by
            cases hst : o.state <;> simp [hst] at hs ⊢
          have who := h.2.1 o rfl hs
          have say : (deliveries evs = [] ∧ recvd evs = [] ∧ errors evs = if o.onErr = 0 then [] else List.replicate (failures evs) (o.onErr, o.onErrCtx)) →
              Told L ⟨j, .send i (some bs) cb ctx, r, evs⟩ := by
            rintro ⟨h1, h2, h3⟩
            refine ⟨by simp, fun _ _ => ⟨_, _, _, _, who, ?_, h3⟩⟩
            dsimp only
            rw [h1, h2]; simp
          split at hE
          · obtain ⟨h2, ⟨h0, h1⟩ | ⟨_, _, rfl⟩⟩ := hE
            · exact queue _ h0 (by simp) h1 (tl h2)
            · exact h.keep (by simp [Op.isClose]) (tl h2)
          · rename_i hp
            have hp : o.pending = [] := by simpa using hp
            rcases hE with ⟨h0, rfl, rfl⟩ | ⟨h0, rfl, rfl⟩ | ⟨n, _, rfl, ⟨h0, h1⟩ | ⟨_, ho, rfl⟩⟩
            · refine h.keep (by simp [Op.isClose]) (say ?_)
              unfold evCompleted; split <;> simp [deliveries, recvd, errors, failures, List.countP_cons]
            · refine h.keep (by simp [Op.isClose]) (say ?_)
              unfold evError; split <;> simp [deliveries, recvd, errors, failures, List.countP_cons, *]
            · refine queue _ h0 (by simp [hp]) h1 (say ?_)
              simp [deliveries, recvd, errors, failures, List.countP_cons]
            · refine h.keep (by simp [Op.isClose]) (say ?_)
              simp [deliveries, recvd, errors, failures, List.countP_cons]
  | dowork i n m =>
    obtain ⟨fin, hE, rfl⟩ := hE
    have idle : fin = true → evs = [] → Told L ⟨j, .dowork i n m, if fin then 1 else 0, evs⟩ := by
      rintro rfl rfl
      simp [Told]
    cases a with
    | none => obtain ⟨h1, rfl, h2⟩ := hE; exact h.keep (by simp [Op.isClose]) (idle h1 h2)
    | some o =>
      simp only [DoworkE] at hE
      split at hE
      · obtain ⟨h1, rfl, h2⟩ := hE; exact h.keep (by simp [Op.isClose]) (idle h1 h2)
      · rename_i hs
        have hs : o.state = .opn := by simpa using hs
        have who := h.2.1 o rfl hs
        have hlen := h.1
        simp only [pendingOf] at hlen
        obtain ⟨o', rfl, h1⟩ := hE
        have fin' : ∀ {k : Nat} {b : Bool} {evs1 : List Ev}, SendLoop k o b o' evs1 → Told L ⟨j, .dowork i n m, if fin then 1 else 0, evs⟩ →
            Inv4 (some o') (L ++ [⟨j, .dowork i n m, if fin then 1 else 0, evs⟩]) := by
          intro k b evs1 hl ht
          obtain ⟨_, a2, a3, a4, a5, a6, _⟩ := sendLoop_rounds hl
          refine h.snoc (Nat.le_trans ?_ (grow _)) ?_ ht
          · simp only [pendingOf]; omega
          · rintro x hx _
            simp only [Option.some.injEq] at hx
            subst hx
            rw [a3, a4, a5, a6]
            exact who.snoc rfl
        rcases h1 with ⟨rfl, hl⟩ | ⟨e1, e2, rfl, hl, hr⟩
        · refine fin' hl ⟨fun j' n' m' hj _ => Or.inl ?_, fun _ _ => ?_⟩
          · simp only [Op.dowork.injEq] at hj
            obtain ⟨_, rfl, rfl⟩ := hj
            have := (sendLoop_rounds hl).1 rfl
            dsimp only; omega
          · obtain ⟨_, _, _, _, _, _, a7, a8, a9, _⟩ := sendLoop_rounds hl
            refine ⟨_, _, _, _, who, ?_, a9⟩
            dsimp only; rw [a7, a8]; simp
        · obtain ⟨_, _, a3, a4, _, _, a7, a8, a9, _⟩ := sendLoop_rounds hl
          obtain ⟨b1, b2, b3, b4⟩ := recvLoop_rounds hr
          have er : recvd (e1 ++ e2) = recvd e2 := by
            have : recvd (e1 ++ e2) = recvd e1 ++ recvd e2 := List.filterMap_append
            rw [this, a7, List.nil_append]
          have ed : deliveries (e1 ++ e2) = deliveries e2 := by
            have : deliveries (e1 ++ e2) = deliveries e1 ++ deliveries e2 := List.filterMap_append
            rw [this, a8, List.nil_append]
          have ee : errors (e1 ++ e2) = errors e1 := by
            have : errors (e1 ++ e2) = errors e1 ++ errors e2 := List.filterMap_append
            rw [this, b3, List.append_nil]
          have ef : failures (e1 ++ e2) = failures e1 := by
            have : failures (e1 ++ e2) = failures e1 + failures e2 := List.countP_append
            rw [this, b4, Nat.add_zero]
          refine fin' hl ⟨fun j' n' m' hj h0 => Or.inr ?_, fun _ _ => ⟨_, _, _, _, who, ?_, ?_⟩⟩
          · simp only [Op.dowork.injEq] at hj
            obtain ⟨_, rfl, rfl⟩ := hj
            dsimp only at h0 ⊢
            rw [er]
            refine b1 ?_
            cases fin
            · rfl
            · simp at h0
          · dsimp only
            rw [er, ed, b2, a3, a4]
          · dsimp only
            rw [ee, ef]; exact a9

theorem told (h : Runs (step oom) ([], []) ops outs (as, log)) (i : Nat) {l1 l2 : Log} {e : Entry} (hl : ofPos i log = l1 ++ e :: l2) : Told l1 e := by
  have hp := at_pos (Inv := Inv4) Inv4_new Inv4_step h i
  cases ha : as[i]? with
  | none =>
    have := hp.1 (List.getElem?_eq_none_iff.1 ha)
    rw [this] at hl; simp at hl
  | some a => exact (hp.2 a ha).2.2 l1 e l2 hl

/-- C108: the error callback given to `socketio_open` is called once for every attempt to send that fails, in `socketio_send` and in `socketio_dowork`, and for
nothing else. -/
theorem failure_reported (h : Runs (step oom) ([], []) ops outs (as, log)) (i : Nat) {l1 l2 : Log} {e : Entry}
    (hl : ofPos i log = l1 ++ e :: l2) (hs : e.op.isSend = true ∨ ∃ j n m, e.op = .dowork j n m) (hne : e.evs ≠ []) :
    ∃ f2 c2 f c, OpenedWith l1 f2 c2 f c ∧ errors e.evs = if f = 0 then [] else List.replicate (failures e.evs) (f, c) := by
  obtain ⟨f2, c2, f, c, h1, _, h2⟩ := (told h i hl).2 hs hne
  exact ⟨f2, c2, f, c, h1, h2⟩

/-- C108: every byte `socketio_dowork` receives is handed once, in order, to the callback given to `socketio_open`, and nothing else is. -/
theorem delivered (h : Runs (step oom) ([], []) ops outs (as, log)) (i : Nat) {l1 l2 : Log} {e : Entry}
    (hl : ofPos i log = l1 ++ e :: l2) {j n m : Nat} (hs : e.op = .dowork j n m) (hne : e.evs ≠ []) :
    ∃ f2 c2 f c, OpenedWith l1 f2 c2 f c ∧ deliveries e.evs = if f2 = 0 then [] else (recvd e.evs).map fun b => (f2, c2, [b]) := by
  obtain ⟨f2, c2, f, c, h1, h2, _⟩ := (told h i hl).2 (Or.inr ⟨j, n, m, hs⟩) hne
  exact ⟨f2, c2, f, c, h1, h2⟩

/-- C109: the only ways for `socketio_dowork` not to return: if it is still running after `n` rounds of sending or `m` of receiving, the socket took only a part
(perhaps nothing) of a buffer at least `n` times less the number of sends accepted before, or `m` bytes arrived. -/
theorem dowork_rounds_partial (h : Runs (step oom) ([], []) ops outs (as, log)) (i : Nat) {l1 l2 : Log} {e : Entry}
    (hl : ofPos i log = l1 ++ e :: l2) {j n m : Nat} (hs : e.op = .dowork j n m) (hr : e.r = 0) :
    n ≤ (l1.filterMap Entry.sent).length + partly e.evs ∨ (recvd e.evs).length = m :=
  (told h i hl).1 j n m hs hr

/-! ## after a failure -/

theorem BrokenNow.cases {L : Log} {e : Entry} (h : BrokenNow (L ++ [e])) : (BrokenNow L ∧ e.op.isClose = false) ∨ ((∃ j n m, e.op = .dowork j n m) ∧ 0 < failures e.evs) := by
  obtain ⟨l1, x, l2, h0, h1, h2, h3⟩ := h
  rcases List.eq_nil_or_concat l2 with rfl | ⟨l, y, rfl⟩
  · have := (List.append_inj' h0 rfl).2
    simp at this; subst this
    exact Or.inr ⟨h1, h2⟩
  · rw [List.concat_eq_append] at h0 h3
    have h0 : L ++ [e] = (l1 ++ x :: l) ++ [y] := by rw [h0]; simp
    have h4 := (List.append_inj' h0 rfl).2
    simp at h4; subst h4
    exact Or.inl ⟨⟨l1, x, l, (List.append_inj' h0 rfl).1, h1, h2, fun z hz => h3 z (by simp [hz])⟩, h3 e (by simp)⟩

def Inv6 (a : Option Obj) (L : Log) : Prop :=
  (BrokenNow L → ∀ o, a = some o → o.state = .error) ∧
  ∀ l1 e l2, L = l1 ++ e :: l2 → BrokenNow l1 →
    (e.op.isSend = true → e.r ≠ 0 ∧ e.evs = []) ∧ (∀ j n m, e.op = .dowork j n m → e.r = 1 ∧ e.evs = [])

theorem Inv6.snoc {a a' : Option Obj} {L : Log} {e : Entry} (h : Inv6 a L) (h1 : BrokenNow (L ++ [e]) → ∀ o, a' = some o → o.state = .error)
    (h2 : BrokenNow L → (e.op.isSend = true → e.r ≠ 0 ∧ e.evs = []) ∧ (∀ j n m, e.op = .dowork j n m → e.r = 1 ∧ e.evs = [])) : Inv6 a' (L ++ [e]) := by
  refine ⟨h1, fun l1 x l2 h0 => ?_⟩
  rcases List.eq_nil_or_concat l2 with rfl | ⟨l, y, rfl⟩
  · have := List.append_inj' h0 rfl
    simp at this
    obtain ⟨rfl, rfl⟩ := this
    exact h2
  · rw [List.concat_eq_append] at h0
    have h0 : L ++ [e] = (l1 ++ x :: l) ++ [y] := by rw [h0]; simp
    exact h.2 l1 x l (List.append_inj' h0 rfl).1

theorem Inv6_new {oom : Prop} (j : Nat) (op : Op) (r : Int) (a' : Option Obj) (evs : List Ev) (h : New oom op r a' evs) : Inv6 a' [⟨j, op, r, evs⟩] := by
  have no : ¬ BrokenNow [] := by rintro ⟨l1, x, l2, h0, _⟩; simp at h0
  have base : Inv6 none [] := ⟨by simp, by simp⟩
  refine Inv6.snoc (L := []) base (fun hb => ?_) (fun hb => absurd hb no)
  rcases hb.cases with ⟨hb, _⟩ | ⟨⟨k, n, m, hk⟩, _⟩
  · exact absurd hb no
  · dsimp only at hk; subst hk; exact h.elim

theorem Inv6_step {oom : Prop} (j : Nat) (a : Option Obj) (L : Log) (op : Op) (r : Int) (a' : Option Obj) (evs : List Ev) (h : Inv6 a L)
    (hE : Eff oom a op r a' evs) : Inv6 a' (L ++ [⟨j, op, r, evs⟩]) := by
  cases op with
  | create _ _ _ => exact hE.elim
  | createNull _ => exact hE.elim
  | accept _ _ => exact hE.elim
  | destroy i =>
    obtain ⟨_, rfl, _⟩ := hE
    exact h.snoc (by simp) (fun _ => ⟨by simp [Op.isSend], by simp⟩)
  | close i f c =>
    refine h.snoc (fun hb => ?_) (fun _ => ⟨by simp [Op.isSend], by simp⟩)
    rcases hb.cases with ⟨_, hb⟩ | ⟨⟨_, _, _, hk⟩, _⟩
    · simp [Op.isClose] at hb
    · cases hk
  | opn i f1 c1 f2 c2 f3 c3 =>
    refine h.snoc (fun hb => ?_) (fun _ => ⟨by simp [Op.isSend], by simp⟩)
    rcases hb.cases with ⟨hb, _⟩ | ⟨⟨_, _, _, hk⟩, _⟩
    · cases a with
      | none => obtain ⟨_, rfl, _⟩ := hE; simp
      | some o =>
        have hst := h.1 hb o rfl
        simp only [Eff, OpenE] at hE
        rw [if_pos (by rw [hst]; simp)] at hE
        obtain ⟨_, rfl, _⟩ := hE
        exact h.1 hb
    · cases hk
  | send i bs cb ctx =>
    have still : BrokenNow L → a' = a ∧ r ≠ 0 ∧ evs = [] := by
      intro hb
      cases a with
      | none => exact ⟨hE.2.1, hE.1, hE.2.2⟩
      | some o =>
        cases bs with
        | none => exact ⟨hE.2.1, hE.1, hE.2.2⟩
        | some bs =>
          have hst := h.1 hb o rfl
          simp only [Eff, SendE] at hE
          rw [if_pos (Or.inr (by rw [hst]; simp))] at hE
          exact ⟨hE.2.1, hE.1, hE.2.2⟩
    refine h.snoc (fun hb => ?_) (fun hb => ⟨fun _ => (still hb).2, by simp⟩)
    rcases hb.cases with ⟨hb, _⟩ | ⟨⟨_, _, _, hk⟩, _⟩
    · rw [(still hb).1]; exact h.1 hb
    · cases hk
  | dowork i n m =>
    obtain ⟨fin, hE, hr⟩ := hE
    have still : BrokenNow L → a' = a ∧ r = 1 ∧ evs = [] := by
      intro hb
      cases a with
      | none => obtain ⟨rfl, h1, h2⟩ := hE; exact ⟨h1, hr, h2⟩
      | some o =>
        have hst := h.1 hb o rfl
        simp only [DoworkE] at hE
        rw [if_pos (by rw [hst]; simp)] at hE
        obtain ⟨rfl, h1, h2⟩ := hE; exact ⟨h1, hr, h2⟩
    refine h.snoc (fun hb => ?_) (fun hb => ⟨by simp [Op.isSend], fun _ _ _ _ => (still hb).2⟩)
    rcases hb.cases with ⟨hb, _⟩ | ⟨_, hb⟩
    · rw [(still hb).1]; exact h.1 hb
    · dsimp only at hb
      cases a with
      | none => obtain ⟨_, rfl, _⟩ := hE; simp
      | some o =>
        simp only [DoworkE] at hE
        split at hE
        · obtain ⟨_, _, rfl⟩ := hE
          simp [failures] at hb
        · obtain ⟨o', rfl, hE⟩ := hE
          intro x hx
          simp at hx; subst hx
          rcases hE with ⟨_, hl⟩ | ⟨e1, e2, rfl, hl, hR⟩
          · exact (sendLoop_rounds hl).2.2.2.2.2.2.2.2.2 hb
          · have : failures (e1 ++ e2) = failures e1 + failures e2 := List.countP_append
            rw [this, (recvLoop_rounds hR).2.2.2, Nat.add_zero] at hb
            exact (sendLoop_rounds hl).2.2.2.2.2.2.2.2.2 hb

/-- C108: once an attempt to send failed under `socketio_dowork`, every send is refused and `socketio_dowork` does nothing, until the handle is closed. -/
theorem refused_after_failure (h : Runs (step oom) ([], []) ops outs (as, log)) (i : Nat) {l1 l2 : Log} {e : Entry}
    (hl : ofPos i log = l1 ++ e :: l2) (hb : BrokenNow l1) :
    (e.op.isSend = true → e.r ≠ 0 ∧ e.evs = []) ∧ (∀ j n m, e.op = .dowork j n m → e.r = 1 ∧ e.evs = []) := by
  have hp := at_pos (Inv := Inv6) Inv6_new Inv6_step h i
  cases ha : as[i]? with
  | none =>
    have := hp.1 (List.getElem?_eq_none_iff.1 ha)
    rw [this] at hl; simp at hl
  | some a => exact (hp.2 a ha).2 l1 e l2 hl hb


end Verif.Sock
