import Verif.Wolf.Claim

/-
C65: what the TLS IOs hold, over whole histories.  Whenever no function is in progress, each
resource is held exactly as often as the TLS IOs that are alive own it, apart from the lower IO of a
creation that failed (`leaks`).
-/
namespace Verif.Wolf
open Verif.Game

/-- What the code is known to leak. -/
def leaks (x : Res) : List Event → Int
  | [] => 0
  | .leave (.create ..) r :: l => leaks x l + if r = 0 then one x .io (newIo l) else 0
  | _ :: l => leaks x l

/-- What the TLS IOs that are alive own. -/
def owned (x : Res) (l : List Event) : Int := ((alives l).map fun h => own x h (view h l)).sum

/-- The blocks for received bytes of the TLS IOs that are alive. -/
def blocks (x : Res) (l : List Event) : Int :=
  ((alives l).map fun h => one x .buf (view h l).buf).sum

/-- What should be held. -/
def due (x : Res) (l : List Event) : Int := owned x l + leaks x l

/-- The functions that give back what they take. -/
def Call.plain : Call → Bool
  | .create .. | .destroy _ => false
  | _ => true

theorem total_held (x : Res) : ∀ l : List Event, total (held1 x) l = held x l
  | [] => rfl
  | e :: l => by rw [total, held, total_held x l]

theorem before_eq : ∀ l : List Event, before l = beforeEnter l
  | [] => rfl
  | .enter _ :: _ => rfl
  | .leave .. :: l => before_eq l
  | .call .. :: l => before_eq l
  | .ret .. :: l => before_eq l

/-! ### What is due -/

theorem own_next (x : Res) (h : Nat) (v : View) {e : Event}
    (he : ∀ h o n bs, e = .ret h o n bs → o.makes = false) : own x h (v.next e) = own x h v := by
  unfold View.next
  split
  all_goals first
    | rfl
    | (have h := he _ _ _ _ rfl; simp [Op.makes] at h; done)
    | skip
  all_goals repeat' split
  all_goals rfl

theorem own_view {x : Res} {h : Nat} {l : List Event} {e : Event}
    (he : ∀ h' o n bs, e = .ret h' o n bs → o.makes = true → h' ≠ h) :
    own x h (view h (e :: l)) = own x h (view h l) := by
  by_cases hs : subject e = h
  · rw [view_same hs]
    refine own_next x h _ ?_
    rintro h' o n bs rfl
    cases hm : o.makes with
    | false => rfl
    | true => exact absurd hs (he _ _ _ _ rfl hm)
  · rw [view_other hs]

theorem owned_other {x : Res} {l : List Event} {e : Event} (ha : alives (e :: l) = alives l)
    (he : ∀ h' o n bs, e = .ret h' o n bs → o.makes = true → h' ∉ alives l) :
    owned x (e :: l) = owned x l := by
  unfold owned
  rw [ha]
  congr 1
  refine List.map_congr_left fun h hh => own_view ?_
  rintro h' o n bs rfl hm rfl
  exact he _ _ _ _ rfl hm hh

theorem leaks_other {x : Res} {l : List Event} {e : Event}
    (h : ∀ c r, e = .leave c r → c.plain = true) : leaks x (e :: l) = leaks x l := by
  cases e with
  | leave c r =>
    have := h c r rfl
    cases c with
    | create => cases this
    | _ => rfl
  | _ => rfl

theorem alives_pos : ∀ {l : List Event}, Holds Claim l → ∀ h ∈ alives l, h ≠ 0
  | [], _ => by simp [alives]
  | e :: l, hl => by
    have ih := alives_pos hl.2
    cases e with
    | leave c r =>
      cases c with
      | create cfg lg =>
        have hc : Leaves l (.create cfg lg) r := hl.1.2.2
        simp only [Leaves] at hc
        simp only [alives]
        split
        · exact ih
        next hr =>
          rw [if_neg hr] at hc
          intro h hh
          rcases List.mem_cons.1 hh with rfl | hh
          · have := hc.2.2.1
            omega
          · exact ih h hh
      | destroy h' =>
        intro h hh
        exact ih h (List.mem_filter.1 hh).1
      | _ => exact ih
    | _ => exact ih

theorem alives_nodup : ∀ {l : List Event}, Holds Claim l → (alives l).Nodup
  | [], _ => by simp [alives]
  | e :: l, hl => by
    have ih := alives_nodup hl.2
    cases e with
    | leave c r =>
      cases c with
      | create cfg lg =>
        have hc : Leaves l (.create cfg lg) r := hl.1.2.2
        simp only [Leaves] at hc
        simp only [alives]
        split
        · exact ih
        next hr =>
          rw [if_neg hr] at hc
          exact List.nodup_cons.2 ⟨hc.2.2.2.1, ih⟩
      | destroy h' => exact ih.sublist List.filter_sublist
      | _ => exact ih
    | _ => exact ih

theorem sum_filter (f : Nat → Int) (h : Nat) : ∀ {L : List Nat}, L.Nodup →
    ((L.filter (· ≠ h)).map f).sum = (L.map f).sum - if h ∈ L then f h else 0
  | [], _ => by simp
  | a :: L, hn => by
    have ih := sum_filter f h (List.nodup_cons.1 hn).2
    by_cases ha : a = h
    · subst ha
      have hna := (List.nodup_cons.1 hn).1
      rw [if_neg hna, Int.sub_zero] at ih
      rw [List.filter_cons_of_neg (by simp), ih]
      simp
      omega
    · rw [List.filter_cons_of_pos (by simpa using ha), List.map_cons, List.sum_cons, ih,
        List.map_cons, List.sum_cons]
      have : (h ∈ a :: L) ↔ h ∈ L := by simp [Ne.symm ha]
      simp only [this]
      omega

theorem owned_destroy {x : Res} {l : List Event} {h : Nat} {r : Int} (hl : Holds Claim l)
    (hh : h = 0 ∨ h ∈ alives l) :
    owned x (.leave (.destroy h) r :: l) = owned x l - if h = 0 then 0 else own x h (view h l) := by
  have hv : ∀ h', own x h' (view h' (.leave (.destroy h) r :: l)) = own x h' (view h' l) := by
    intro h'
    exact own_view (by rintro _ _ _ _ h; cases h)
  unfold owned
  simp only [hv, alives]
  rw [sum_filter _ _ (alives_nodup hl)]
  by_cases h0 : h = 0
  · have : h ∉ alives l := fun hm => alives_pos hl h hm h0
    rw [if_neg this, if_pos h0]
  · rw [if_pos (hh.resolve_left h0), if_neg h0]

/-! ### The functions give back what they take -/

section
variable {α β : Type} {x : Res} {Q : β → Int → Prop} {d : Int} {h : Nat}

local notation "BAL" => Bal (sys std) (held1 x)

theorem Bal_rd {f : Inst → Option α} {k : α → P β} (hk : ∀ v, BAL Q (k v) d) :
    BAL Q (rd h f >>= k) d := by
  intro i
  show BAL Q (Prog.bind (match f i with | none => .ub | some v => .ret v) k) d
  split
  · exact trivial
  · exact hk _

theorem Bal_wr {f : Inst → Inst} {k : Unit → P β} (hk : BAL Q (k ()) d) :
    BAL Q (wr h f >>= k) d := hk

theorem Bal_st {f : List (Option UInt8) → Option (List (Option UInt8))} {k : Unit → P β}
    (hk : BAL Q (k ()) d) : BAL Q (st h f >>= k) d := by
  intro i
  show BAL Q (Prog.bind (match f i.block with
    | none => .ub
    | some b => .modify h (fun i => { i with block := b }) (.ret ())) k) d
  split
  · exact trivial
  · exact hk

/-- A call that takes and gives nothing. -/
theorem Bal_none {o : Op} {k : Int → P β} (h1 : held1 x (.call h o) = 0)
    (h2 : ∀ n bs, held1 x (.ret h o n bs) = 0) (hk : ∀ n, BAL Q (k n) d) :
    BAL Q (call h o >>= k) d := by
  intro _ n bs _
  show BAL Q (k n) (d + held1 x (.call h o) + held1 x (.ret h o n bs))
  rw [h1, h2, Int.add_zero, Int.add_zero]
  exact hk n

theorem Bal_noneP {o : Op} {k : Nat → P β} (h1 : held1 x (.call h o) = 0)
    (h2 : ∀ n bs, held1 x (.ret h o n bs) = 0) (hk : ∀ n, BAL Q (k n) d) :
    BAL Q (callP h o >>= k) d := by
  intro _ n bs _
  show BAL Q (k n.toNat) (d + held1 x (.call h o) + held1 x (.ret h o n bs))
  rw [h1, h2, Int.add_zero, Int.add_zero]
  exact hk _

theorem Bal_noneB {o : Op} {k : Int × Bytes → P β} (h1 : held1 x (.call h o) = 0)
    (h2 : ∀ n bs, held1 x (.ret h o n bs) = 0) (hk : ∀ n, BAL Q (k n) d) :
    BAL Q (callB h o >>= k) d := by
  intro _ n bs _
  show BAL Q (k (n, bs)) (d + held1 x (.call h o) + held1 x (.ret h o n bs))
  rw [h1, h2, Int.add_zero, Int.add_zero]
  exact hk _

theorem Bal_bind {p : P α} {f : α → P β} (hp : BAL (fun _ d' => d' = 0) p d)
    (hf : ∀ a, BAL Q (f a) 0) : BAL Q (p >>= f) d := by
  refine Bal.bind _ _ _ (Bal.mono ?_ _ _ hp)
  rintro a d' rfl
  exact hf a

/-- It takes nothing for long. -/
abbrev Zero (x : Res) (p : P α) : Prop := Bal (sys std) (held1 x) (fun _ d => d = 0) p 0

theorem indicate_error_zero : Zero x (indicate_error h) := by
  refine Bal_rd fun fn => ?_
  split
  · rfl
  · exact Bal_rd fun ctx => Bal_none rfl (fun _ _ => rfl) fun n => rfl

theorem indicate_open_complete_zero {r : OpenResult} : Zero x (indicate_open_complete h r) := by
  refine Bal_rd fun fn => ?_
  split
  · rfl
  · exact Bal_rd fun ctx => Bal_none rfl (fun _ _ => rfl) fun n => rfl

theorem one_buf (hx : ∀ p, x ≠ .buf p) (n : Int) : one x .buf n = 0 := by simp [one, hx]

theorem realloc_none (hx : ∀ p, x ≠ .buf p) {p m : Nat} (n : Int) (bs : Bytes) :
    held1 x (.ret h (.realloc p m) n bs) = 0 := by
  simp only [held1, one_buf hx]
  split <;> rfl

theorem reallocBlock_zero (hx : ∀ p, x ≠ .buf p) {n : Nat} : Zero x (reallocBlock h n) := by
  refine Bal_rd fun p => ?_
  split
  · trivial
  · refine Bal_noneP rfl (realloc_none hx) fun q => ?_
    split
    · rfl
    · exact Bal_st rfl

theorem shrink_zero (hx : ∀ p, x ≠ .buf p) : Zero x (shrink h) := by
  refine Bal_rd fun count => ?_
  split
  · refine Bal_bind (reallocBlock_zero hx) fun q => ?_
    split <;> rfl
  · refine Bal_rd fun p => Bal_none ?_ (fun _ _ => rfl) fun n => rfl
    simp only [held1, one_buf hx]
    rfl

theorem take_zero (hx : ∀ p, x ≠ .buf p) {buf n : Nat} : Zero x (take h buf n) :=
  Bal_rd fun _ => Bal_none rfl (fun _ _ => rfl) fun _ => Bal_rd fun _ => Bal_st
    (Bal_wr (shrink_zero hx))

attribute [local irreducible] toInt toSize in
theorem body_zero (hx : ∀ p, x ≠ .buf p) {c : Call} (hc : c.plain = true) : Zero x (body c) := by
  cases c with
  | create => cases hc
  | destroy => cases hc
  | «open» h cbs =>
    show Zero x (tlsio_wolfssl_open h cbs)
    unfold tlsio_wolfssl_open
    split
    · rfl
    · refine Bal_rd fun st => ?_
      split
      · rfl
      · refine Bal_wr (Bal_wr (Bal_wr (Bal_wr (Bal_wr (Bal_wr (Bal_wr ?_))))))
        refine Bal_rd fun io => Bal_none rfl (fun _ _ => rfl) fun n => ?_
        split
        · rfl
        · refine Bal_wr (Bal_rd fun ssl => Bal_none rfl (fun _ _ => rfl) fun n => ?_)
          split <;> rfl
  | close h fn ctx =>
    show Zero x (tlsio_wolfssl_close h fn ctx)
    unfold tlsio_wolfssl_close
    split
    · rfl
    · refine Bal_rd fun st => ?_
      split
      · rfl
      · refine Bal_wr (Bal_wr (Bal_wr ?_))
        refine Bal_rd fun io => Bal_none rfl (fun _ _ => rfl) fun n => ?_
        split <;> rfl
  | send h bs fn ctx =>
    show Zero x (tlsio_wolfssl_send h bs fn ctx)
    unfold tlsio_wolfssl_send
    split
    · rfl
    · refine Bal_rd fun st => ?_
      split
      · rfl
      · refine Bal_wr (Bal_wr (Bal_rd fun ssl => Bal_none rfl (fun _ _ => rfl) fun n => ?_))
        split <;> rfl
  | dowork h =>
    refine Bal_bind ?_ fun _ => rfl
    unfold tlsio_wolfssl_dowork
    split
    · rfl
    · refine Bal_rd fun st => ?_
      split
      · refine Bal_bind (p := decode_ssl_received_bytes h) rfl fun _ => ?_
        exact Bal_rd fun io => Bal_none rfl (fun _ _ => rfl) fun n => rfl
      · rfl
  | setoption h name v text =>
    show Zero x (tlsio_wolfssl_setoption h name v text)
    unfold tlsio_wolfssl_setoption
    cases name with
    | none => rfl
    | some name =>
      dsimp only
      split
      · rfl
      · split
        · refine Bal_rd fun ctx => ?_
          split
          · trivial
          · refine Bal_none rfl (fun _ _ => rfl) fun n => ?_
            split <;> rfl
        · refine Bal_rd fun io => ?_
          exact fun _ n bs _ => rfl
  | uOpen h r =>
    refine Bal_bind ?_ fun _ => rfl
    unfold on_underlying_io_open_complete
    split
    · exact Bal_wr indicate_open_complete_zero
    · refine Bal_wr (Bal_rd fun ssl => Bal_none rfl (fun _ _ => rfl) fun n => ?_)
      split
      · exact indicate_open_complete_zero
      · rfl
  | uClose h =>
    refine Bal_bind ?_ fun _ => rfl
    refine Bal_rd fun st => ?_
    split
    · refine Bal_rd fun fn => ?_
      split
      · rfl
      · exact Bal_rd fun ctx => Bal_none rfl (fun _ _ => rfl) fun n => rfl
    · rfl
  | uError h =>
    refine Bal_bind ?_ fun _ => rfl
    refine Bal_rd fun st => ?_
    split
    · exact Bal_wr indicate_open_complete_zero
    · exact Bal_wr indicate_open_complete_zero
    · exact Bal_wr indicate_error_zero
    · rfl
  | uBytes h bs =>
    refine Bal_bind ?_ fun _ => rfl
    refine Bal_rd fun count => Bal_bind (reallocBlock_zero hx) fun q => ?_
    split
    · exact Bal_wr indicate_error_zero
    · exact Bal_wr (Bal_st rfl)
  | wRecv h buf sz =>
    show Zero x (.spin _ _)
    refine Bal_rd (h := h) fun count => ?_
    dsimp only
    generalize (if toInt count > sz then sz else toInt count) = result
    split
    · exact Bal_bind (take_zero hx) fun _ => rfl
    · split
      · refine Bal_rd fun st => ?_
        split <;> rfl
      · rfl
  | wSend h bs =>
    refine Bal_rd fun io => Bal_rd fun fn => Bal_rd fun ctx => Bal_none rfl (fun _ _ => rfl) fun n => ?_
    split
    · exact Bal_wr (Bal_bind indicate_error_zero fun _ => rfl)
    · rfl
  | wDone h =>
    refine Bal_rd fun st => ?_
    split
    · exact Bal_wr (Bal_bind indicate_open_complete_zero fun _ => rfl)
    · rfl

theorem decode_round_zero : Zero x (decode_round h) := by
  refine Bal_rd fun ssl => Bal_noneB rfl (fun _ _ => rfl) fun n => ?_
  dsimp only
  split
  · refine Bal_rd fun fn => ?_
    split
    · rfl
    · exact Bal_rd fun ctx => Bal_none rfl (fun _ _ => rfl) fun n => rfl
  · rfl

theorem recv_round_zero : Zero x (recv_round h) := by
  refine Bal_rd fun count => ?_
  split
  · refine Bal_rd fun io => Bal_none rfl (fun _ _ => rfl) fun n => Bal_rd fun st => ?_
    split <;> rfl
  · rfl

/-! ### The functions that cannot be interrupted -/

theorem Shut_rd {f : Inst → Option α} {k : α → P β} (hk : ∀ v, Shut (sys std) (k v)) :
    Shut (sys std) (rd h f >>= k) := by
  intro i
  show Shut _ (Prog.bind (match f i with | none => .ub | some v => .ret v) k)
  split
  · exact trivial
  · exact hk _

theorem Shut_wr {f : Inst → Inst} {k : Unit → P β} (hk : Shut (sys std) (k ())) :
    Shut (sys std) (wr h f >>= k) := hk

theorem Shut_call {o : Op} {k : Int → P β} (ho : reenters o = false)
    (hk : ∀ n, Shut (sys std) (k n)) : Shut (sys std) (call h o >>= k) :=
  ⟨ho, fun n _ => hk n⟩

theorem Shut_callP {o : Op} {k : Nat → P β} (ho : reenters o = false)
    (hk : ∀ n, Shut (sys std) (k n)) : Shut (sys std) (callP h o >>= k) :=
  ⟨ho, fun n _ => hk n.toNat⟩

theorem drop1_shut : Shut (sys std) (drop1 h) :=
  Shut_rd fun _ => Shut_call rfl fun _ => Shut_call rfl fun _ => trivial

theorem create_set_shut : Shut (sys std) (create_set h) :=
  Shut_wr (Shut_wr (Shut_wr (Shut_wr (Shut_rd fun _ => Shut_call rfl fun _ => Shut_rd fun _ =>
    Shut_call rfl fun _ => Shut_rd fun _ => Shut_call rfl fun _ => Shut_rd fun _ =>
    Shut_call rfl fun _ => Shut_rd fun _ => Shut_call rfl fun _ => Shut_rd fun _ =>
    Shut_call rfl fun _ => trivial))))

theorem create_io_shut {lg : Nat} {cfg : Config} : Shut (sys std) (create_io h cfg lg) := by
  refine Shut_callP rfl fun _ => ?_
  split
  · exact drop1_shut
  · refine Shut_callP rfl fun _ => Shut_wr ?_
    split
    · exact drop1_shut
    · refine Shut_rd fun _ => Shut_callP rfl fun _ => Shut_wr ?_
      split
      · exact drop1_shut
      · exact create_set_shut

theorem body_shut {c : Call} (hc : c.plain = false) : Shut (sys std) (body c) := by
  cases c with
  | create cfg lg =>
    show Shut _ (tlsio_wolfssl_create cfg lg)
    cases cfg with
    | none => exact trivial
    | some cfg =>
      refine Shut_callP rfl fun p => ?_
      split
      · exact trivial
      · show Shut (sys std) (wr p (fun i => { i with on_bytes_received := some 0 }) >>= _)
        refine Shut_wr (Shut_wr (Shut_wr (Shut_wr (Shut_wr (Shut_wr (Shut_wr (Shut_wr (Shut_wr
          ?_))))))))
        refine Shut_callP (h := p) rfl fun ctx => Shut_wr (h := p) ?_
        split
        · exact Shut_call rfl fun _ => trivial
        · exact create_io_shut
  | destroy h =>
    refine Shut.bind _ _ ?_ fun _ => trivial
    unfold tlsio_wolfssl_destroy
    split
    · exact trivial
    · refine Shut_rd fun _ => Shut_call rfl fun _ => Shut_rd fun _ => Shut_call rfl fun _ =>
        Shut.bind _ _ ?_ fun _ => Shut_rd fun _ => Shut_call rfl fun _ => Shut_call rfl fun _ => trivial
      refine Shut_rd fun p => ?_
      split
      · exact trivial
      · exact Shut_call rfl fun _ => trivial
  | _ => cases hc

end

/-! ### The books are kept -/

theorem alives_plain {l : List Event} {e : Event} (h : ∀ c r, e = .leave c r → c.plain = true) :
    alives (e :: l) = alives l := by
  cases e with
  | leave c r =>
    have := h c r rfl
    cases c <;> first | rfl | cases this
  | _ => rfl

theorem kept {x : Res} (hx : ∀ p, x ≠ .buf p) :
    Kept (sys std) Claim (held1 x) (due x) Call.plain where
  enter _ := rfl
  leave _ _ := rfl
  nil := rfl
  body _ hc := body_zero hx hc
  loop j := by
    show Zero x (loop j)
    unfold loop
    split
    · exact decode_round_zero
    · exact recv_round_zero
  shut _ hc := body_shut hc
  steady l e hP _ hp := by
    unfold due
    rw [leaks_other hp, owned_other]
    · exact alives_plain hp
    · rintro h' o n bs rfl hm
      exact hP.1 hm
  close l c r hP hl hp := by
    have hL : Leaves l c r := hP.2.2
    rw [total_held, total_held, before_eq]
    unfold due
    cases c with
    | create cfg lg =>
      simp only [Leaves] at hL
      have hv : ∀ h, own x h (view h (.leave (.create cfg lg) r :: l)) = own x h (view h l) := by
        intro h'
        exact own_view (by rintro _ _ _ _ h; cases h)
      unfold owned
      simp only [hv, alives, leaks]
      split
      next hr =>
        rw [if_pos hr] at hL
        have := hL x
        omega
      next hr =>
        rw [if_neg hr] at hL
        have := hL.2.2.2.2.1 x
        rw [List.map_cons, List.sum_cons]
        omega
    | destroy h =>
      simp only [Leaves] at hL
      rw [owned_destroy hl (hL.1.imp id And.left)]
      have := hL.2 x hx
      simp only [leaks]
      omega
    | _ => cases hp

/-! ### The blocks for received bytes -/

theorem buf_next {v : View} {e : Event} (h1 : ∀ c r, e = .leave c r → c.plain = true)
    (h2 : ∀ h p, e ≠ .call h (.freeBuf p)) (h3 : ∀ h p m n bs, e ≠ .ret h (.realloc p m) n bs) :
    (v.next e).buf = v.buf := by
  unfold View.next
  split
  all_goals first
    | rfl
    | exact absurd rfl (h2 _ _)
    | exact absurd rfl (h3 _ _ _ _ _)
    | exact absurd (h1 _ _ rfl) (by simp [Call.plain])
    | skip
  all_goals (repeat' split) <;> rfl

theorem blocks_same {x : Res} {l : List Event} {e : Event} (ha : alives (e :: l) = alives l)
    (hb : ∀ h ∈ alives l, subject e = h → ((view h l).next e).buf = (view h l).buf) :
    blocks x (e :: l) = blocks x l := by
  unfold blocks
  rw [ha]
  congr 1
  refine List.map_congr_left fun h hh => ?_
  by_cases hs : subject e = h
  · rw [view_same hs, hb h hh hs]
  · rw [view_other hs]

theorem sum_change {f g : Nat → Int} {h : Nat} {d : Int} : ∀ {L : List Nat}, L.Nodup → h ∈ L →
    (∀ h' ∈ L, h' ≠ h → f h' = g h') → f h = g h + d → (L.map f).sum = (L.map g).sum + d
  | [], _, hm, _, _ => by cases hm
  | a :: L, hn, hm, hf, hd => by
    have hn' := List.nodup_cons.1 hn
    rw [List.map_cons, List.sum_cons, List.map_cons, List.sum_cons]
    by_cases ha : a = h
    · subst ha
      have : L.map f = L.map g := List.map_congr_left fun h' hh =>
        hf h' (List.mem_cons_of_mem _ hh) (by rintro rfl; exact hn'.1 hh)
      rw [this, hd]
      omega
    · have := sum_change hn'.2 ((List.mem_cons.1 hm).resolve_left (Ne.symm ha))
        (fun h' hh => hf h' (List.mem_cons_of_mem _ hh)) hd
      rw [this, hf a (List.mem_cons_self ..) ha]
      omega

/-- At every moment, the blocks for received bytes that are held are those of the TLS IOs that are
alive. -/
theorem blocks_held {q : Nat} : ∀ {l : List Event}, Holds Claim l →
    held (.buf q) l = blocks (.buf q) l
  | [], _ => rfl
  | e :: l, hl => by
    have ih := blocks_held (q := q) hl.2
    have hn := alives_nodup hl.2
    have plain : ∀ {e}, held1 (.buf q) e = 0 → (∀ c r, e = .leave c r → c.plain = true) →
        (∀ h p, e ≠ .call h (.freeBuf p)) → (∀ h p m n bs, e ≠ .ret h (.realloc p m) n bs) →
        held (.buf q) (e :: l) = blocks (.buf q) (e :: l) := by
      intro e h0 h1 h2 h3
      rw [blocks_same (alives_plain h1) (fun h _ _ => buf_next h1 h2 h3), ← ih, held, h0]
      omega
    have view : ∀ {e} {d : Int}, (∀ c r, e = .leave c r → c.plain = true) → subject e ∈ alives l →
        one (.buf q) .buf ((view (subject e) l).next e).buf =
          one (.buf q) .buf (view (subject e) l).buf + d → held1 (.buf q) e = d →
        held (.buf q) (e :: l) = blocks (.buf q) (e :: l) := by
      intro e d h1 hm h2 h3
      rw [held, h3, ih, blocks, blocks, alives_plain h1]
      have := sum_change (f := fun h => one (.buf q) .buf (Wolf.view h (e :: l)).buf)
        (g := fun h => one (.buf q) .buf (Wolf.view h l).buf) hn hm
        (fun h' _ hne => by rw [view_other (Ne.symm hne)])
        (by rw [view_same rfl]; exact h2)
      omega
    cases e with
    | enter c => exact plain rfl (by simp) (by simp) (by simp)
    | leave c r =>
      have hc := hl.1.2.2
      by_cases hp : c.plain = true
      · exact plain rfl (by rintro _ _ ⟨⟩; exact hp) (by simp) (by simp)
      · cases c with
        | create cfg lg =>
          simp only [Leaves] at hc
          have hs : ∀ h ∈ alives l, Wolf.view h (.leave (.create cfg lg) r :: l) = Wolf.view h l := by
            intro h hh
            refine view_other ?_
            rintro rfl
            have hh : r.toNat ∈ alives l := hh
            split at hc
            next h0 => exact alives_pos hl.2 _ hh (by rw [h0]; rfl)
            · exact hc.2.2.2.1 hh
          have e1 : (alives l).map (fun h => one (.buf q) .buf
                (Wolf.view h (.leave (.create cfg lg) r :: l)).buf) =
              (alives l).map fun h => one (.buf q) .buf (Wolf.view h l).buf :=
            List.map_congr_left fun h hh => by rw [hs h hh]
          rw [held, ih, blocks, blocks, alives]
          split
          · rw [e1]
            exact Int.zero_add _
          · rw [List.map_cons, List.sum_cons, e1,
              view_same (show subject (.leave (.create cfg lg) r) = r.toNat from rfl)]
            rfl
        | destroy h =>
          simp only [Leaves] at hc
          have e1 : ∀ h', one (.buf q) .buf (Wolf.view h' (.leave (.destroy h) r :: l)).buf =
              one (.buf q) .buf (Wolf.view h' l).buf := by
            intro h'
            by_cases hs : subject (.leave (.destroy h) r) = h'
            · rw [view_same hs]; rfl
            · rw [view_other hs]
          rw [held, ih, blocks, blocks, alives]
          simp only [e1]
          rw [sum_filter _ _ hn]
          show 0 + _ = _
          split
          next hm =>
            rcases hc.1 with h0 | h0
            · exact absurd h0 (alives_pos hl.2 _ hm)
            · rw [h0.2]
              simp [one]
          · omega
        | _ => exact absurd rfl hp
    | call h o =>
      by_cases ho : ∃ p, o = .freeBuf p
      · obtain ⟨p, rfl⟩ := ho
        have hc : p = (Wolf.view h l).buf ∧ p ≠ 0 ∧ h ∈ alives l ∧ _ := hl.1.2
        refine view (d := - one (.buf q) .buf p) (by simp) hc.2.2.1 ?_ rfl
        show one (.buf q) .buf ((0 : Nat) : Int) = _
        rw [show subject (.call h (.freeBuf p)) = h from rfl, ← hc.1]
        simp [one]
        omega
      · refine plain ?_ (by simp) (by rintro _ p ⟨⟩; exact ho ⟨p, rfl⟩) (by simp)
        cases o <;> first | rfl | (exact absurd ⟨_, rfl⟩ ho) | simp [held1, one]
    | ret h o n bs =>
      by_cases ho : ∃ p m, o = .realloc p m
      · obtain ⟨p, m, rfl⟩ := ho
        have hc := hl.1.2.1 p m rfl
        refine view (d := if n = 0 then 0 else one (.buf q) .buf n.toNat - one (.buf q) .buf p)
          (by simp) hc.2 ?_ rfl
        rw [show subject (.ret h (.realloc p m) n bs : Event) = h from rfl, hc.1]
        simp only [View.next]
        repeat' split
        all_goals first | (simp; done) | (dsimp only; omega)
      · refine plain ?_ (by simp) (by simp) (by rintro _ p m _ _ ⟨⟩; exact ho ⟨p, m, rfl⟩)
        cases o <;> first | rfl | (exact absurd ⟨_, _, rfl⟩ ho) | simp [held1, one]

/-- Whenever no function is in progress, each resource is held exactly as often as the TLS IOs that
are alive own it, apart from the lower IOs of failed creations. -/
theorem ledger {m : Mach Inst Op Call} (hm : Reachable m) (hs : m.stack = []) (x : Res) :
    held x m.st.log = owned x m.st.log + blocks x m.st.log + leaks x m.st.log := by
  have other : ∀ {y : Nat → Res}, (∀ n, x ≠ y n) → ∀ n, one x y n = 0 := by
    intro y hy n; simp [one, hy]
  by_cases hx : ∃ q, x = .buf q
  · obtain ⟨q, rfl⟩ := hx
    rw [blocks_held (sound.reach hm).holds]
    have h1 : owned (.buf q) m.st.log = 0 := by
      unfold owned own
      simp only [other (y := .mem) (by simp), other (y := .ctx) (by simp),
        other (y := .ssl) (by simp), other (y := .io) (by simp)]
      induction alives m.st.log <;> simp_all
    have h2 : leaks (.buf q) m.st.log = 0 := by
      clear h1 hs hm
      induction m.st.log with
      | nil => rfl
      | cons e l ih =>
        unfold leaks
        split
        · cases ‹_ :: _ = []›
        next he =>
          injection he with _ he
          subst he
          rw [ih, other (y := .io) (by simp)]
          split <;> rfl
        next he =>
          injection he with _ he
          subst he
          exact ih
    omega
  · have hx' : ∀ q, x ≠ .buf q := fun q h => hx ⟨q, h⟩
    have h1 : blocks x m.st.log = 0 := by
      unfold blocks
      simp only [other (y := .buf) hx']
      induction alives m.st.log <;> simp_all
    have := Reach.booked (kept hx') (fun _ hm => (sound.reach hm).holds) hm
      (no_undefined_behaviour hm) hs
    rw [total_held] at this
    unfold due at this
    omega

/-- When all TLS IOs are destroyed, nothing is held apart from lower IOs of failed creations:
memory, blocks for received bytes, contexts and SSL objects are never leaked. -/
theorem all_released_partial {m : Mach Inst Op Call} (hm : Reachable m) (hs : m.stack = [])
    (ha : alives m.st.log = []) (x : Res) :
    held x m.st.log = leaks x m.st.log ∧ ((∀ p, x ≠ .io p) → held x m.st.log = 0) := by
  have h := ledger hm hs x
  have h0 : owned x m.st.log = 0 := by unfold owned; rw [ha]; rfl
  have h1 : blocks x m.st.log = 0 := by unfold blocks; rw [ha]; rfl
  rw [h0, h1, Int.zero_add, Int.zero_add] at h
  refine ⟨h, fun h1 => ?_⟩
  rw [h]
  have hio : ∀ n, one x .io n = 0 := by
    intro n; simp [one, h1]
  clear h h0 ha hs hm
  induction m.st.log with
  | nil => rfl
  | cons e l ih =>
    unfold leaks
    split
    · cases ‹_ :: _ = []›
    next he =>
      injection he with _ he
      subst he
      rw [ih, hio]
      split <;> rfl
    next he =>
      injection he with _ he
      subst he
      exact ih

end Verif.Wolf
