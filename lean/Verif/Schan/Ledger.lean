import Verif.Schan.Claim

/-
C82: what the TLS IOs hold, over whole histories.  Whenever no function is in progress, each
resource is held exactly as often as the TLS IOs that are alive own it, apart from the credential
handles that were overwritten by opening a TLS IO again (`lost`).
-/
namespace Verif.Schan
open Verif.Game

/-- The credential handles that were overwritten: one was acquired for a TLS IO that had one. -/
def lost (x : Res) : List Event → Int
  | [] => 0
  | .ret h .acquire n _ :: l =>
    lost x l + if n.toNat = 0 then 0 else one x .cred ((view h l).cred.getD 0)
  | _ :: l => lost x l

/-- The memory, host names and lower IOs of the TLS IOs that are alive. -/
def owned (x : Res) (l : List Event) : Int := ((alives l).map fun h => own x h (view h l)).sum

/-- What a TLS IO gets when it is opened and bytes come: a credential handle, a block. -/
def got (x : Res) (v : View) : Int := one x .buf v.buf + one x .cred (v.cred.getD 0)

/-- The credential handles and blocks of the TLS IOs that are alive. -/
def gotten (x : Res) (l : List Event) : Int := ((alives l).map fun h => got x (view h l)).sum

/-- A credential handle or a block for received bytes. -/
def Res.loose : Res → Bool
  | .buf _ | .cred _ => true
  | _ => false

/-- The functions that give back what they take. -/
def Call.plain : Call → Bool
  | .create .. | .destroy _ => false
  | _ => true

theorem total_held (x : Res) : ∀ l : List Event, total (held1 x) l = held x l
  | [] => rfl
  | e :: l => by rw [total, held, total_held x l]

theorem before_eq : ∀ l : List Event, before l = beforeEnter l
  | [] => rfl
  | .enter _ :: _ => rfl
  | .leave .. :: l => before_eq l
  | .call .. :: l => before_eq l
  | .ret .. :: l => before_eq l

/-! ### What is due -/

theorem own_next (x : Res) (h : Nat) (v : View) {e : Event}
    (he : ∀ h o n bs, e = .ret h o n bs → o.makes = false) : own x h (v.next e) = own x h v := by
  unfold View.next
  split
  all_goals first
    | rfl
    | (have h := he _ _ _ _ rfl; simp [Op.makes] at h; done)
    | skip
  all_goals (try unfold View.resized)
  all_goals repeat' split
  all_goals rfl

theorem own_view {x : Res} {h : Nat} {l : List Event} {e : Event}
    (he : ∀ h' o n bs, e = .ret h' o n bs → o.makes = true → h' ≠ h) :
    own x h (view h (e :: l)) = own x h (view h l) := by
  by_cases hs : subject e = h
  · rw [view_same hs]
    refine own_next x h _ ?_
    rintro h' o n bs rfl
    cases hm : o.makes with
    | false => rfl
    | true => exact absurd hs (he _ _ _ _ rfl hm)
  · rw [view_other hs]

theorem owned_other {x : Res} {l : List Event} {e : Event} (ha : alives (e :: l) = alives l)
    (he : ∀ h' o n bs, e = .ret h' o n bs → o.makes = true → h' ∉ alives l) :
    owned x (e :: l) = owned x l := by
  unfold owned
  rw [ha]
  congr 1
  refine List.map_congr_left fun h hh => own_view ?_
  rintro h' o n bs rfl hm rfl
  exact he _ _ _ _ rfl hm hh

theorem alives_pos : ∀ {l : List Event}, Holds Claim l → ∀ h ∈ alives l, h ≠ 0
  | [], _ => by simp [alives]
  | e :: l, hl => by
    have ih := alives_pos hl.2
    cases e with
    | leave c r =>
      cases c with
      | create cfg lg =>
        have hc : Leaves l (.create cfg lg) r := hl.1.2.2
        simp only [Leaves] at hc
        simp only [alives]
        split
        · exact ih
        next hr =>
          rw [if_neg hr] at hc
          intro h hh
          rcases List.mem_cons.1 hh with rfl | hh
          · have := hc.2.2.1
            omega
          · exact ih h hh
      | destroy h' =>
        intro h hh
        exact ih h (List.mem_filter.1 hh).1
      | _ => exact ih
    | _ => exact ih

theorem alives_nodup : ∀ {l : List Event}, Holds Claim l → (alives l).Nodup
  | [], _ => by simp [alives]
  | e :: l, hl => by
    have ih := alives_nodup hl.2
    cases e with
    | leave c r =>
      cases c with
      | create cfg lg =>
        have hc : Leaves l (.create cfg lg) r := hl.1.2.2
        simp only [Leaves] at hc
        simp only [alives]
        split
        · exact ih
        next hr =>
          rw [if_neg hr] at hc
          exact List.nodup_cons.2 ⟨hc.2.2.2.1, ih⟩
      | destroy h' => exact ih.sublist List.filter_sublist
      | _ => exact ih
    | _ => exact ih

theorem sum_filter (f : Nat → Int) (h : Nat) : ∀ {L : List Nat}, L.Nodup →
    ((L.filter (· ≠ h)).map f).sum = (L.map f).sum - if h ∈ L then f h else 0
  | [], _ => by simp
  | a :: L, hn => by
    have ih := sum_filter f h (List.nodup_cons.1 hn).2
    by_cases ha : a = h
    · subst ha
      have hna := (List.nodup_cons.1 hn).1
      rw [if_neg hna, Int.sub_zero] at ih
      rw [List.filter_cons_of_neg (by simp), ih]
      simp
      omega
    · rw [List.filter_cons_of_pos (by simpa using ha), List.map_cons, List.sum_cons, ih,
        List.map_cons, List.sum_cons]
      have : (h ∈ a :: L) ↔ h ∈ L := by simp [Ne.symm ha]
      simp only [this]
      omega

theorem owned_destroy {x : Res} {l : List Event} {h : Nat} {r : Int} (hl : Holds Claim l)
    (hh : h = 0 ∨ h ∈ alives l) :
    owned x (.leave (.destroy h) r :: l) = owned x l - if h = 0 then 0 else own x h (view h l) := by
  have hv : ∀ h', own x h' (view h' (.leave (.destroy h) r :: l)) = own x h' (view h' l) := by
    intro h'
    exact own_view (by rintro _ _ _ _ h; cases h)
  unfold owned
  simp only [hv, alives]
  rw [sum_filter _ _ (alives_nodup hl)]
  by_cases h0 : h = 0
  · have : h ∉ alives l := fun hm => alives_pos hl h hm h0
    rw [if_neg this, if_pos h0]
  · rw [if_pos (hh.resolve_left h0), if_neg h0]

/-! ### The functions give back what they take -/

section
variable {α β : Type} {x : Res} {Q : β → Int → Prop} {d : Int} {h : Nat}

local notation "BAL" => Bal (sys std) (held1 x)

theorem Bal_rd {f : Inst → Option α} {k : α → P β} (hk : ∀ v, BAL Q (k v) d) :
    BAL Q (rd h f >>= k) d := by
  intro i
  show BAL Q (Prog.bind (match f i with | none => .ub | some v => .ret v) k) d
  split
  · exact trivial
  · exact hk _

theorem Bal_wr {f : Inst → Inst} {k : Unit → P β} (hk : BAL Q (k ()) d) :
    BAL Q (wr h f >>= k) d := hk

theorem Bal_st {f : List (Option UInt8) → Option (List (Option UInt8))} {k : Unit → P β}
    (hk : BAL Q (k ()) d) : BAL Q (st h f >>= k) d := by
  intro i
  show BAL Q (Prog.bind (match f i.block with
    | none => .ub
    | some b => .modify h (fun i => { i with block := b }) (.ret ())) k) d
  split
  · exact trivial
  · exact hk

/-- A call that takes and gives nothing. -/
theorem Bal_none {o : Op} {k : Int → P β} (h1 : held1 x (.call h o) = 0)
    (h2 : ∀ n bs, held1 x (.ret h o n bs) = 0) (hk : ∀ n, BAL Q (k n) d) :
    BAL Q (call h o >>= k) d := by
  intro _ n bs _
  show BAL Q (k n) (d + held1 x (.call h o) + held1 x (.ret h o n bs))
  rw [h1, h2, Int.add_zero, Int.add_zero]
  exact hk n

theorem Bal_noneP {o : Op} {k : Nat → P β} (h1 : held1 x (.call h o) = 0)
    (h2 : ∀ n bs, held1 x (.ret h o n bs) = 0) (hk : ∀ n, BAL Q (k n) d) :
    BAL Q (callP h o >>= k) d := by
  intro _ n bs _
  show BAL Q (k n.toNat) (d + held1 x (.call h o) + held1 x (.ret h o n bs))
  rw [h1, h2, Int.add_zero, Int.add_zero]
  exact hk _

theorem Bal_noneB {o : Op} {k : Int × Bytes → P β} (h1 : held1 x (.call h o) = 0)
    (h2 : ∀ n bs, held1 x (.ret h o n bs) = 0) (hk : ∀ n, BAL Q (k n) d) :
    BAL Q (callB h o >>= k) d := by
  intro _ n bs _
  show BAL Q (k (n, bs)) (d + held1 x (.call h o) + held1 x (.ret h o n bs))
  rw [h1, h2, Int.add_zero, Int.add_zero]
  exact hk _

theorem Bal_bind {p : P α} {f : α → P β} (hp : BAL (fun _ d' => d' = 0) p d)
    (hf : ∀ a, BAL Q (f a) 0) : BAL Q (p >>= f) d := by
  refine Bal.bind _ _ _ (Bal.mono ?_ _ _ hp)
  rintro a d' rfl
  exact hf a

/-- It takes nothing for long. -/
abbrev Zero (x : Res) (p : P α) : Prop := Bal (sys std) (held1 x) (fun _ d => d = 0) p 0

theorem indicate_error_zero : Zero x (indicate_error h) := by
  refine Bal_rd fun fn => ?_
  split
  · rfl
  · exact Bal_rd fun ctx => Bal_none rfl (fun _ _ => rfl) fun n => rfl

theorem fail_zero : Zero x (fail h) := Bal_wr indicate_error_zero

theorem indicate_open_complete_zero {r : OpenResult} : Zero x (indicate_open_complete h r) := by
  refine Bal_rd fun fn => ?_
  split
  · rfl
  · exact Bal_rd fun ctx => Bal_none rfl (fun _ _ => rfl) fun n => rfl

theorem fail_open_zero : Zero x (fail_open h) := Bal_wr indicate_open_complete_zero

theorem indicate_close_complete_zero : Zero x (indicate_close_complete h) := by
  refine Bal_rd fun fn => ?_
  split
  · rfl
  · exact Bal_rd fun ctx => Bal_none rfl (fun _ _ => rfl) fun n => rfl

theorem one_buf (hx : x.loose = false) (n : Int) : one x .buf n = 0 := by
  cases x <;> first | (cases hx; done) | simp [one]

theorem one_cred (hx : x.loose = false) (n : Int) : one x .cred n = 0 := by
  cases x <;> first | (cases hx; done) | simp [one]

theorem realloc_none (hx : x.loose = false) {s : Site} {p m : Nat} (n : Int) (bs : Bytes) :
    held1 x (.ret h (.realloc s p m) n bs) = 0 := by
  simp only [held1, one_buf hx]
  split <;> rfl

theorem acquire_none (hx : x.loose = false) (n : Int) (bs : Bytes) :
    held1 x (.ret h .acquire n bs) = 0 := one_cred hx _

theorem set_receive_buffer_zero (hx : x.loose = false) {s : Site} {n : Nat} :
    Zero x (set_receive_buffer h s n) := by
  refine Bal_rd fun p => ?_
  split
  · trivial
  · refine Bal_noneP rfl (realloc_none hx) fun q => ?_
    split
    · rfl
    · exact Bal_st (Bal_wr (Bal_wr rfl))

theorem resize_receive_buffer_zero (hx : x.loose = false) {s : Site} {n : Nat} :
    Zero x (resize_receive_buffer h s n) := by
  refine Bal_rd fun p => ?_
  split
  · exact set_receive_buffer_zero hx
  · rfl

theorem fit_zero (hx : x.loose = false) {s : Site} : Zero x (fit h s) :=
  Bal_rd fun _ => Bal_rd fun _ => set_receive_buffer_zero hx

theorem need_more_zero (hx : x.loose = false) {s : Site} {n : Int} : Zero x (need_more h s n) :=
  Bal_wr (Bal_rd fun _ => Bal_rd fun _ => resize_receive_buffer_zero hx)

theorem consume_zero {n : Int} : Zero x (consume h n) := by
  refine Bal_rd fun count => ?_
  dsimp only
  split
  · exact Bal_wr (Bal_wr rfl)
  · exact Bal_st (Bal_wr (Bal_wr rfl))

theorem send_hello_zero (hx : x.loose = false) {bs : Bytes} : Zero x (send_hello h bs) := by
  refine Bal_rd fun io => Bal_none rfl (fun _ _ => rfl) fun n => ?_
  split
  · exact fail_zero
  · refine Bal_wr (Bal_rd fun _ => Bal_rd fun _ => Bal_bind (resize_receive_buffer_zero hx) fun b => ?_)
    split
    · rfl
    · exact fail_zero

theorem uOpen_zero (hx : x.loose = false) {r : OpenResult} :
    Zero x (on_underlying_io_open_complete h r) := by
  refine Bal_rd fun st => ?_
  split
  · exact fail_zero
  · refine Bal_noneP rfl (acquire_none hx) fun n => ?_
    split
    · exact fail_zero
    · refine Bal_wr (Bal_wr (Bal_rd fun _ => Bal_rd fun _ => Bal_noneB rfl (fun _ _ => rfl) fun n => ?_))
      dsimp only
      split
      · rfl
      · refine Bal_noneP rfl (fun _ _ => rfl) fun n => Bal_wr ?_
        split
        · exact send_hello_zero hx
        · rfl

theorem hs_next_zero (hx : x.loose = false) {m : Nat} : Zero x (hs_next h m) := by
  refine Bal_none rfl (fun _ _ => rfl) fun n => Bal_bind consume_zero fun _ =>
    Bal_bind (fit_zero hx) fun b => ?_
  split
  · rfl
  · exact fail_open_zero

theorem handshake_zero (hx : x.loose = false) : Zero x (handshake h) := by
  refine Bal_rd fun count => Bal_rd fun bs => Bal_rd fun _ => Bal_rd fun _ => Bal_rd fun _ =>
    Bal_noneB rfl (fun _ _ => rfl) fun n => ?_
  dsimp only
  split
  · refine Bal_none rfl (fun _ _ => rfl) fun n => Bal_bind (need_more_zero hx) fun b => ?_
    split
    · rfl
    · exact fail_open_zero
  · split
    · refine Bal_none rfl (fun _ _ => rfl) fun n => Bal_bind consume_zero fun _ =>
        Bal_bind (fit_zero hx) fun b => ?_
      split
      · exact Bal_wr indicate_open_complete_zero
      · exact fail_open_zero
    · split
      · split
        · refine Bal_rd fun _ => Bal_none rfl (fun _ _ => rfl) fun n => ?_
          split
          · exact fail_open_zero
          · exact hs_next_zero hx
        · exact hs_next_zero hx
      · split
        · exact fail_open_zero
        · rfl

theorem data_next_zero (hx : x.loose = false) {a b : Bytes} : Zero x (data_next h a b) := by
  refine Bal_none rfl (fun _ _ => rfl) fun n => Bal_bind consume_zero fun _ =>
    Bal_bind (fit_zero hx) fun b => ?_
  split
  · rfl
  · exact fail_zero

theorem data_zero (hx : x.loose = false) : Zero x (data h) := by
  refine Bal_rd fun count => Bal_rd fun bs => Bal_rd fun _ => Bal_noneB rfl (fun _ _ => rfl) fun n => ?_
  dsimp only
  refine Bal_st ?_
  split
  · refine Bal_none rfl (fun _ _ => rfl) fun n => Bal_bind (need_more_zero hx) fun b => ?_
    split
    · rfl
    · exact fail_zero
  · split
    · refine Bal_noneB rfl (fun _ _ => rfl) fun n => ?_
      split
      · exact fail_zero
      · refine Bal_rd fun fn => ?_
        split
        · exact data_next_zero hx
        · exact Bal_rd fun _ => Bal_none rfl (fun _ _ => rfl) fun _ => data_next_zero hx
    · rfl

theorem use_zero (hx : x.loose = false) {n : Nat} : Zero x (use h n) := by
  refine Bal_rd fun need => Bal_wr (Bal_rd fun st => ?_)
  split
  · refine Bal_rd fun _ => ?_
    split
    · exact handshake_zero hx
    · rfl
  · refine Bal_rd fun _ => ?_
    split
    · exact data_zero hx
    · rfl
  · rfl

theorem uBytes_zero (hx : x.loose = false) {bs : Bytes} :
    Zero x (on_underlying_io_bytes_received h bs) := by
  refine Bal_rd fun count => Bal_bind (resize_receive_buffer_zero hx) fun b => ?_
  split
  · exact Bal_st (Bal_wr (use_zero hx))
  · rfl

/-- The buffer for a record is given back. -/
theorem send_chunk_zero {null : Bool} {bs : Bytes} {fn ctx : Nat} :
    Zero x (send_chunk h null bs fn ctx) := by
  unfold send_chunk
  split
  · rfl
  · refine Bal_rd fun st => ?_
    split
    · rfl
    · refine Bal_rd fun _ => Bal_none rfl (fun _ _ => rfl) fun n => ?_
      split
      · rfl
      · refine Bal_noneP rfl (fun _ _ => rfl) fun hdr => Bal_noneP rfl (fun _ _ => rfl) fun trl => ?_
        intro _ n bs' hv
        have hp : (0 : Int) ≤ n := by simpa [sys, valid, isPtr] using hv
        show BAL _ (if n.toNat = 0 then pure false
          else send_record h n.toNat hdr bs trl fn ctx) (0 + 0 + one x .out n)
        split
        next h0 =>
          have : n = 0 := by omega
          subst this
          show (0 : Int) + 0 + one x .out 0 = 0
          simp [one]
        next h0 =>
          have hn : one x .out n = one x .out (n.toNat : Int) := by
            rw [Int.toNat_of_nonneg hp]
          rw [hn]
          refine Bal_rd fun _ => Bal_noneB rfl (fun _ _ => rfl) fun r => ?_
          dsimp only
          have hfree : ∀ {k : Int → P Bool}, (∀ n, k n = pure true ∨ k n = pure false) →
              BAL (fun _ d => d = 0) (call h (.freeOut n.toNat) >>= k)
                (0 + 0 + one x .out (n.toNat : Int)) := by
            intro k hk _ m bs _
            show BAL _ (k m) (0 + 0 + one x .out (n.toNat : Int) + - one x .out (n.toNat : Int) + 0)
            rcases hk m with hk | hk <;> rw [hk] <;> show _ = (0 : Int) <;> omega
          split
          · exact hfree fun _ => .inr rfl
          · refine Bal_rd fun _ => Bal_none rfl (fun _ _ => rfl) fun r => hfree fun _ => ?_
            cases r == 0
            · exact .inr rfl
            · exact .inl rfl

theorem send_zero {null : Bool} {fn ctx : Nat} : ∀ (k : Nat) {bs : Bytes}, bs.length ≤ k →
    Zero x (tlsio_schannel_send h null bs fn ctx)
  | 0, bs, hk => by
    rw [tlsio_schannel_send, dif_neg (by omega)]
    rfl
  | k + 1, bs, hk => by
    rw [tlsio_schannel_send]
    split
    · refine Bal_bind send_chunk_zero fun b => ?_
      split
      · refine send_zero k ?_
        simp only [List.length_drop]
        split <;> omega
      · rfl
    · rfl

theorem body_zero (hx : x.loose = false) {c : Call} (hc : c.plain = true) : Zero x (body c) := by
  cases c with
  | create => cases hc
  | destroy => cases hc
  | «open» h cbs =>
    show Zero x (tlsio_schannel_open h cbs)
    unfold tlsio_schannel_open
    split
    · rfl
    · refine Bal_rd fun st => ?_
      split
      · rfl
      · refine Bal_wr (Bal_wr (Bal_wr (Bal_wr (Bal_wr (Bal_wr (Bal_wr ?_))))))
        refine Bal_rd fun io => Bal_none rfl (fun _ _ => rfl) fun n => ?_
        split <;> rfl
  | close h fn ctx =>
    show Zero x (tlsio_schannel_close h fn ctx)
    unfold tlsio_schannel_close
    split
    · rfl
    · refine Bal_rd fun st => ?_
      split
      · rfl
      · refine Bal_wr (Bal_wr (Bal_wr ?_))
        refine Bal_rd fun io => Bal_none rfl (fun _ _ => rfl) fun n => ?_
        split <;> rfl
  | send h null bs fn ctx => exact send_zero bs.length (Nat.le_refl _)
  | dowork h =>
    refine Bal_bind ?_ fun _ => rfl
    unfold tlsio_schannel_dowork
    split
    · rfl
    · exact Bal_rd fun io => Bal_none rfl (fun _ _ => rfl) fun n => rfl
  | setoption h name v =>
    show Zero x (tlsio_schannel_setoption h name v)
    unfold tlsio_schannel_setoption
    cases name with
    | none => rfl
    | some name =>
      dsimp only
      split
      · rfl
      · refine Bal_rd fun io => ?_
        exact fun _ n bs _ => rfl
  | uOpen h r => exact Bal_bind (uOpen_zero hx) fun _ => rfl
  | uClose h =>
    refine Bal_bind ?_ fun _ => rfl
    refine Bal_rd fun st => ?_
    split
    · exact Bal_wr indicate_close_complete_zero
    · rfl
  | uError h =>
    refine Bal_bind ?_ fun _ => rfl
    refine Bal_rd fun st => ?_
    split
    · exact fail_open_zero
    · exact fail_open_zero
    · exact fail_open_zero
    · exact Bal_wr indicate_close_complete_zero
    · exact fail_zero
    · rfl
  | uBytes h bs => exact Bal_wr (Bal_bind (uBytes_zero hx) fun _ => Bal_wr rfl)

/-! ### The functions that cannot be interrupted -/

theorem Shut_rd {f : Inst → Option α} {k : α → P β} (hk : ∀ v, Shut (sys std) (k v)) :
    Shut (sys std) (rd h f >>= k) := by
  intro i
  show Shut _ (Prog.bind (match f i with | none => .ub | some v => .ret v) k)
  split
  · exact trivial
  · exact hk _

theorem Shut_wr {f : Inst → Inst} {k : Unit → P β} (hk : Shut (sys std) (k ())) :
    Shut (sys std) (wr h f >>= k) := hk

theorem Shut_call {o : Op} {k : Int → P β} (ho : reenters o = false)
    (hk : ∀ n, Shut (sys std) (k n)) : Shut (sys std) (call h o >>= k) :=
  ⟨ho, fun n _ => hk n⟩

theorem Shut_callP {o : Op} {k : Nat → P β} (ho : reenters o = false)
    (hk : ∀ n, Shut (sys std) (k n)) : Shut (sys std) (callP h o >>= k) :=
  ⟨ho, fun n _ => hk n.toNat⟩

theorem drop1_shut : Shut (sys std) (drop1 h) :=
  Shut_rd fun _ => Shut_call rfl fun _ => Shut_call rfl fun _ => trivial

theorem create_io_shut {lg : Nat} {cfg : Config} : Shut (sys std) (create_io h cfg lg) := by
  refine Shut_rd fun _ => Shut_call rfl fun _ => Shut_callP rfl fun _ => ?_
  split
  · exact drop1_shut
  · refine Shut_callP rfl fun _ => Shut_wr ?_
    split
    · exact drop1_shut
    · exact Shut_wr (Shut_wr (Shut_wr (Shut_wr trivial)))

theorem body_shut {c : Call} (hc : c.plain = false) : Shut (sys std) (body c) := by
  cases c with
  | create cfg lg =>
    show Shut _ (tlsio_schannel_create cfg lg)
    cases cfg with
    | none => exact trivial
    | some cfg =>
      refine Shut_callP rfl fun p => ?_
      split
      · exact trivial
      · show Shut (sys std) (wr p (fun i => { i with on_bytes_received := some 0 }) >>= _)
        refine Shut_wr (Shut_wr (Shut_wr (Shut_wr (Shut_wr (Shut_wr (Shut_wr (Shut_wr (Shut_wr
          (Shut_wr ?_)))))))))
        refine Shut_callP (h := p) rfl fun host => Shut_wr (h := p) ?_
        split
        · exact Shut_call rfl fun _ => trivial
        · exact create_io_shut
  | destroy h =>
    refine Shut.bind _ _ ?_ fun _ => trivial
    unfold tlsio_schannel_destroy
    split
    · exact trivial
    · refine Shut.bind _ _ ?_ fun _ => Shut.bind _ _ ?_ fun _ => Shut_rd fun _ =>
        Shut_call rfl fun _ => Shut_rd fun _ => Shut_call rfl fun _ => Shut_call rfl fun _ => trivial
      · refine Shut_rd fun p => ?_
        split
        · exact Shut_rd fun _ => Shut_call rfl fun _ => trivial
        · exact trivial
      · refine Shut_rd fun p => ?_
        split
        · exact trivial
        · exact Shut_call rfl fun _ => trivial
  | _ => cases hc

end

/-! ### The books are kept -/

theorem alives_plain {l : List Event} {e : Event} (h : ∀ c r, e = .leave c r → c.plain = true) :
    alives (e :: l) = alives l := by
  cases e with
  | leave c r =>
    have := h c r rfl
    cases c <;> first | rfl | cases this
  | _ => rfl

theorem kept {x : Res} (hx : x.loose = false) :
    Kept (sys std) Claim (held1 x) (owned x) Call.plain where
  enter _ := rfl
  leave _ _ := rfl
  nil := rfl
  body _ hc := body_zero hx hc
  loop j := rfl
  shut _ hc := body_shut hc
  steady l e hP _ hp := by
    rw [owned_other]
    · exact alives_plain hp
    · rintro h' o n bs rfl hm
      exact hP.1 hm
  close l c r hP hl hp := by
    have hL : Leaves l c r := hP.2.2
    rw [total_held, total_held, before_eq]
    cases c with
    | create cfg lg =>
      simp only [Leaves] at hL
      have hv : ∀ h, own x h (view h (.leave (.create cfg lg) r :: l)) = own x h (view h l) := by
        intro h'
        exact own_view (by rintro _ _ _ _ h; cases h)
      unfold owned
      simp only [hv, alives]
      split
      next hr =>
        rw [if_pos hr] at hL
        have := hL x
        omega
      next hr =>
        rw [if_neg hr] at hL
        have := hL.2.2.2.2.1 x
        rw [List.map_cons, List.sum_cons]
        omega
    | destroy h =>
      simp only [Leaves] at hL
      rw [owned_destroy hl (hL.1.imp id And.left)]
      have := hL.2 x (by rintro p rfl; cases hx) (by rintro p rfl; cases hx)
      omega
    | _ => cases hp

/-! ### The credential handles and the blocks for received bytes -/

/-- The events that change them. -/
def Changes : Event → Bool
  | .leave (.create ..) _ | .leave (.destroy _) _ | .call _ (.freeBuf _) | .call _ (.freeCred _)
  | .ret _ (.realloc ..) _ _ | .ret _ .acquire _ _ => true
  | _ => false

theorem got_next {x : Res} {v : View} {e : Event} (he : Changes e = false) :
    got x (v.next e) = got x v := by
  unfold View.next
  split
  all_goals first
    | rfl
    | (simp [Changes] at he; done)
    | skip
  all_goals repeat' split
  all_goals rfl

theorem lost_other {x : Res} {l : List Event} {e : Event}
    (he : ∀ h n bs, e ≠ .ret h .acquire n bs) : lost x (e :: l) = lost x l := by
  rw [lost]
  exact he

theorem sum_change {f g : Nat → Int} {h : Nat} {d : Int} : ∀ {L : List Nat}, L.Nodup → h ∈ L →
    (∀ h' ∈ L, h' ≠ h → f h' = g h') → f h = g h + d → (L.map f).sum = (L.map g).sum + d
  | [], _, hm, _, _ => by cases hm
  | a :: L, hn, hm, hf, hd => by
    have hn' := List.nodup_cons.1 hn
    rw [List.map_cons, List.sum_cons, List.map_cons, List.sum_cons]
    by_cases ha : a = h
    · subst ha
      have : L.map f = L.map g := List.map_congr_left fun h' hh =>
        hf h' (List.mem_cons_of_mem _ hh) (by rintro rfl; exact hn'.1 hh)
      rw [this, hd]
      omega
    · have := sum_change hn'.2 ((List.mem_cons.1 hm).resolve_left (Ne.symm ha))
        (fun h' hh => hf h' (List.mem_cons_of_mem _ hh)) hd
      rw [this, hf a (List.mem_cons_self ..) ha]
      omega

/-- At every moment, the credential handles and blocks that are held are those of the TLS IOs that are
alive, and the credential handles that were overwritten. -/
theorem gotten_held {x : Res} (hx : x.loose = true) : ∀ {l : List Event}, Holds Claim l →
    held x l = gotten x l + lost x l
  | [], _ => rfl
  | e :: l, hl => by
    have ih := gotten_held hx hl.2
    have hn := alives_nodup hl.2
    have plain : ∀ {e}, Changes e = false → held x (e :: l) = gotten x (e :: l) + lost x (e :: l) := by
      intro e h0
      have h1 : held1 x e = 0 := by
        unfold held1
        split
        all_goals first
          | rfl
          | (simp [Changes] at h0; done)
          | (cases x <;> first | (cases hx; done) | simp [one])
      rw [held, h1, ih, lost_other (by rintro _ _ _ rfl; cases h0)]
      have h2 : alives (e :: l) = alives l := alives_plain (by
        rintro c r rfl
        cases c <;> first | rfl | cases h0)
      have h3 : gotten x (e :: l) = gotten x l := by
        unfold gotten
        rw [h2]
        congr 1
        refine List.map_congr_left fun h hh => ?_
        by_cases hs : subject e = h
        · rw [view_same hs, got_next h0]
        · rw [view_other hs]
      rw [h3]
      omega
    have part : ∀ {e} {d d' : Int}, alives (e :: l) = alives l → subject e ∈ alives l →
        got x ((view (subject e) l).next e) = got x (view (subject e) l) + d → held1 x e = d + d' →
        lost x (e :: l) = lost x l + d' →
        held x (e :: l) = gotten x (e :: l) + lost x (e :: l) := by
      intro e d d' h1 hm h2 h3 h4
      rw [held, h3, ih, gotten, gotten, h1, h4]
      have := sum_change (f := fun h => got x (view h (e :: l)))
        (g := fun h => got x (view h l)) hn hm
        (fun h' _ hne => by rw [view_other (Ne.symm hne)])
        (by rw [view_same rfl]; exact h2)
      omega
    by_cases hch : Changes e = false
    · exact plain hch
    cases e with
    | enter c => exact absurd rfl hch
    | leave c r =>
      have hc := hl.1.2.2
      cases c with
      | create cfg lg =>
        simp only [Leaves] at hc
        have hs : ∀ h ∈ alives l, view h (.leave (.create cfg lg) r :: l) = view h l := by
          intro h hh
          refine view_other ?_
          rintro rfl
          have hh : r.toNat ∈ alives l := hh
          split at hc
          next h0 => exact alives_pos hl.2 _ hh (by rw [h0]; rfl)
          · exact hc.2.2.2.1 hh
        have e1 : (alives l).map (fun h => got x (view h (.leave (.create cfg lg) r :: l))) =
            (alives l).map fun h => got x (view h l) :=
          List.map_congr_left fun h hh => by rw [hs h hh]
        rw [held, ih, gotten, gotten, alives, lost_other (by simp)]
        split
        · rw [e1]
          exact Int.zero_add _
        · rw [List.map_cons, List.sum_cons, e1,
            view_same (show subject (.leave (.create cfg lg) r) = r.toNat from rfl)]
          rw [show got x ((view r.toNat l).next (.leave (.create cfg lg) r)) = 0 by
            simp [got, View.next, one]]
          rw [show held1 x (.leave (.create cfg lg) r) = 0 from rfl]
          omega
      | destroy h =>
        simp only [Leaves] at hc
        have e1 : ∀ h', got x (view h' (.leave (.destroy h) r :: l)) = got x (view h' l) := by
          intro h'
          by_cases hs : subject (.leave (.destroy h) r) = h'
          · rw [view_same hs]; rfl
          · rw [view_other hs]
        rw [held, ih, gotten, gotten, alives, lost_other (by simp)]
        simp only [e1]
        rw [sum_filter _ _ hn, show held1 x (.leave (.destroy h) r) = 0 from rfl]
        split
        next hm =>
          rcases hc.1 with h0 | h0
          · exact absurd h0 (alives_pos hl.2 _ hm)
          · rw [got, h0.2.1, h0.2.2]
            simp [one]
        · omega
      | _ => exact absurd rfl hch
    | call h o =>
      have hC := hl.1.2
      cases o with
      | freeBuf p =>
        have hc : p = (view h l).buf ∧ p ≠ 0 ∧ h ∈ alives l ∧ _ := hC
        refine part (d := - one x .buf p) (d' := 0) rfl hc.2.2.1 ?_ (by simp [held1])
          (by rw [lost_other (by simp)]; omega)
        show got x ((view h l).next (.call h (.freeBuf p))) = got x (view h l) + _
        simp only [got, View.next, ← hc.1]
        simp [one]
        omega
      | freeCred p =>
        have hc : (view h l).cred = some p ∧ h ∈ alives l ∧ _ := hC
        refine part (d := - one x .cred p) (d' := 0) rfl hc.2.1 ?_ (by simp [held1])
          (by rw [lost_other (by simp)]; omega)
        show got x ((view h l).next (.call h (.freeCred p))) = got x (view h l) + _
        simp only [got, View.next, hc.1]
        simp [one]
        omega
      | _ => exact absurd rfl hch
    | ret h o n bs =>
      have hC := hl.1
      cases o with
      | realloc s p m =>
        have hc := hC.2.1 s p m rfl
        refine part (d := if n = 0 then 0 else one x .buf n.toNat - one x .buf p) (d' := 0)
          rfl hc.2 ?_ (by simp [held1]) (by rw [lost_other (by simp)]; omega)
        show got x ((view h l).next (.ret h (.realloc s p m) n bs)) = got x (view h l) + _
        rw [hc.1]
        simp only [View.next, View.resized]
        split
        · cases s <;> simp [got]
        · cases s <;> simp only [got, View.absorb] <;> omega
      | acquire =>
        have hm := hC.2.2.1 rfl
        by_cases h0 : n.toNat = 0
        · refine part (d := 0) (d' := 0) rfl hm ?_ ?_ ?_
          · show got x ((view h l).next (.ret h .acquire n bs)) = got x (view h l) + 0
            simp [View.next, h0, got]
          · show one x .cred n.toNat = 0 + 0
            rw [h0]
            simp [one]
          · rw [lost]; simp [h0]
        · refine part (d := one x .cred n.toNat - one x .cred ((view h l).cred.getD 0))
            (d' := one x .cred ((view h l).cred.getD 0)) rfl hm ?_ ?_ ?_
          · show got x ((view h l).next (.ret h .acquire n bs)) = got x (view h l) + _
            simp only [View.next, if_neg h0, got, Option.getD_some]
            omega
          · show one x .cred n.toNat = _
            omega
          · rw [lost, if_neg h0]
      | _ => exact absurd rfl hch

/-- Whenever no function is in progress, each resource is held exactly as often as the TLS IOs that
are alive own it, apart from the credential handles that were overwritten. -/
theorem ledger {m : Mach Inst Op Call} (hm : Reachable m) (hs : m.stack = []) (x : Res) :
    held x m.st.log = owned x m.st.log + gotten x m.st.log + lost x m.st.log := by
  cases hx : x.loose with
  | true =>
    have h1 : owned x m.st.log = 0 := by
      have h0 : ∀ h v, own x h v = 0 := by
        intro h v
        cases x <;> first | (cases hx; done) | simp [own, one]
      unfold owned
      simp only [h0]
      induction alives m.st.log <;> simp_all
    rw [gotten_held hx (sound.reach hm).holds]
    omega
  | false =>
    have h1 : gotten x m.st.log = 0 := by
      unfold gotten got
      simp only [one_buf hx, one_cred hx]
      induction alives m.st.log <;> simp_all
    have h2 : lost x m.st.log = 0 := by
      clear h1 hs hm
      induction m.st.log with
      | nil => rfl
      | cons e l ih =>
        unfold lost
        split
        · cases ‹_ :: _ = []›
        next he =>
          injection he with _ he
          subst he
          rw [ih, one_cred hx]
          split <;> rfl
        next he =>
          injection he with _ he
          subst he
          exact ih
    have := Reach.booked (kept hx) (fun _ hm => (sound.reach hm).holds) hm
      (no_undefined_behaviour hm) hs
    rw [total_held] at this
    omega

/-- When all TLS IOs are destroyed, nothing is held apart from credential handles that were
overwritten by opening a TLS IO again. -/
theorem all_released_partial {m : Mach Inst Op Call} (hm : Reachable m) (hs : m.stack = [])
    (ha : alives m.st.log = []) (x : Res) :
    held x m.st.log = lost x m.st.log ∧ ((∀ p, x ≠ .cred p) → held x m.st.log = 0) := by
  have h := ledger hm hs x
  have h0 : owned x m.st.log = 0 := by unfold owned; rw [ha]; rfl
  have h1 : gotten x m.st.log = 0 := by unfold gotten; rw [ha]; rfl
  rw [h0, h1, Int.zero_add, Int.zero_add] at h
  refine ⟨h, fun h1 => ?_⟩
  rw [h]
  have hc : ∀ n, one x .cred n = 0 := by
    intro n; simp [one, h1]
  clear h h0 ha hs hm
  induction m.st.log with
  | nil => rfl
  | cons e l ih =>
    unfold lost
    split
    · cases ‹_ :: _ = []›
    next he =>
      injection he with _ he
      subst he
      rw [ih, hc]
      split <;> rfl
    next he =>
      injection he with _ he
      subst he
      exact ih

end Verif.Schan
