import Verif.Tls.Claim

/-
C60: what the TLS IOs hold, over whole histories.  Whenever no function is in progress, each
resource is held exactly as often as the TLS IOs that are alive own it, apart from the two kinds of
leaks `leaks` counts: the lower IO of a creation that failed, and the certificate of a
`TrustedCerts` option that was set.
-/
namespace Verif.Tls
open Verif.Game

/-- What the code is known to leak. -/
def leaks (x : Res) : List Event → Int
  | [] => 0
  | .leave (.create ..) r :: l => leaks x l + if r = 0 then one x .io (newIo l) else 0
  | .leave (.setoption _ (some name) _) r :: l =>
    leaks x l + if name = trustedCerts ∧ r = 0 then one x .cert (newCert l) else 0
  | _ :: l => leaks x l

/-- What the TLS IOs that are alive own. -/
def owned (x : Res) (l : List Event) : Int := ((alives l).map fun h => own x h (view h l)).sum

/-- What should be held. -/
def due (x : Res) (l : List Event) : Int := owned x l + leaks x l

/-- The functions that give back what they take. -/
def Call.plain : Call → Bool
  | .create .. | .destroy _ => false
  | .setoption _ (some name) _ => name != trustedCerts
  | _ => true

theorem total_held (x : Res) : ∀ l : List Event, total (held1 x) l = held x l
  | [] => rfl
  | e :: l => by rw [total, held, total_held x l]

theorem before_eq : ∀ l : List Event, before l = beforeEnter l
  | [] => rfl
  | .enter _ :: _ => rfl
  | .leave .. :: l => before_eq l
  | .call .. :: l => before_eq l
  | .ret .. :: l => before_eq l

/-! ### What is due -/

theorem own_next (x : Res) (h : Nat) (v : View) {e : Event}
    (he : ∀ h o n bs, e = .ret h o n bs → o.makes = false) : own x h (v.next e) = own x h v := by
  unfold View.next
  split
  all_goals first
    | rfl
    | (have h := he _ _ _ _ rfl; simp [Op.makes] at h; done)
    | skip
  all_goals repeat' split
  all_goals rfl

theorem own_view {x : Res} {h : Nat} {l : List Event} {e : Event}
    (he : ∀ h' o n bs, e = .ret h' o n bs → o.makes = true → h' ≠ h) :
    own x h (view h (e :: l)) = own x h (view h l) := by
  by_cases hs : subject e = h
  · rw [view_same hs]
    refine own_next x h _ ?_
    rintro h' o n bs rfl
    cases hm : o.makes with
    | false => rfl
    | true => exact absurd hs (he _ _ _ _ rfl hm)
  · rw [view_other hs]

theorem owned_other {x : Res} {l : List Event} {e : Event} (ha : alives (e :: l) = alives l)
    (he : ∀ h' o n bs, e = .ret h' o n bs → o.makes = true → h' ∉ alives l) :
    owned x (e :: l) = owned x l := by
  unfold owned
  rw [ha]
  congr 1
  refine List.map_congr_left fun h hh => own_view ?_
  rintro h' o n bs rfl hm rfl
  exact he _ _ _ _ rfl hm hh

theorem leaks_other {x : Res} {l : List Event} {e : Event}
    (h : ∀ c r, e = .leave c r → c.plain = true) : leaks x (e :: l) = leaks x l := by
  cases e with
  | leave c r =>
    have := h c r rfl
    cases c with
    | create => cases this
    | setoption h name v =>
      cases name with
      | none => rfl
      | some name =>
        have hn : name ≠ trustedCerts := by simpa [Call.plain] using this
        simp [leaks, hn]
    | _ => rfl
  | _ => rfl

theorem alives_pos : ∀ {l : List Event}, Holds Claim l → ∀ h ∈ alives l, h ≠ 0
  | [], _ => by simp [alives]
  | e :: l, hl => by
    have ih := alives_pos hl.2
    cases e with
    | leave c r =>
      cases c with
      | create cfg lg =>
        have hc : Leaves l (.create cfg lg) r := hl.1.2
        simp only [Leaves] at hc
        simp only [alives]
        split
        · exact ih
        next hr =>
          rw [if_neg hr] at hc
          intro h hh
          rcases List.mem_cons.1 hh with rfl | hh
          · have := hc.2.2.1
            omega
          · exact ih h hh
      | destroy h' =>
        intro h hh
        exact ih h (List.mem_filter.1 hh).1
      | _ => exact ih
    | _ => exact ih

theorem alives_nodup : ∀ {l : List Event}, Holds Claim l → (alives l).Nodup
  | [], _ => by simp [alives]
  | e :: l, hl => by
    have ih := alives_nodup hl.2
    cases e with
    | leave c r =>
      cases c with
      | create cfg lg =>
        have hc : Leaves l (.create cfg lg) r := hl.1.2
        simp only [Leaves] at hc
        simp only [alives]
        split
        · exact ih
        next hr =>
          rw [if_neg hr] at hc
          exact List.nodup_cons.2 ⟨hc.2.2.2.1, ih⟩
      | destroy h' => exact ih.sublist List.filter_sublist
      | _ => exact ih
    | _ => exact ih

theorem sum_filter (f : Nat → Int) (h : Nat) : ∀ {L : List Nat}, L.Nodup →
    ((L.filter (· ≠ h)).map f).sum = (L.map f).sum - if h ∈ L then f h else 0
  | [], _ => by simp
  | a :: L, hn => by
    have ih := sum_filter f h (List.nodup_cons.1 hn).2
    by_cases ha : a = h
    · subst ha
      have hna := (List.nodup_cons.1 hn).1
      rw [if_neg hna, Int.sub_zero] at ih
      rw [List.filter_cons_of_neg (by simp), ih]
      simp
      omega
    · rw [List.filter_cons_of_pos (by simpa using ha), List.map_cons, List.sum_cons, ih,
        List.map_cons, List.sum_cons]
      have : (h ∈ a :: L) ↔ h ∈ L := by simp [Ne.symm ha]
      simp only [this]
      omega

theorem owned_destroy {x : Res} {l : List Event} {h : Nat} {r : Int} (hl : Holds Claim l)
    (hh : h = 0 ∨ h ∈ alives l) :
    owned x (.leave (.destroy h) r :: l) = owned x l - if h = 0 then 0 else own x h (view h l) := by
  have hv : ∀ h', own x h' (view h' (.leave (.destroy h) r :: l)) = own x h' (view h' l) := by
    intro h'
    exact own_view (by rintro _ _ _ _ h; cases h)
  unfold owned
  simp only [hv, alives]
  rw [sum_filter _ _ (alives_nodup hl)]
  by_cases h0 : h = 0
  · have : h ∉ alives l := fun hm => alives_pos hl h hm h0
    rw [if_neg this, if_pos h0]
  · rw [if_pos (hh.resolve_left h0), if_neg h0]

/-! ### The functions give back what they take -/

section
variable {α β : Type} {x : Res} {Q : β → Int → Prop} {d : Int} {h : Nat}

local notation "BAL" => Bal (sys std) (held1 x)

theorem Bal_rd {f : Inst → Option α} {k : α → P β} (hk : ∀ v, BAL Q (k v) d) :
    BAL Q (rd h f >>= k) d := by
  intro i
  show BAL Q (Prog.bind (match f i with | none => .ub | some v => .ret v) k) d
  split
  · exact trivial
  · exact hk _

theorem Bal_wr {f : Inst → Inst} {k : Unit → P β} (hk : BAL Q (k ()) d) :
    BAL Q (wr h f >>= k) d := hk

theorem Bal_call {o : Op} {k : Int → P β}
    (hk : ∀ n bs, BAL Q (k n) (d + held1 x (.call h o) + held1 x (.ret h o n bs))) :
    BAL Q (call h o >>= k) d := fun _ n bs _ => hk n bs

theorem Bal_callB {o : Op} {k : Int × Bytes → P β}
    (hk : ∀ n bs, BAL Q (k (n, bs)) (d + held1 x (.call h o) + held1 x (.ret h o n bs))) :
    BAL Q (callB h o >>= k) d := fun _ n bs _ => hk n bs

/-- A call that takes and gives nothing. -/
theorem Bal_none {o : Op} {k : Int → P β} (h1 : held1 x (.call h o) = 0)
    (h2 : ∀ n bs, held1 x (.ret h o n bs) = 0) (hk : ∀ n, BAL Q (k n) d) :
    BAL Q (call h o >>= k) d := by
  refine Bal_call fun n bs => ?_
  rw [h1, h2, Int.add_zero, Int.add_zero]
  exact hk n

theorem Bal_bind {p : P α} {f : α → P β} (hp : BAL (fun _ d' => d' = 0) p d)
    (hf : ∀ a, BAL Q (f a) 0) : BAL Q (p >>= f) d := by
  refine Bal.bind _ _ _ (Bal.mono ?_ _ _ hp)
  rintro a d' rfl
  exact hf a

/-- It takes nothing for long. -/
abbrev Zero (x : Res) (p : P α) : Prop := Bal (sys std) (held1 x) (fun _ d => d = 0) p 0

theorem indicate_error_zero : Zero x (indicate_error h) := by
  refine Bal_rd fun fn => ?_
  split
  · rfl
  · exact Bal_rd fun ctx => Bal_none rfl (fun _ _ => rfl) fun n => rfl

theorem indicate_open_complete_zero {r : OpenResult} : Zero x (indicate_open_complete h r) := by
  refine Bal_rd fun fn => ?_
  split
  · rfl
  · exact Bal_rd fun ctx => Bal_none rfl (fun _ _ => rfl) fun n => rfl

/-- The block that was allocated is freed on every way. -/
theorem write_pending_zero {pending : Int} {fn ctx : Nat} : Zero x (write_pending h pending fn ctx) := by
  intro heap n bs hv
  simp only [sys, valid, Bool.and_eq_true] at hv
  have hn : 0 ≤ n := by simpa [isPtr] using hv.1
  obtain ⟨p, rfl⟩ : ∃ p : Nat, n = p := ⟨n.toNat, by omega⟩
  show Bal _ _ _ (if ((p : Int)).toNat = 0 then _ else _) _
  rw [Int.toNat_natCast]
  have e0 : (0 : Int) + held1 x (.call h (.malloc (toSize pending))) +
      held1 x (.ret h (.malloc (toSize pending)) (p : Int) bs) = one x .mem p := by
    simp [held1]
  rw [e0]
  split
  next h0 => subst h0; show one x .mem ((0 : Nat) : Int) = 0; simp [one]
  next h0 =>
    refine Bal_rd fun bio => Bal_callB fun n2 bs2 => ?_
    dsimp only
    have e1 : one x .mem (p : Int) + held1 x (.call h (.bioRead bio p pending)) +
        held1 x (.ret h (.bioRead bio p pending) n2 bs2) = one x .mem (p : Int) := by
      simp [held1]
    rw [e1]
    split
    · refine Bal_call fun n3 bs3 => ?_
      show one x .mem (p : Int) + (- one x .mem (p : Int)) + 0 = 0
      omega
    · refine Bal_rd fun io => Bal_none (by simp only [held1]) (fun _ _ => by simp only [held1]) fun r => ?_
      refine Bal_call fun n3 bs3 => ?_
      have e2 : one x .mem (p : Int) + held1 x (.call h (.free p)) +
          held1 x (.ret h (.free p) n3 bs3) = 0 := by
        simp [held1]; omega
      rw [e2]
      split
      · rfl
      · rfl

attribute [local irreducible] toInt toSize in
theorem write_outgoing_bytes_zero {fn ctx : Nat} : Zero x (write_outgoing_bytes h fn ctx) := by
  refine Bal_rd fun bio => Bal_none rfl (fun _ _ => rfl) fun n => ?_
  split
  · rfl
  · exact write_pending_zero

theorem opened_zero : Zero x (opened h) := Bal_wr indicate_open_complete_zero

theorem send_handshake_bytes_zero : Zero x (send_handshake_bytes h) := by
  refine Bal_rd fun ssl => Bal_none rfl (fun _ _ => rfl) fun n => ?_
  split
  · exact Bal_bind opened_zero fun _ => rfl
  · refine Bal_rd fun ssl => Bal_none rfl (fun _ _ => rfl) fun n => ?_
    refine Bal_rd fun ssl => Bal_none rfl (fun _ _ => rfl) fun n => ?_
    split
    · exact Bal_bind opened_zero fun _ => rfl
    · refine Bal_bind write_outgoing_bytes_zero fun r => ?_
      split
      · rfl
      · refine Bal_rd fun ssl => Bal_none rfl (fun _ _ => rfl) fun n => ?_
        split
        · exact Bal_bind opened_zero fun _ => rfl
        · rfl

theorem give_up_zero : Zero x (give_up h) := by
  refine Bal_rd fun io => Bal_none rfl (fun _ _ => rfl) fun n => ?_
  split
  · exact indicate_open_complete_zero
  · rfl

theorem body_zero {c : Call} (hc : c.plain = true) : Zero x (body c) := by
  cases c with
  | create => cases hc
  | destroy => cases hc
  | «open» h cbs =>
    show Zero x (tlsio_openssl_open h cbs)
    unfold tlsio_openssl_open
    split
    · rfl
    · refine Bal_rd fun st => ?_
      split
      · rfl
      · refine Bal_wr (Bal_wr (Bal_wr (Bal_wr (Bal_wr (Bal_wr (Bal_wr ?_))))))
        refine Bal_rd fun io => Bal_none rfl (fun _ _ => rfl) fun n => ?_
        split <;> rfl
  | close h fn ctx =>
    show Zero x (tlsio_openssl_close h fn ctx)
    unfold tlsio_openssl_close
    split
    · rfl
    · refine Bal_rd fun st => ?_
      split
      · rfl
      · refine Bal_wr (Bal_wr (Bal_wr ?_))
        refine Bal_rd fun io => Bal_none rfl (fun _ _ => rfl) fun n => ?_
        split <;> rfl
  | send h bs fn ctx =>
    show Zero x (tlsio_openssl_send h bs fn ctx)
    unfold tlsio_openssl_send
    split
    · rfl
    · refine Bal_rd fun st => ?_
      split
      · rfl
      · refine Bal_rd fun ssl => Bal_none rfl (fun _ _ => rfl) fun n => ?_
        split
        · rfl
        · refine Bal_bind write_outgoing_bytes_zero fun r => ?_
          split <;> rfl
  | dowork h =>
    refine Bal_bind ?_ fun _ => rfl
    unfold tlsio_openssl_dowork
    split
    · rfl
    · refine Bal_rd fun st => ?_
      split
      · exact Bal_rd fun io => Bal_none rfl (fun _ _ => rfl) fun n => rfl
      · rfl
  | setoption h name v =>
    show Zero x (tlsio_openssl_setoption h name v)
    unfold tlsio_openssl_setoption
    cases name with
    | none => rfl
    | some name =>
      have hn : name ≠ trustedCerts := by simpa [Call.plain] using hc
      dsimp only
      rw [if_neg hn]
      split
      · rfl
      · refine Bal_rd fun io => ?_
        exact fun _ n bs _ => rfl
  | uOpen h r =>
    refine Bal_bind ?_ fun _ => rfl
    refine Bal_rd fun st => ?_
    split
    · split
      · refine Bal_rd fun ssl => Bal_none rfl (fun _ _ => rfl) fun n => ?_
        split
        · exact give_up_zero
        · refine Bal_wr (Bal_bind send_handshake_bytes_zero fun r => ?_)
          split
          · exact give_up_zero
          · rfl
      · exact indicate_open_complete_zero
    · rfl
  | uClose h =>
    refine Bal_bind ?_ fun _ => rfl
    refine Bal_rd fun st => ?_
    split
    · exact Bal_wr indicate_open_complete_zero
    · exact Bal_wr indicate_open_complete_zero
    · refine Bal_wr (Bal_rd fun fn => ?_)
      split
      · rfl
      · exact Bal_rd fun ctx => Bal_none rfl (fun _ _ => rfl) fun n => rfl
    · rfl
  | uError h =>
    refine Bal_bind ?_ fun _ => rfl
    refine Bal_rd fun st => ?_
    split
    · exact Bal_wr indicate_open_complete_zero
    · exact Bal_wr indicate_open_complete_zero
    · exact indicate_error_zero
    · rfl
  | uBytes h bs =>
    refine Bal_bind ?_ fun _ => rfl
    refine Bal_rd fun bio => Bal_none rfl (fun _ _ => rfl) fun n => ?_
    split
    · exact Bal_wr indicate_error_zero
    · refine Bal_rd fun st => ?_
      split
      · refine Bal_bind send_handshake_bytes_zero fun r => ?_
        split
        · exact give_up_zero
        · rfl
      · refine Bal_bind (p := decode_ssl_received_bytes h) rfl fun r => ?_
        split
        · exact Bal_wr indicate_error_zero
        · rfl
      · rfl

theorem decode_round_zero : Zero x (decode_round h) := by
  refine Bal_rd fun ssl => Bal_callB fun n bs => ?_
  dsimp only
  show Bal _ _ _ _ (0 + 0 + 0)
  split
  · refine Bal_rd fun fn => ?_
    split
    · rfl
    · exact Bal_rd fun ctx => Bal_none rfl (fun _ _ => rfl) fun n => rfl
  · rfl

/-! ### The functions that cannot be interrupted -/

theorem Shut_rd {f : Inst → Option α} {k : α → P β} (hk : ∀ v, Shut (sys std) (k v)) :
    Shut (sys std) (rd h f >>= k) := by
  intro i
  show Shut _ (Prog.bind (match f i with | none => .ub | some v => .ret v) k)
  split
  · exact trivial
  · exact hk _

theorem Shut_wr {f : Inst → Inst} {k : Unit → P β} (hk : Shut (sys std) (k ())) :
    Shut (sys std) (wr h f >>= k) := hk

theorem Shut_call {o : Op} {k : Int → P β} (ho : std.reenters o = false)
    (hk : ∀ n, Shut (sys std) (k n)) : Shut (sys std) (call h o >>= k) :=
  ⟨ho, fun n _ => hk n⟩

theorem Shut_callP {o : Op} {k : Nat → P β} (ho : std.reenters o = false)
    (hk : ∀ n, Shut (sys std) (k n)) : Shut (sys std) (callP h o >>= k) :=
  ⟨ho, fun n _ => hk n.toNat⟩

theorem drop0_shut : Shut (sys std) (drop0 h) :=
  Shut_rd fun _ => Shut_call rfl fun _ => Shut_call rfl fun _ => trivial

theorem drop2_shut : Shut (sys std) (drop2 h) :=
  Shut_rd fun _ => Shut_call rfl fun _ => Shut_rd fun _ => Shut_call rfl fun _ => drop0_shut

theorem create_ssl_shut : Shut (sys std) (create_ssl h) := by
  refine Shut_rd fun _ => Shut_call rfl fun _ => Shut_rd fun _ => Shut_call rfl fun _ =>
    Shut_rd fun _ => Shut_callP rfl fun _ => Shut_wr ?_
  split
  · exact drop2_shut
  · exact Shut_rd fun _ => Shut_rd fun _ => Shut_rd fun _ => Shut_call rfl fun _ =>
      Shut_rd fun _ => Shut_call rfl fun _ => trivial

theorem create_io_shut {iface lg : Nat} {cfg : Config} : Shut (sys std) (create_io h iface cfg lg) := by
  refine Shut_callP rfl fun _ => Shut_wr ?_
  split
  · exact drop2_shut
  · refine Shut_rd fun _ => Shut_call rfl fun _ => ?_
    split
    · exact drop2_shut
    · refine Shut_rd fun _ => Shut_call rfl fun _ => ?_
      split
      · exact drop2_shut
      · exact create_ssl_shut

theorem create_bios_shut {lg : Nat} {cfg : Config} : Shut (sys std) (create_bios h cfg lg) := by
  refine Shut_callP rfl fun _ => Shut_wr ?_
  split
  · exact drop0_shut
  · refine Shut_callP rfl fun _ => Shut_wr ?_
    split
    · exact Shut_rd fun _ => Shut_call rfl fun _ => drop0_shut
    · refine Shut_callP rfl fun _ => ?_
      split
      · exact drop2_shut
      · exact create_io_shut

theorem body_shut {c : Call} (hc : c.plain = false) : Shut (sys std) (body c) := by
  cases c with
  | create cfg lg =>
    show Shut _ (tlsio_openssl_create cfg lg)
    cases cfg with
    | none => exact trivial
    | some cfg =>
      refine Shut_callP rfl fun p => ?_
      split
      · exact trivial
      · show Shut (sys std) (wr p (fun i => { i with on_bytes_received := some 0 }) >>= _)
        refine Shut_wr (Shut_wr (Shut_wr (Shut_wr (Shut_wr (Shut_wr (Shut_wr (Shut_wr (Shut_wr
          (Shut_wr ?_)))))))))
        refine Shut_callP (h := p) rfl fun ctx => Shut_wr (h := p) ?_
        split
        · exact Shut_call rfl fun _ => trivial
        · exact create_bios_shut
  | destroy h =>
    refine Shut.bind _ _ ?_ fun _ => trivial
    unfold tlsio_openssl_destroy
    split
    · exact trivial
    · exact Shut_rd fun _ => Shut_call rfl fun _ => Shut_rd fun _ => Shut_call rfl fun _ =>
        Shut_rd fun _ => Shut_call rfl fun _ => Shut_call rfl fun _ => trivial
  | setoption h name v =>
    show Shut _ (tlsio_openssl_setoption h name v)
    unfold tlsio_openssl_setoption
    cases name with
    | none => exact trivial
    | some name =>
      have hn : name = trustedCerts := by simpa [Call.plain] using hc
      dsimp only
      rw [if_pos hn]
      split
      · exact trivial
      · refine Shut_rd fun _ => Shut_callP rfl fun _ => ?_
        split
        · exact trivial
        · refine Shut_callP rfl fun _ => ?_
          split
          · exact trivial
          · refine Shut_callP rfl fun _ => ?_
            split
            · exact Shut_call rfl fun _ => trivial
            · refine Shut_call rfl fun _ => ?_
              split
              · exact Shut_call rfl fun _ => Shut_call rfl fun _ => trivial
              · exact Shut_call rfl fun _ => trivial
  | _ => cases hc

end

/-! ### The books are kept -/

theorem kept (x : Res) : Kept (sys std) Claim (held1 x) (due x) Call.plain where
  enter _ := rfl
  leave _ _ := rfl
  nil := rfl
  body _ hc := body_zero hc
  loop _ := decode_round_zero
  shut _ hc := body_shut hc
  steady l e hP _ hp := by
    unfold due
    rw [leaks_other hp, owned_other]
    · refine alives_other ?_ ?_
      · intro cfg lg r h; exact absurd (hp _ _ h) (by simp [Call.plain])
      · intro h' r h; exact absurd (hp _ _ h) (by simp [Call.plain])
    · rintro h' o n bs rfl hm
      exact hP hm
  close l c r hP hl hp := by
    have hL : Leaves l c r := hP.2
    rw [total_held, total_held, before_eq]
    unfold due
    cases c with
    | create cfg lg =>
      simp only [Leaves] at hL
      have hv : ∀ h, own x h (view h (.leave (.create cfg lg) r :: l)) = own x h (view h l) := by
        intro h'
        exact own_view (by rintro _ _ _ _ h; cases h)
      unfold owned
      simp only [hv, alives, leaks]
      split
      next hr =>
        rw [if_pos hr] at hL
        have := hL x
        omega
      next hr =>
        rw [if_neg hr] at hL
        have := hL.2.2.2.2 x
        rw [List.map_cons, List.sum_cons]
        omega
    | destroy h =>
      simp only [Leaves] at hL
      rw [owned_destroy hl hL.1]
      have := hL.2 x
      simp only [leaks]
      omega
    | setoption h name v =>
      cases name with
      | none => cases hp
      | some name =>
        have hn : name = trustedCerts := by simpa [Call.plain] using hp
        subst hn
        have := hL rfl x
        rw [owned_other rfl (by rintro _ _ _ _ h; cases h)]
        simp only [leaks, true_and]
        omega
    | _ => cases hp

/-- Whenever no function is in progress, each resource is held exactly as often as the TLS IOs that
are alive own it, apart from the known leaks. -/
theorem ledger {m : Mach Inst Op Call} (hm : Reachable m) (hs : m.stack = []) (x : Res) :
    held x m.st.log = owned x m.st.log + leaks x m.st.log := by
  rw [← total_held]
  exact Reach.booked (kept x) (fun _ hm => (sound.reach hm).holds) hm (no_undefined_behaviour hm) hs

/-- When all TLS IOs are destroyed, nothing is held apart from the known leaks; memory, contexts,
SSL objects and BIOs are never leaked. -/
theorem all_released_partial {m : Mach Inst Op Call} (hm : Reachable m) (hs : m.stack = [])
    (ha : alives m.st.log = []) (x : Res) :
    held x m.st.log = leaks x m.st.log ∧
      ((∀ p, x ≠ .io p) → (∀ p, x ≠ .cert p) → held x m.st.log = 0) := by
  have h := ledger hm hs x
  have h0 : owned x m.st.log = 0 := by unfold owned; rw [ha]; rfl
  rw [h0, Int.zero_add] at h
  refine ⟨h, fun h1 h2 => ?_⟩
  rw [h]
  have hio : ∀ n, one x .io n = 0 := by
    intro n; simp [one, h1]
  have hce : ∀ n, one x .cert n = 0 := by
    intro n; simp [one, h2]
  clear h h0 ha hs hm
  induction m.st.log with
  | nil => rfl
  | cons e l ih =>
    unfold leaks
    split
    · cases ‹_ :: _ = []›
    next he =>
      injection he with _ he
      subst he
      rw [ih, hio]
      split <;> rfl
    next he =>
      injection he with _ he
      subst he
      rw [ih, hce]
      split <;> rfl
    next he =>
      injection he with _ he
      subst he
      exact ih

end Verif.Tls
