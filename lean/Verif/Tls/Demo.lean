import Verif.Tls.Ledger

/-
Plays of the TLS IO: one whole life, which meets the hypotheses of the theorems of `Claim.lean`,
and plays in which something one would expect does not hold.
-/
namespace Verif.Tls
open Verif.Game

/-- The state after the moves. -/
def after (pol : Policy) (vs : List (Move Call)) : Mach Inst Op Call :=
  (play (sys pol) start vs).getD start

theorem after_reach {pol : Policy} {vs : List (Move Call)}
    (h : (play (sys pol) start vs).isSome = true) : Reach (sys pol) (after pol vs) := by
  obtain ⟨m, hm⟩ := Option.isSome_iff_exists.1 h
  refine ⟨vs, ?_⟩
  rw [after, hm]
  rfl

/-- The call out returns a number. -/
abbrev ans (n : Int) : Move Call := .answer n []

/-- The callbacks the user gives. -/
def cbs : Cbs := ⟨50, 51, 52, 53, 54, 55⟩

/-- The user creates a TLS IO; everything works. -/
def creation : List (Move Call) :=
  [.enter (.create (some ⟨7, 443⟩) 9), ans 16, ans 100, ans 101, ans 102, ans 1, ans 103, ans 1, ans 1,
   ans 0, ans 1, ans 104, ans 0, ans 0]

/-- The user opens it, and the lower IO has opened; the first bytes of the handshake are sent. -/
def opening : List (Move Call) :=
  [.enter (.open 16 cbs), ans 0, .enter (.uOpen 16 .ok), ans 0, ans 0, ans (-1), ans 0, ans 2, ans 200,
   .answer 2 [22, 3], ans 0, ans 0, ans 0]

/-- The answer of the server arrives, and the handshake has finished. -/
def handshake : List (Move Call) := [.enter (.uBytes 16 [22, 4]), ans 2, ans 1, ans 0]

/-- The user sends two bytes. -/
def sending : List (Move Call) :=
  [.enter (.send 16 [1, 2] 56 57), ans 2, ans 3, ans 200, .answer 3 [23, 8, 9], ans 0, ans 0]

/-- The lower IO has received bytes. -/
def receiving : List (Move Call) :=
  [.enter (.uBytes 16 [23, 5]), ans 2, .tau, .answer 1 [77], ans 0, .tau, ans (-1)]

/-- The user closes; the lower IO closes at once. -/
def closing : List (Move Call) := [.enter (.close 16 60 61), .enter (.uClose 16), ans 0, ans 0]

/-- The user destroys the TLS IO. -/
def destruction : List (Move Call) := [.enter (.destroy 16), ans 0, ans 0, ans 0, ans 0]

/-- A whole life. -/
def life : List (Move Call) :=
  creation ++ opening ++ handshake ++ sending ++ receiving ++ closing ++ destruction

/-- What the user and the lower IO are told. -/
def told : Event → Option Event
  | .call h (.onOpen f c r) => some (.call h (.onOpen f c r))
  | .call h (.onClose f c) => some (.call h (.onClose f c))
  | .call h (.onError f c) => some (.call h (.onError f c))
  | .call h (.onBytes f c b) => some (.call h (.onBytes f c b))
  | .call h (.xioSend io p b n f c) => some (.call h (.xioSend io p b n f c))
  | .leave (.send h b f c) r => some (.leave (.send h b f c) r)
  | _ => none

theorem life_reachable : Reachable (after std life) := after_reach (by decide)

/-- In a whole life everything is reported, in this order (newest first), and everything is released. -/
theorem life_told : (after std life).st.log.filterMap told =
    [.call 16 (.onClose 60 61), .call 16 (.onBytes 52 53 [77]), .leave (.send 16 [1, 2] 56 57) 0,
     .call 16 (.xioSend 103 200 [23, 8, 9] 3 56 57), .call 16 (.onOpen 50 51 .ok),
     .call 16 (.xioSend 103 200 [22, 3] 2 0 0)] ∧
    (after std life).stack.isEmpty = true ∧ alives (after std life).st.log = [] := by decide

/-- The phases of a whole life. -/
theorem life_phases :
    phase 16 (after std creation).st.log = .idle ∧
    phase 16 (after std (creation ++ [.enter (.open 16 cbs)])).st.log = .opening ∧
    phase 16 (after std (creation ++ opening)).st.log = .handshake ∧
    phase 16 (after std (creation ++ opening ++ handshake)).st.log = .live ∧
    phase 16 (after std (creation ++ opening ++ handshake ++ [.enter (.close 16 60 61)])).st.log
      = .shut ∧
    phase 16 (after std (creation ++ opening ++ handshake ++ sending ++ receiving ++ closing)).st.log
      = .idle ∧ alives (after std (creation ++ opening)).st.log = [16] := by decide

/-- `ok_justified` applies to it. -/
example : ∃ l1 l2, (after std life).st.log = l1 ++ .call 16 (.onOpen 50 51 .ok) :: l2 :=
  List.append_of_mem (by decide)

/-- `delivered_partial` applies to it. -/
example : ∃ l1 l2, (after std life).st.log = l1 ++ .call 16 (.onBytes 52 53 [77]) :: l2 :=
  List.append_of_mem (by decide)

/-- `ciphertext_only` applies to it. -/
example : ∃ l1 l2, (after std life).st.log =
    l1 ++ .call 16 (.xioSend 103 200 [23, 8, 9] 3 56 57) :: l2 := List.append_of_mem (by decide)

/-- `send_accepted` applies to it. -/
example : ∃ l1 l2, (after std life).st.log = l1 ++ .leave (.send 16 [1, 2] 56 57) 0 :: l2 :=
  List.append_of_mem (by decide)

/-- `close_reported` applies to it. -/
example : ∃ l1 l2, (after std life).st.log = l1 ++ .call 16 (.onClose 60 61) :: l2 :=
  List.append_of_mem (by decide)

/-- `ok_once` is not empty: a TLS IO can be opened, closed and opened again, with success both
times, if OpenSSL would say that the handshake has not finished. -/
example : Reachable (after std (creation ++ opening ++ handshake ++ closing ++ opening ++ handshake)) ∧
    ((after std (creation ++ opening ++ handshake ++ closing ++ opening ++ handshake)).st.log.filter
      (· = .call 16 (.onOpen 50 51 .ok))).length = 2 := ⟨after_reach (by decide), by decide⟩

/-- A failure of the lower IO while the open is pending is reported. -/
example : Reachable (after std (creation ++ opening ++ [.enter (.uError 16)])) ∧
    (after std (creation ++ opening ++ [.enter (.uError 16)])).st.log.head? =
      some (.call 16 (.onOpen 50 51 .error)) := ⟨after_reach (by decide), by decide⟩

/-- A send before the handshake has finished is refused. -/
example : Reachable (after std (creation ++ opening ++ [.enter (.send 16 [1] 0 0)])) ∧
    (after std (creation ++ opening ++ [.enter (.send 16 [1] 0 0)])).st.log.head? =
      some (.leave (.send 16 [1] 0 0) 592) := ⟨after_reach (by decide), by decide⟩

/-! ### What does not hold -/

/-- An open can be answered twice, with ERROR and then with OK: when the lower IO has failed to
open, the TLS IO still counts as opening, so the callback can come again. -/
theorem answered_twice : ∃ m l1 l2 l3, Reachable m ∧
    m.st.log = l1 ++ .call 16 (.onOpen 50 51 .ok) ::
      (l2 ++ .call 16 (.onOpen 50 51 .error) :: l3) ∧
    ∀ c, .enter (.open 16 c) ∉ l2 := by
  let vs : List (Move Call) := creation ++ [.enter (.open 16 cbs), ans 0, .enter (.uOpen 16 .error),
    ans 0, .enter (.uOpen 16 .ok), ans 0, ans 1]
  refine ⟨after std vs, [], (after std vs).st.log.tail.take 7, (after std vs).st.log.drop 9,
    after_reach (by decide), by decide, ?_⟩
  intro c hc
  have : ((after std vs).st.log.tail.take 7).all (fun e => match e with
    | .enter (.open ..) => false | _ => true) = true := by decide
  have := List.all_eq_true.1 this _ hc
  simp at this

/-- A close that has failed leaves the TLS IO closing: it can neither be closed nor opened again. -/
theorem failed_close_stuck : ∃ m, Reachable m ∧ m.stack.isEmpty = true ∧ ∃ l,
    m.st.log = .leave (.open 16 cbs) 506 :: .enter (.open 16 cbs) ::
      .leave (.close 16 60 61) 553 :: .enter (.close 16 60 61) ::
      .leave (.close 16 60 61) 564 :: l ∧ phase 16 m.st.log = .shut := by
  let vs : List (Move Call) := creation ++ opening ++ handshake ++ [.enter (.close 16 60 61), ans 1,
    .enter (.close 16 60 61), .enter (.open 16 cbs)]
  exact ⟨after std vs, after_reach (by decide), by decide, (after std vs).st.log.drop 5, by decide⟩

/-- Bytes can be delivered after the user has closed the TLS IO, if he closes it while other bytes
are being delivered. -/
theorem late_delivery : ∃ m l, Reachable m ∧ m.st.log = .call 16 (.onBytes 52 53 [78]) :: l ∧
    phase 16 l = .shut := by
  let vs : List (Move Call) := creation ++ opening ++ handshake ++
    [.enter (.uBytes 16 [23, 5]), ans 2, .tau, .answer 1 [77], .enter (.close 16 60 61), ans 0, ans 0,
     .tau, .answer 1 [78]]
  exact ⟨after std vs, (after std vs).st.log.tail, after_reach (by decide), by decide⟩

/-- An environment in which `xio_send` may call back even without a completion callback. -/
def sendReenters : Policy where
  reenters
    | .xioSend .. => true
    | o => std.reenters o
  destroyInside := false

/-- There, success can be reported twice for one open: `send_handshake_bytes` does not look at the
state again after `xio_send`. -/
theorem two_oks : ∃ m l1 l2 l3, Reach (sys sendReenters) m ∧
    m.st.log = l1 ++ .call 16 (.onOpen 50 51 .ok) ::
      (l2 ++ .call 16 (.onOpen 50 51 .ok) :: l3) ∧
    ∀ c, .enter (.open 16 c) ∉ l2 := by
  let vs : List (Move Call) := creation ++
    [.enter (.open 16 cbs), ans 0, .enter (.uOpen 16 .ok), ans 0, ans 0, ans (-1), ans 0, ans 2, ans 200,
     .answer 2 [22, 3], .enter (.uBytes 16 [22, 4]), ans 2, ans 1, ans 0, ans 0, ans 0, ans 1]
  refine ⟨after sendReenters vs, [], (after sendReenters vs).st.log.tail.take 7,
    (after sendReenters vs).st.log.drop 9, after_reach (by decide), by decide, ?_⟩
  intro c hc
  have : ((after sendReenters vs).st.log.tail.take 7).all (fun e => match e with
    | .enter (.open ..) => false | _ => true) = true := by decide
  have := List.all_eq_true.1 this _ hc
  simp at this

/-- An environment in which a TLS IO may be destroyed while one of its functions is in progress. -/
def destroyAnywhere : Policy := { std with destroyInside := true }

/-- There, memory is used after it was freed: a user who destroys the TLS IO in his callback for
received bytes. -/
theorem destroy_in_callback : ∃ m, Reach (sys destroyAnywhere) m ∧ m.wrong = true := by
  let vs : List (Move Call) := creation ++ opening ++ handshake ++
    [.enter (.uBytes 16 [23, 5]), ans 2, .tau, .answer 1 [77]] ++ destruction ++ [ans 0, .tau]
  exact ⟨after destroyAnywhere vs, after_reach (by decide), by decide⟩

/-- A creation that fails after the lower IO was made does not release it. -/
theorem create_leaks : ∃ m, Reachable m ∧ m.stack.isEmpty = true ∧ alives m.st.log = [] ∧
    held (.io 103) m.st.log = 1 := by
  let vs : List (Move Call) := [.enter (.create (some ⟨7, 443⟩) 9), ans 16, ans 100, ans 101, ans 102,
    ans 1, ans 103, ans 1, ans 1, ans 0, ans 1, ans 0, ans 0, ans 0, ans 0, ans 0]
  exact ⟨after std vs, after_reach (by decide), by decide⟩

/-- Setting the trusted certificates does not release the certificate. -/
theorem option_leaks : ∃ m, Reachable m ∧ m.stack.isEmpty = true ∧ alives m.st.log = [] ∧
    held (.cert 302) m.st.log = 1 := by
  let vs : List (Move Call) := creation ++ [.enter (.setoption 16 (some trustedCerts) 80), ans 300,
    ans 301, ans 302, ans 1, ans 0] ++ destruction
  exact ⟨after std vs, after_reach (by decide), by decide⟩

end Verif.Tls
