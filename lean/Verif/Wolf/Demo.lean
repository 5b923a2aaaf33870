import Verif.Wolf.Ledger

/-
Plays of the wolfSSL TLS IO: one whole life, which meets the hypotheses of the theorems of
`Claim.lean` and `Ledger.lean`, and plays in which something one would expect does not hold.
-/
namespace Verif.Wolf
open Verif.Game

/-- The state after the moves. -/
def after (pol : Policy) (vs : List (Move Call)) : Mach Inst Op Call :=
  (play (sys pol) start vs).getD start

theorem after_reach {pol : Policy} {vs : List (Move Call)}
    (h : (play (sys pol) start vs).isSome = true) : Reach (sys pol) (after pol vs) := by
  obtain ⟨m, hm⟩ := Option.isSome_iff_exists.1 h
  refine ⟨vs, ?_⟩
  rw [after, hm]
  rfl

/-- The call out returns a number. -/
abbrev ans (n : Int) : Move Call := .answer n []

/-- The callbacks the user gives. -/
def cbs : Cbs := ⟨50, 51, 52, 53, 54, 55⟩

/-- The user creates a TLS IO; everything works. -/
def creation : List (Move Call) :=
  [.enter (.create (some ⟨7, 443⟩) 9), ans 16, ans 100, ans 101, ans 103, ans 104, ans 0, ans 0, ans 0,
   ans 0, ans 0, ans 0]

/-- wolfSSL connects: it sends, waits for an answer of four bytes, fetches three and one, and the
handshake has finished. -/
def connecting : List (Move Call) :=
  [.enter (.wSend 16 [22, 3]), ans 0, .enter (.wRecv 16 400 3), .tau, .enter (.uBytes 16 [22, 4, 5, 6]),
   ans 300, ans 0, .tau, ans 0, ans 301, .enter (.wRecv 16 404 3), .tau, ans 0, ans 0,
   .enter (.wDone 16), ans 0]

/-- The user opens it; the lower IO opens, and the handshake is done. -/
def opening : List (Move Call) := [.enter (.open 16 cbs), ans 0] ++ connecting ++ [ans 1]

/-- The user sends two bytes. -/
def sending : List (Move Call) :=
  [.enter (.send 16 [1, 2] 56 57), .enter (.wSend 16 [23, 8, 9]), ans 0, ans 2]

/-- The user gives the TLS IO time, and bytes arrive. -/
def receiving : List (Move Call) :=
  [.enter (.dowork 16), .tau, .enter (.wRecv 16 400 5), .tau, .enter (.uBytes 16 [23, 5]), ans 302, ans 0,
   ans 0, ans 0, .answer 1 [77], ans 0, .tau, .enter (.wRecv 16 400 5), .tau, ans 0, ans (-1), ans 0]

/-- The user closes; the lower IO closes at once. -/
def closing : List (Move Call) := [.enter (.close 16 60 61), .enter (.uClose 16), ans 0, ans 0]

/-- The user destroys the TLS IO. -/
def destruction : List (Move Call) := [.enter (.destroy 16), ans 0, ans 0, ans 0, ans 0]

/-- A whole life. -/
def life : List (Move Call) :=
  creation ++ opening ++ sending ++ receiving ++ closing ++ destruction

/-- What the user, the lower IO and wolfSSL are told. -/
def told : Event → Option Event
  | .call h (.onOpen f c r) => some (.call h (.onOpen f c r))
  | .call h (.onClose f c) => some (.call h (.onClose f c))
  | .call h (.onError f c) => some (.call h (.onError f c))
  | .call h (.onBytes f c b) => some (.call h (.onBytes f c b))
  | .call h (.xioSend io b n f c) => some (.call h (.xioSend io b n f c))
  | .call h (.copyOut p b) => some (.call h (.copyOut p b))
  | .leave (.send h b f c) r => some (.leave (.send h b f c) r)
  | .leave (.wRecv h b n) r => some (.leave (.wRecv h b n) r)
  | .leave (.open h c) r => some (.leave (.open h c) r)
  | _ => none

theorem life_reachable : Reachable (after std life) := after_reach (by decide)

/-- In a whole life everything is reported, in this order (newest first), and everything is released. -/
theorem life_told : (after std life).st.log.filterMap told =
    [.call 16 (.onClose 60 61), .leave (.wRecv 16 400 5) (-2), .call 16 (.onBytes 52 53 [77]),
     .leave (.wRecv 16 400 5) 2, .call 16 (.copyOut 400 [23, 5]),
     .leave (.send 16 [1, 2] 56 57) 0, .call 16 (.xioSend 103 [23, 8, 9] 3 56 57),
     .leave (.open 16 cbs) 0, .call 16 (.onOpen 50 51 .ok),
     .leave (.wRecv 16 404 3) 1, .call 16 (.copyOut 404 [6]),
     .leave (.wRecv 16 400 3) 3, .call 16 (.copyOut 400 [22, 4, 5]),
     .call 16 (.xioSend 103 [22, 3] 2 0 0)] ∧
    (after std life).stack.isEmpty = true ∧ alives (after std life).st.log = [] ∧
    accepted 16 (after std life).st.log = [22, 4, 5, 6, 23, 5] := by decide

/-- The phases of a whole life. -/
theorem life_phases :
    phase 16 (after std creation).st.log = .idle ∧
    phase 16 (after std (creation ++ [.enter (.open 16 cbs)])).st.log = .opening ∧
    phase 16 (after std (creation ++ [.enter (.open 16 cbs), ans 0])).st.log = .handshake ∧
    phase 16 (after std (creation ++ opening)).st.log = .live ∧
    phase 16 (after std (creation ++ opening ++ [.enter (.close 16 60 61)])).st.log = .shut ∧
    alives (after std (creation ++ opening)).st.log = [16] := by decide

/-- While bytes wait, the block is held; it is released with the TLS IO. -/
theorem life_blocks :
    held (.buf 301) (after std (creation ++ [.enter (.open 16 cbs), ans 0] ++ connecting.take 10)).st.log = 1 ∧
    held (.buf 300) (after std (creation ++ [.enter (.open 16 cbs), ans 0] ++ connecting.take 10)).st.log = 0 ∧
    held (.buf 301) (after std life).st.log = 0 := by decide

/-- `recv_gets` and `fetched_in_order` apply to it. -/
example : ∃ l1 l2, (after std life).st.log = l1 ++ .leave (.wRecv 16 400 3) 3 :: l2 :=
  List.append_of_mem (by decide)

/-- `ok_justified` applies to it. -/
example : ∃ l1 l2, (after std life).st.log = l1 ++ .call 16 (.onOpen 50 51 .ok) :: l2 :=
  List.append_of_mem (by decide)

/-- `delivered` applies to it. -/
example : ∃ l1 l2, (after std life).st.log = l1 ++ .call 16 (.onBytes 52 53 [77]) :: l2 :=
  List.append_of_mem (by decide)

/-- `ciphertext_only` applies to it. -/
example : ∃ l1 l2, (after std life).st.log =
    l1 ++ .call 16 (.xioSend 103 [23, 8, 9] 3 56 57) :: l2 := List.append_of_mem (by decide)

/-- `written` applies to it. -/
example : ∃ l1 l2, (after std life).st.log = l1 ++ .call 16 (.sslWrite 104 [1, 2] 2) :: l2 :=
  List.append_of_mem (by decide)

/-- `close_reported` applies to it. -/
example : ∃ l1 l2, (after std life).st.log = l1 ++ .call 16 (.onClose 60 61) :: l2 :=
  List.append_of_mem (by decide)

/-- `create_holds` and `create_wired` apply to it. -/
example : ∃ l1 l2, (after std life).st.log = l1 ++ .leave (.create (some ⟨7, 443⟩) 9) 16 :: l2 :=
  List.append_of_mem (by decide)

/-- `loss_reported` applies: there is no memory for the bytes. -/
example : Reachable (after std (creation ++ opening ++ [.enter (.uBytes 16 [1]), ans 0])) ∧
    (after std (creation ++ opening ++ [.enter (.uBytes 16 [1]), ans 0])).st.log.head? =
      some (.call 16 (.onError 54 55)) := ⟨after_reach (by decide), by decide⟩

/-- `failure_reported` applies: the lower IO fails while the open is pending. -/
example : Reachable (after std (creation ++ [.enter (.open 16 cbs), ans 0, .enter (.uError 16)])) ∧
    (after std (creation ++ [.enter (.open 16 cbs), ans 0, .enter (.uError 16)])).st.log.head? =
      some (.call 16 (.onOpen 50 51 .error)) := ⟨after_reach (by decide), by decide⟩

/-- `send_refused` applies: a send before the handshake has finished. -/
example : Reachable (after std (creation ++ [.enter (.send 16 [1] 0 0)])) ∧
    (after std (creation ++ [.enter (.send 16 [1] 0 0)])).st.log.head? =
      some (.leave (.send 16 [1] 0 0) 482) := ⟨after_reach (by decide), by decide⟩

/-! ### What does not hold -/

theorem no_open {L : List Event} (h : L.all (fun e => match e with
    | .enter (.open ..) => false | _ => true) = true) : ∀ c, .enter (.open 16 c) ∉ L := by
  intro c hc
  have := List.all_eq_true.1 h _ hc
  simp at this

/-- Success can be reported twice for one open: when the lower IO reports that it has opened before
`xio_open` returns, the handshake is done in `on_underlying_io_open_complete`, and then
`tlsio_wolfssl_open` falls back to the handshake and connects again. -/
theorem two_oks : ∃ m l1 l2 l3, Reachable m ∧
    m.st.log = l1 ++ .call 16 (.onOpen 50 51 .ok) ::
      (l2 ++ .call 16 (.onOpen 50 51 .ok) :: l3) ∧
    ∀ c, .enter (.open 16 c) ∉ l2 := by
  let vs : List (Move Call) := creation ++ [.enter (.open 16 cbs), .enter (.uOpen 16 .ok),
    .enter (.wDone 16), ans 0, ans 1, ans 0, .enter (.wDone 16)]
  exact ⟨after std vs, [], (after std vs).st.log.tail.take 7, (after std vs).st.log.drop 9,
    after_reach (by decide), by decide, no_open (by decide)⟩

/-- A TLS IO that was closed can neither be opened nor closed again: it stays closing. -/
theorem never_reopens : ∃ m l, Reachable m ∧ m.stack.isEmpty = true ∧
    m.st.log = .leave (.open 16 cbs) 390 :: .enter (.open 16 cbs) ::
      .leave (.close 16 60 61) 446 :: .enter (.close 16 60 61) ::
      .leave (.close 16 60 61) 0 :: .ret 16 (.xioClose 103 16) 0 [] :: .leave (.uClose 16) 0 :: l := by
  let vs : List (Move Call) := creation ++ opening ++ closing ++
    [.enter (.close 16 60 61), .enter (.open 16 cbs)]
  exact ⟨after std vs, (after std vs).st.log.drop 7, after_reach (by decide), by decide, by decide⟩

/-- One close can be answered twice, if the lower IO reports twice that it has closed. -/
theorem close_answered_twice : ∃ m, Reachable m ∧
    (m.st.log.filter (· = .call 16 (.onClose 60 61))).length = 2 ∧
    (m.st.log.filter (· = .enter (.close 16 60 61))).length = 1 := by
  let vs : List (Move Call) := creation ++ opening ++ closing ++ [.enter (.uClose 16)]
  exact ⟨after std vs, after_reach (by decide), by decide, by decide⟩

/-- When the handshake fails the open fails, but the TLS IO still counts as being in the handshake,
it cannot be opened again, and success can still be reported. -/
theorem failed_handshake_stuck : ∃ m, Reachable m ∧ m.stack.length = 1 ∧
    (∃ l1 l2, m.st.log = l1 ++ .leave (.open 16 cbs) 418 :: l2) ∧
    (∃ l1 l2, m.st.log = l1 ++ .leave (.open 16 cbs) 390 :: l2) ∧
    m.st.log.head? = some (.call 16 (.onOpen 50 51 .ok)) := by
  let vs : List (Move Call) := creation ++ [.enter (.open 16 cbs), ans 0, ans (-1),
    .enter (.open 16 cbs), .enter (.wDone 16)]
  exact ⟨after std vs, after_reach (by decide), by decide, List.append_of_mem (by decide),
    List.append_of_mem (by decide), by decide⟩

/-- While wolfSSL waits for the server in the handshake, `on_io_recv` goes round and round until
bytes arrive or the handshake has finished: after every round that brings nothing comes another ... -/
theorem keeps_polling {m : Mach Inst Op Call} (hm : Reachable m) {l1 l2 : List Event} {e : Event}
    {h io buf : Nat} {sz n : Int} {bs : Bytes}
    (hl : m.st.log = l1 ++ e :: .ret h (.xioDowork io) n bs :: l2)
    (hr : (running l2).head? = some (.wRecv h buf sz)) (hp : (view h l2).pend = [])
    (hq : phase h l2 ≠ .live) : e = .call h (.xioDowork (view h l2).io) := by
  have hc := answers hm hl rfl
  obtain ⟨rest, hr⟩ : ∃ rest, running l2 = .wRecv h buf sz :: rest := by
    cases h' : running l2 with
    | nil => rw [h'] at hr; cases hr
    | cons c rest => rw [h'] at hr; injection hr with hr; exact ⟨rest, by rw [hr]⟩
  simp only [Reacts, hr] at hc
  rwa [if_pos ⟨hp, hq⟩] at hc

/-- ... even if the lower IO has failed and the user was told. -/
example : ∃ m l, Reachable m ∧ m.st.log = .call 16 (.xioDowork 103) :: .ret 16 (.xioDowork 103) 0 [] :: l ∧
    (running l).head? = some (.wRecv 16 400 5) ∧ phase 16 l = .broken ∧
    l.head? = some (.leave (.uError 16) 0) ∧ (view 16 l).pend = [] := by
  let vs : List (Move Call) := creation ++ [.enter (.open 16 cbs), ans 0, .enter (.wRecv 16 400 5), .tau,
    .enter (.uError 16), ans 0, ans 0, .tau]
  exact ⟨after std vs, (after std vs).st.log.drop 2, after_reach (by decide), by decide, by decide,
    by decide, by decide, by decide⟩

/-- An environment in which the lower IO may deliver no bytes at all. -/
def emptyAllowed : Policy := { std with emptyChunks := true }

/-- There, the C library may do anything: `realloc` of a block to no bytes. -/
theorem empty_chunk : ∃ m, Reach (sys emptyAllowed) m ∧ m.wrong = true := by
  let vs : List (Move Call) := creation ++ [.enter (.uBytes 16 []), ans 300, .enter (.uBytes 16 [])]
  exact ⟨after emptyAllowed vs, after_reach (by decide), by decide⟩

/-- An environment in which a TLS IO may be destroyed while one of its functions is in progress. -/
def destroyAnywhere : Policy := { std with destroyInside := true }

/-- There, memory is used after it was freed: a user who destroys the TLS IO in his callback for
received bytes. -/
theorem destroy_in_callback : ∃ m, Reach (sys destroyAnywhere) m ∧ m.wrong = true := by
  let vs : List (Move Call) := creation ++ opening ++
    [.enter (.dowork 16), .tau, .answer 1 [77]] ++ destruction ++ [ans 0, .tau]
  exact ⟨after destroyAnywhere vs, after_reach (by decide), by decide⟩

/-- A creation that fails after the lower IO was made does not release it. -/
theorem create_leaks : ∃ m, Reachable m ∧ m.stack.isEmpty = true ∧ alives m.st.log = [] ∧
    held (.io 103) m.st.log = 1 := by
  let vs : List (Move Call) := [.enter (.create (some ⟨7, 443⟩) 9), ans 16, ans 100, ans 101, ans 103,
    ans 0, ans 0, ans 0]
  exact ⟨after std vs, after_reach (by decide), by decide⟩

end Verif.Wolf
