import Verif.Schan.Ledger

/-
Plays of the Schannel TLS IO: one whole life, which meets the hypotheses of the theorems of
`Claim.lean` and `Ledger.lean`, and plays in which something one would expect does not hold.
-/
namespace Verif.Schan
open Verif.Game

/-- The state after the moves. -/
def after (pol : Policy) (vs : List (Move Call)) : Mach Inst Op Call :=
  (play (sys pol) start vs).getD start

theorem after_reach {pol : Policy} {vs : List (Move Call)}
    (h : (play (sys pol) start vs).isSome = true) : Reach (sys pol) (after pol vs) := by
  obtain ⟨m, hm⟩ := Option.isSome_iff_exists.1 h
  refine ⟨vs, ?_⟩
  rw [after, hm]
  rfl

/-- The call out returns a number. -/
abbrev ans (n : Int) : Move Call := .answer n []

/-- The callbacks the user gives. -/
def cbs : Cbs := ⟨50, 51, 52, 53, 54, 55⟩

/-- The configuration: the host "ab". -/
def cfg : Config := ⟨7, [97, 98], 443⟩

/-- The user creates a TLS IO; everything works. -/
def creation : List (Move Call) :=
  [.enter (.create (some cfg) 9), ans 16, ans 40, ans 0, ans 101, ans 103]

/-- The user opens it, and the lower IO opens; the client hello `[22, 1]` is sent. -/
def hello : List (Move Call) :=
  [.enter (.open 16 cbs), ans 0, .enter (.uOpen 16 .ok), ans 200, .answer 590610 [22, 1], ans 201, ans 0,
   ans 300]

/-- The server answers in two parts: the first is not complete, one byte is missing; with the second
SSPI has a token to send. -/
def serverHello : List (Move Call) :=
  [.enter (.uBytes 16 [22, 2]), ans 301, ans incomplete, ans 1, ans 302,
   .enter (.uBytes 16 [3]), .answer 590610 [22, 4, 5], ans 0, ans (-1), ans 303]

/-- The server finishes the handshake. -/
def finished : List (Move Call) :=
  [.enter (.uBytes 16 [22, 6]), ans 304, ans 0, ans (-1), ans 305, ans 0]

def opening : List (Move Call) := hello ++ serverHello ++ finished

/-- The user sends two bytes. -/
def sending : List (Move Call) :=
  [.enter (.send 16 false [1, 2] 56 57), ans 0, ans 1, ans 1, ans 400, .answer 0 [23, 8, 9, 7], ans 0,
   ans 0]

/-- A record of the peer arrives in two parts; the second part is followed by a byte of the next. -/
def receiving : List (Move Call) :=
  [.enter (.dowork 16), .enter (.uBytes 16 [23, 5]), ans 306, .answer incomplete [23, 5], ans (-1), ans 307,
   .enter (.uBytes 16 [6, 23]), ans 308, .answer 0 [0, 77, 0, 23], .answer 1 [77], ans 0, ans 1,
   ans 309, ans 0]

/-- The user closes; the lower IO closes at once. -/
def closing : List (Move Call) := [.enter (.close 16 60 61), .enter (.uClose 16), ans 0, ans 0]

/-- The user destroys the TLS IO. -/
def destruction : List (Move Call) := [.enter (.destroy 16), ans 0, ans 0, ans 0, ans 0, ans 0]

/-- A whole life. -/
def life : List (Move Call) :=
  creation ++ opening ++ sending ++ receiving ++ closing ++ destruction

/-- What the user, the lower IO and SSPI are told. -/
def told : Event → Option Event
  | .call h (.onOpen f c r) => some (.call h (.onOpen f c r))
  | .call h (.onClose f c) => some (.call h (.onClose f c))
  | .call h (.onError f c) => some (.call h (.onError f c))
  | .call h (.onBytes f c b) => some (.call h (.onBytes f c b))
  | .call h (.xioSend w io b f c) => some (.call h (.xioSend w io b f c))
  | .call h (.initNext a b c d) => some (.call h (.initNext a b c d))
  | .call h (.decrypt a b) => some (.call h (.decrypt a b))
  | .call h (.encrypt a b c d) => some (.call h (.encrypt a b c d))
  | .leave (.send h n b f c) r => some (.leave (.send h n b f c) r)
  | .leave (.open h c) r => some (.leave (.open h c) r)
  | .leave (.close h f c) r => some (.leave (.close h f c) r)
  | .leave (.create f c) r => some (.leave (.create f c) r)
  | _ => none

theorem life_reachable : Reachable (after std life) := after_reach (by decide +kernel)

/-- In a whole life everything is reported, in this order (newest first), and everything is released. -/
theorem life_told : (after std life).st.log.filterMap told =
    [.leave (.close 16 60 61) 0, .call 16 (.onClose 60 61), .call 16 (.onBytes 52 53 [77]),
     .call 16 (.decrypt 201 [23, 5, 6, 23]), .call 16 (.decrypt 201 [23, 5]),
     .leave (.send 16 false [1, 2] 56 57) 0, .call 16 (.xioSend .data 103 [23, 8, 9, 7] 56 57),
     .call 16 (.encrypt 201 1 [1, 2] 1), .call 16 (.onOpen 50 51 .ok),
     .call 16 (.initNext 200 201 40 [22, 6]), .call 16 (.xioSend .token 103 [22, 4, 5] 0 0),
     .call 16 (.initNext 200 201 40 [22, 2, 3]), .call 16 (.initNext 200 201 40 [22, 2]),
     .call 16 (.xioSend .hello 103 [22, 1] 0 0), .leave (.open 16 cbs) 0,
     .leave (.create (some cfg) 9) 16] ∧
    (after std life).stack.isEmpty = true ∧ alives (after std life).st.log = [] ∧
    accepted 16 (after std life).st.log = [22, 2, 3, 22, 6, 23, 5, 6, 23] ∧
    used 16 (after std life).st.log = 8 := by decide +kernel

/-- The phases of a whole life. -/
theorem life_phases :
    phase 16 (after std creation).st.log = .idle ∧
    phase 16 (after std (creation ++ [.enter (.open 16 cbs)])).st.log = .opening ∧
    phase 16 (after std (creation ++ hello)).st.log = .handshake ∧
    phase 16 (after std (creation ++ opening)).st.log = .live ∧
    phase 16 (after std (creation ++ opening ++ [.enter (.close 16 60 61)])).st.log = .shut ∧
    alives (after std (creation ++ opening)).st.log = [16] := by decide +kernel

/-- While the TLS IO is alive its block and credential handle are held; they are released with it. -/
theorem life_blocks :
    held (.buf 305) (after std (creation ++ opening)).st.log = 1 ∧
    held (.buf 304) (after std (creation ++ opening)).st.log = 0 ∧
    held (.cred 200) (after std (creation ++ opening)).st.log = 1 ∧
    held (.buf 309) (after std life).st.log = 0 ∧ held (.cred 200) (after std life).st.log = 0 := by
  decide +kernel

/-- `handshake_given` and `given_length` apply to it. -/
example : ∃ l1 l2, (after std life).st.log = l1 ++ .call 16 (.initNext 200 201 40 [22, 2, 3]) :: l2 :=
  List.append_of_mem (by decide +kernel)

/-- `record_given` applies to it. -/
example : ∃ l1 l2, (after std life).st.log = l1 ++ .call 16 (.decrypt 201 [23, 5, 6, 23]) :: l2 :=
  List.append_of_mem (by decide +kernel)

/-- `ok_justified` applies to it. -/
example : ∃ l1 l2, (after std life).st.log = l1 ++ .call 16 (.onOpen 50 51 .ok) :: l2 :=
  List.append_of_mem (by decide +kernel)

/-- `delivered` applies to it. -/
example : ∃ l1 l2, (after std life).st.log = l1 ++ .call 16 (.onBytes 52 53 [77]) :: l2 :=
  List.append_of_mem (by decide +kernel)

/-- `encrypted` and `record_fits` apply to it. -/
example : ∃ l1 l2, (after std life).st.log = l1 ++ .call 16 (.encrypt 201 1 [1, 2] 1) :: l2 :=
  List.append_of_mem (by decide +kernel)

/-- `ciphertext_only` applies to it, to each kind of message. -/
example : (∃ l1 l2, (after std life).st.log =
      l1 ++ .call 16 (.xioSend .data 103 [23, 8, 9, 7] 56 57) :: l2) ∧
    (∃ l1 l2, (after std life).st.log =
      l1 ++ .call 16 (.xioSend .token 103 [22, 4, 5] 0 0) :: l2) ∧
    ∃ l1 l2, (after std life).st.log = l1 ++ .call 16 (.xioSend .hello 103 [22, 1] 0 0) :: l2 :=
  ⟨List.append_of_mem (by decide +kernel), List.append_of_mem (by decide +kernel),
    List.append_of_mem (by decide +kernel)⟩

/-- `send_result` applies to it. -/
example : ∃ l1 l2, (after std life).st.log = l1 ++ .leave (.send 16 false [1, 2] 56 57) 0 :: l2 :=
  List.append_of_mem (by decide +kernel)

/-- `close_reported` applies to it. -/
example : ∃ l1 l2, (after std life).st.log = l1 ++ .call 16 (.onClose 60 61) :: l2 :=
  List.append_of_mem (by decide +kernel)

/-- `create_holds` applies to it. -/
example : ∃ l1 l2, (after std life).st.log = l1 ++ .leave (.create (some cfg) 9) 16 :: l2 :=
  List.append_of_mem (by decide +kernel)

/-- `failure_justified` applies: SSPI does not trust the server. -/
example : Reachable (after std (creation ++ hello ++ [.enter (.uBytes 16 [22, 2]), ans 301, ans untrustedRoot])) ∧
    (after std (creation ++ hello ++ [.enter (.uBytes 16 [22, 2]), ans 301, ans untrustedRoot])).st.log.head? =
      some (.call 16 (.onOpen 50 51 .error)) := ⟨after_reach (by decide +kernel), by decide +kernel⟩

/-- `error_justified` applies: the lower IO fails. -/
example : Reachable (after std (creation ++ opening ++ [.enter (.uError 16)])) ∧
    (after std (creation ++ opening ++ [.enter (.uError 16)])).st.log.head? =
      some (.call 16 (.onError 54 55)) := ⟨after_reach (by decide +kernel), by decide +kernel⟩

/-- `send_refused` applies: a send before the handshake has finished. -/
example : Reachable (after std (creation ++ [.enter (.send 16 false [1] 0 0)])) ∧
    (after std (creation ++ [.enter (.send 16 false [1] 0 0)])).st.log.head? =
      some (.leave (.send 16 false [1] 0 0) 808) := ⟨after_reach (by decide +kernel), by decide +kernel⟩

/-! ### What does not hold -/

/-- The result the lower IO reports for its open is ignored: it says that it failed, and the client
hello is sent all the same. -/
theorem failed_open_ignored : ∃ m l, Reachable m ∧ m.st.log =
    .call 16 (.xioSend .hello 103 [22, 1] 0 0) :: .ret 16 .ctxMade 201 [] :: .call 16 .ctxMade ::
      .ret 16 (.initFirst 200 40) 590610 [22, 1] :: .call 16 (.initFirst 200 40) ::
      .ret 16 .acquire 200 [] :: .call 16 .acquire :: .enter (.uOpen 16 .error) :: l := by
  let vs : List (Move Call) := creation ++ [.enter (.open 16 cbs), ans 0, .enter (.uOpen 16 .error),
    ans 200, .answer 590610 [22, 1], ans 201]
  exact ⟨after std vs, (after std vs).st.log.drop 8, after_reach (by decide +kernel), by decide +kernel⟩

/-- An open can fail in silence: if SSPI does not make the client hello, no callback is called, and
the TLS IO can be opened no more. -/
theorem hello_failure_silent : ∃ m, Reachable m ∧ m.stack.isEmpty = true ∧
    (∃ l, m.st.log = .leave (.open 16 cbs) 630 :: .enter (.open 16 cbs) :: .leave (.uOpen 16 .ok) 0 ::
      .ret 16 (.initFirst 200 40) (-1) [] :: l) ∧
    ∀ e ∈ m.st.log, ∀ fn ctx r, e ≠ .call 16 (.onOpen fn ctx r) ∧ e ≠ .call 16 (.onError fn ctx) := by
  let vs : List (Move Call) := creation ++ [.enter (.open 16 cbs), ans 0, .enter (.uOpen 16 .ok),
    ans 200, ans (-1), .enter (.open 16 cbs)]
  have h : (after std vs).st.log.all (fun e => match e with
      | .call _ (.onOpen ..) | .call _ (.onError ..) => false | _ => true) = true := by decide +kernel
  refine ⟨after std vs, after_reach (by decide +kernel), by decide +kernel,
    ⟨(after std vs).st.log.drop 4, by decide +kernel⟩, ?_⟩
  intro e he fn ctx r
  have := List.all_eq_true.1 h e he
  constructor <;> rintro rfl <;> simp at this

/-- The same in the handshake: SSPI says that the message is not valid (`SEC_E_INVALID_TOKEN`), and
nobody is told. -/
theorem handshake_failure_silent : ∃ m, Reachable m ∧ m.stack.isEmpty = true ∧
    (∃ l, m.st.log = .leave (.uBytes 16 [22, 2]) 0 ::
      .ret 16 (.initNext 200 201 40 [22, 2]) (-2146893048) [] :: l) ∧
    ∀ e ∈ m.st.log, ∀ fn ctx r, e ≠ .call 16 (.onOpen fn ctx r) ∧ e ≠ .call 16 (.onError fn ctx) := by
  let vs : List (Move Call) := creation ++ hello ++ [.enter (.uBytes 16 [22, 2]), ans 301,
    ans (-2146893048)]
  have h : (after std vs).st.log.all (fun e => match e with
      | .call _ (.onOpen ..) | .call _ (.onError ..) => false | _ => true) = true := by decide +kernel
  refine ⟨after std vs, after_reach (by decide +kernel), by decide +kernel,
    ⟨(after std vs).st.log.drop 2, by decide +kernel⟩, ?_⟩
  intro e he fn ctx r
  have := List.all_eq_true.1 h e he
  constructor <;> rintro rfl <;> simp at this

/-- And for a record SSPI cannot decrypt (`SEC_E_MESSAGE_ALTERED`): nobody is told, and the altered
record is given to SSPI again with the next bytes. -/
theorem altered_record_silent : ∃ m l, Reachable m ∧
    m.st.log = .call 16 (.decrypt 201 [23, 5, 6]) :: .ret 16 (.realloc .chunk 306 3) 307 [] ::
      .call 16 (.realloc .chunk 306 3) :: .enter (.uBytes 16 [6]) ::
      .leave (.uBytes 16 [23, 5]) 0 :: .ret 16 (.decrypt 201 [23, 5]) (-2146893041) [23, 5] :: l := by
  let vs : List (Move Call) := creation ++ opening ++ [.enter (.uBytes 16 [23, 5]), ans 306,
    .answer (-2146893041) [23, 5], .enter (.uBytes 16 [6]), ans 307]
  exact ⟨after std vs, (after std vs).st.log.drop 6, after_reach (by decide +kernel), by decide +kernel⟩

/-- A failure of the open is reported as an error of the IO, not as the result of the open: the
credentials cannot be acquired. -/
theorem open_error_misreported : ∃ m l, Reachable m ∧
    m.st.log = .call 16 (.onError 54 55) :: .ret 16 .acquire 0 [] :: .call 16 .acquire ::
      .enter (.uOpen 16 .ok) :: .leave (.open 16 cbs) 0 :: l := by
  let vs : List (Move Call) := creation ++ [.enter (.open 16 cbs), ans 0, .enter (.uOpen 16 .ok), ans 0]
  exact ⟨after std vs, (after std vs).st.log.drop 5, after_reach (by decide +kernel), by decide +kernel⟩

/-- Two records that come together: the second is complete, and is not given to SSPI until more bytes
come. -/
theorem second_record_waits : ∃ m, Reachable m ∧ m.stack.isEmpty = true ∧
    (∃ l, m.st.log = .leave (.uBytes 16 [23, 1, 5, 23, 1, 6]) 0 ::
      .ret 16 (.realloc .dataNext 306 4) 307 [] :: .call 16 (.realloc .dataNext 306 4) ::
      .ret 16 (.decExtra [23, 1, 5, 23, 1, 6] [0, 0, 77, 23, 1, 6]) 3 [] :: l) ∧
    (view 16 m.st.log).raw = [23, 1, 6] := by
  let vs : List (Move Call) := creation ++ opening ++ [.enter (.uBytes 16 [23, 1, 5, 23, 1, 6]), ans 306,
    .answer 0 [0, 0, 77, 23, 1, 6], .answer 1 [77], ans 0, ans 3, ans 307]
  exact ⟨after std vs, after_reach (by decide +kernel), by decide +kernel,
    ⟨(after std vs).st.log.drop 4, by decide +kernel⟩, by decide +kernel⟩

/-- Bytes for which there is no memory are dropped in silence; the bytes that come after them are
given to SSPI as if nothing had been lost. -/
theorem dropped_silently : ∃ m, Reachable m ∧ m.stack.length = 1 ∧
    (∃ l, m.st.log = .call 16 (.decrypt 201 [6]) :: .enter (.uBytes 16 [6]) ::
      .leave (.uBytes 16 [23, 5]) 0 :: .ret 16 (.realloc .chunk 305 2) 0 [] :: l) := by
  let vs : List (Move Call) := creation ++ opening ++ [.enter (.uBytes 16 [23, 5]), ans 0,
    .enter (.uBytes 16 [6])]
  exact ⟨after std vs, after_reach (by decide +kernel), by decide +kernel,
    ⟨(after std vs).st.log.drop 4, by decide +kernel⟩⟩

/-- A TLS IO that is closed and opened again gives SSPI the bytes of the old connection with those of
the new. -/
theorem stale_bytes : ∃ m l, Reachable m ∧
    m.st.log = .call 16 (.initNext 210 211 40 [23, 22]) :: .enter (.uBytes 16 [22]) :: l := by
  let vs : List (Move Call) := creation ++ opening ++ receiving ++ closing ++
    [.enter (.open 16 cbs), ans 0, .enter (.uOpen 16 .ok), ans 210, .answer 590610 [22, 1], ans 211, ans 0,
     .enter (.uBytes 16 [22])]
  exact ⟨after std vs, (after std vs).st.log.drop 2, after_reach (by decide +kernel), by decide +kernel⟩

/-- The credential handle of the first open is lost when the TLS IO is opened again. -/
theorem reopen_leaks : ∃ m, Reachable m ∧ m.stack.isEmpty = true ∧ alives m.st.log = [] ∧
    held (.cred 200) m.st.log = 1 := by
  let vs : List (Move Call) := creation ++ hello ++ closing ++ 
    [.enter (.open 16 cbs), ans 0, .enter (.uOpen 16 .ok), ans 210, .answer 590610 [22, 1], ans 211, ans 0] ++
    destruction
  exact ⟨after std vs, after_reach (by decide +kernel), by decide +kernel⟩

/-- The security contexts SSPI makes are never deleted, and the memory for tokens never freed. -/
theorem contexts_leak {m : Mach Inst Op Call} (hm : Reachable m) {h c : Nat} {bs : Bytes} :
    .call h (.deleteCtx c) ∉ m.st.log ∧ .call h (.freeToken bs) ∉ m.st.log := by
  constructor <;> intro hin <;> obtain ⟨l1, l2, hl⟩ := List.append_of_mem hin
  · exact (claim_at hm hl).2
  · exact (claim_at hm hl).2

/-- A send of no bytes succeeds on no TLS IO at all, and its completion is never reported. -/
theorem empty_send : ∃ m, Reachable m ∧
    m.st.log = [.leave (.send 0 true [] 56 57) 0, .enter (.send 0 true [] 56 57)] := by
  let vs : List (Move Call) := [.enter (.send 0 true [] 56 57)]
  exact ⟨after std vs, after_reach (by decide +kernel), by decide +kernel⟩

/-- If the lower IO refuses to open, the open fails, but the TLS IO stays opening: it can be opened no
more. -/
theorem refused_open_stuck : ∃ m l, Reachable m ∧ m.st.log =
    .leave (.open 16 cbs) 630 :: .enter (.open 16 cbs) :: .leave (.open 16 cbs) 647 :: l := by
  let vs : List (Move Call) := creation ++ [.enter (.open 16 cbs), ans 1, .enter (.open 16 cbs)]
  exact ⟨after std vs, (after std vs).st.log.drop 3, after_reach (by decide +kernel), by decide +kernel⟩

/-- If the lower IO refuses to close, the close fails, and the TLS IO can be closed and opened no
more. -/
theorem refused_close_stuck : ∃ m l, Reachable m ∧ m.st.log =
    .leave (.open 16 cbs) 630 :: .enter (.open 16 cbs) :: .leave (.close 16 60 61) 674 ::
      .enter (.close 16 60 61) :: .leave (.close 16 60 61) 683 :: l := by
  let vs : List (Move Call) := creation ++ opening ++ [.enter (.close 16 60 61), ans 1,
    .enter (.close 16 60 61), .enter (.open 16 cbs)]
  exact ⟨after std vs, (after std vs).st.log.drop 5, after_reach (by decide +kernel), by decide +kernel⟩

/-- The user closes in a callback of his inside the handshake (here the lower IO calls him while it
sends a token); the handshake goes on and the TLS IO forgets that it is closing: the close is never
answered. -/
theorem close_forgotten : ∃ m l, Reachable m ∧ m.stack.isEmpty = true ∧ phase 16 m.st.log = .handshake ∧
    m.st.log = .leave (.uClose 16) 0 :: .enter (.uClose 16) :: l ∧
    .leave (.close 16 60 61) 0 ∈ l ∧ ∀ fn ctx, .call 16 (.onClose fn ctx) ∉ m.st.log := by
  let vs : List (Move Call) := creation ++ hello ++ [.enter (.uBytes 16 [22, 2]), ans 301,
    .answer 590610 [22, 4, 5], .enter (.close 16 60 61), ans 0, ans 0, ans (-1), ans 303,
    .enter (.uClose 16)]
  have h : (after std vs).st.log.all (fun e => match e with
      | .call _ (.onClose ..) => false | _ => true) = true := by decide +kernel
  refine ⟨after std vs, (after std vs).st.log.drop 2, after_reach (by decide +kernel), by decide +kernel,
    by decide +kernel, by decide +kernel, by decide +kernel, ?_⟩
  intro fn ctx hc
  have := List.all_eq_true.1 h _ hc
  simp at this

/-- An environment in which the lower IO may deliver before the client hello has been sent. -/
def early : Policy := { std with earlyBytes := true }

/-- There, a number is used that was never written. -/
theorem early_bytes : ∃ m, Reach (sys early) m ∧ m.wrong = true := by
  let vs : List (Move Call) := creation ++ [.enter (.open 16 cbs), .enter (.uBytes 16 [1]), ans 300]
  exact ⟨after early vs, after_reach (by decide +kernel), by decide +kernel⟩

/-- An environment in which the lower IO may deliver bytes while a delivery is dealt with, for example
because the user gives it time in his callback for received bytes. -/
def nested : Policy := { std with nestedBytes := true }

/-- There, memory outside a block is used: the inner delivery uses the bytes up that the outer one is
dealing with. -/
theorem nested_bytes : ∃ m, Reach (sys nested) m ∧ m.wrong = true := by
  let vs : List (Move Call) := creation ++ opening ++ [.enter (.uBytes 16 [23, 5]), ans 306,
    .answer 0 [77, 5], .answer 1 [77], .enter (.dowork 16), .enter (.uBytes 16 [6]), ans 307,
    .answer 0 [0, 77, 0], .answer 1 [77], ans 0, ans (-1), ans 308, ans 0, ans 0, ans 1]
  exact ⟨after nested vs, after_reach (by decide +kernel), by decide +kernel⟩

/-- An environment in which a TLS IO may be destroyed while one of its functions is in progress. -/
def destroyAnywhere : Policy := { std with destroyInside := true }

/-- There, memory is used after it was freed: a user who destroys the TLS IO in his callback for
received bytes. -/
theorem destroy_in_callback : ∃ m, Reach (sys destroyAnywhere) m ∧ m.wrong = true := by
  let vs : List (Move Call) := creation ++ opening ++ [.enter (.uBytes 16 [23, 5]), ans 306,
    .answer 0 [0, 77], .answer 1 [77]] ++ destruction ++ [ans 0, ans (-1)]
  exact ⟨after destroyAnywhere vs, after_reach (by decide +kernel), by decide +kernel⟩

end Verif.Schan
