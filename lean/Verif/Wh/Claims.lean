import Verif.Wh.Ledger
/-! # C104, C105, C107: what a request sends, what it delivers, and what memory is lost -/
set_option linter.unusedSimpArgs false
set_option linter.unusedVariables false
namespace Verif.Wh
open Verif.Headers (Hdrs isLWS stored StoreE okName)
open Verif.Buffer (Content)
open Verif.Curl (Args)
open Verif.Sas (text)
variable {rel : Prop} {W : Codec} {ops : List Op} {outs : List (Option Out)} {as : List (Option Obj)} {log : Log}

/-! ## Definitions used in the statements -/

def Ev.sends : Ev → Bool
  | .send .. => true
  | _ => false

/-- what the client is to receive of a body that WinHTTP announced and delivered in the pieces `ps` -/
def pieceEvs (q : Nat) (ps : List (Nat × Text)) : List Ev := ps.flatMap fun p => [.avail q (some p.1), .read q (some p.2)]

/-- the lines of the response that hold a header: those that can be converted and have a colon -/
def fieldLines (W : Codec) (w : Wide) : List Text := ((linesOf w).filterMap W.narrow).filter (58 ∈ ·)

/-- the headers after these lines were added, one after the other -/
def addLines (hs : Hdrs) (ts : List Text) : Hdrs := ts.foldl (fun hs t => stored false hs (nameOf t) ((valueOf t).dropWhile isLWS)) hs

/-! ## What is sent -/

/-- the events before a request is sent, and the request itself -/
def SentE (W : Codec) (a : Option Obj) (x : Args) (q : Nat) (ok : Bool) (evs : List Ev) : Prop :=
  ∃ o path hs wp wh, a = some o ∧ x.path = some path ∧ x.hdrs = some hs ∧ x.type < 5 ∧ W.widen path = some wp ∧ W.widen (reqText hs) = some wh ∧ q ≠ 0 ∧
    evs = [.openRequest o.con (verbOf x.type) wp q, .timeouts q 0 60000 (asInt o.timeout) (asInt o.timeout) true, .security q 0 true,
      .send q wh (x.body.take (x.body.length % 2 ^ 32)) ok]

theorem BodyE.noSend {q : Nat} {c c' : Content} {r : Res} {evs : List Ev} (h : BodyE rel q c r c' evs) : ∀ e ∈ evs, e.sends = false := by
  induction h with
  | failed => simp [Ev.sends]
  | last => simp [Ev.sends]
  | full => simp [Ev.sends]
  | broken => simp [Ev.sends]
  | nothing => simp [Ev.sends]
  | piece _ _ _ ih =>
    intro e he
    rcases List.mem_cons.1 he with rfl | he
    · rfl
    rcases List.mem_cons.1 he with rfl | he
    · rfl
    exact ih e he

theorem HeadersE.noSend {q : Nat} {hs hs' : Hdrs} {r : Res} {evs : List Ev} {k : Nat} (h : HeadersE rel W q hs r hs' evs k) : ∀ e ∈ evs, e.sends = false := by
  obtain ⟨len, ⟨_, _, _, rfl, _⟩ | ⟨_, _, rfl, _⟩ | ⟨w, rfl, _⟩⟩ := h <;> simp [Ev.sends]

theorem ReceiveE.noSend {q : Nat} {x x' : Args} {r : Res} {evs : List Ev} {k : Nat} (h : ReceiveE rel W q x r x' evs k) : ∀ e ∈ evs, e.sends = false := by
  rcases h with ⟨_, _, rfl, _⟩ | ⟨_, _, rfl, _⟩ | ⟨code, evs1, h, rfl⟩
  · simp [Ev.sends]
  · simp [Ev.sends]
  · have : ∀ e ∈ evs1, e.sends = false := by
      rcases h with ⟨_, _, _, _, rfl, _⟩ | ⟨r1, c', evs1, hb, ⟨_, _, _, rfl, _⟩ | ⟨_, hs, hs', evs2, _, hh, _, rfl⟩⟩
      · simp
      · exact hb.noSend
      · intro e he
        rcases List.mem_append.1 he with he | he
        · exact hb.noSend e he
        · exact hh.noSend e he
    intro e he
    rcases List.mem_cons.1 he with rfl | he
    · rfl
    rcases List.mem_cons.1 he with rfl | he
    · rfl
    exact this e he

theorem ExecE.sent {n : Nat} {a : Option Obj} {x x' : Args} {r : Res} {evs : List Ev} {k : Nat} (h : ExecE rel W n a x r x' evs k) :
    (∀ e ∈ evs, e.sends = false) ∨ ∃ q ok head rest, SentE W a x q ok head ∧ evs = head ++ rest ++ [.close q] ∧ (∀ e ∈ rest, e.sends = false) := by
  unfold ExecE at h
  split at h
  · left; rw [h.2.2.1]; simp
  · split at h
    · rename_i o path hs _ _
      split at h
      · left; rw [h.2.2.1]; simp
      · rename_i h1 h2 ht
        rcases h with ⟨_, _, _, h, _⟩ | ⟨_, _, _, h, _⟩ | ⟨wp, wh, hwp, hwh, ⟨_, _, h, _⟩ | ⟨q, evs1, hq, hO, h⟩⟩
        · left; rw [h]; simp
        · left; rw [h]; simp
        · left; rw [h]; simp [Ev.sends]
        · rcases hO with ⟨_, _, rfl, _⟩ | ⟨_, _, rfl, _⟩ | ⟨_, _, rfl, _⟩ | ⟨evs2, hR, rfl⟩
          · left; rw [h]; simp [Ev.sends]
          · left; rw [h]; simp [Ev.sends]
          · right
            exact ⟨q, false, _, [], ⟨o, path, hs, wp, wh, rfl, h1, h2, by omega, hwp, hwh, hq, rfl⟩, by rw [h]; rfl, by simp⟩
          · right
            exact ⟨q, true, _, evs2, ⟨o, path, hs, wp, wh, rfl, h1, h2, by omega, hwp, hwh, hq, rfl⟩, by rw [h]; rfl, hR.noSend⟩
    · left; rw [h.2.2.1]; simp

/-- C104: a request is sent at most once, on the connection of the handle, with the method, path, headers, and timeout asked for; the body is cut
at its length modulo 2³². -/
theorem sent_once (h : Runs (step rel W) ([], []) ops outs (as, log)) {pre post : Log} {p : Option Nat} {x x' : Args} {r : Res} {k : Nat} {evs : List Ev}
    (he : log = pre ++ ⟨p, .request x r x' k, evs⟩ :: post) {q : Nat} {wh : Wide} {body : Text} {ok : Bool} (hs : Ev.send q wh body ok ∈ evs) :
    evs.countP Ev.sends = 1 ∧ ∃ i o path hd wp, p = some i ∧ objAt i pre = some o ∧ x.path = some path ∧ x.hdrs = some hd ∧ x.type < 5 ∧
      W.widen path = some wp ∧ W.widen (reqText hd) = some wh ∧ body = x.body.take (x.body.length % 2 ^ 32) ∧
      evs.take 3 = [.openRequest o.con (verbOf x.type) wp q, .timeouts q 0 60000 (asInt o.timeout) (asInt o.timeout) true, .security q 0 true] := by
  obtain ⟨i, hp, hE⟩ := requests h he
  rcases hE.sent with hn | ⟨q1, ok1, head, rest, ⟨o, path, hd, wp, wh1, h1, h2, h3, h4, h5, h6, _, rfl⟩, rfl, hr⟩
  · exact absurd (hn _ hs) (by simp [Ev.sends])
  · have hz : rest.countP Ev.sends = 0 := List.countP_eq_zero.2 fun e he => by simp [hr e he]
    have hns : Ev.send q wh body ok ∉ rest := fun hm => absurd (hr _ hm) (by simp [Ev.sends])
    simp [hns] at hs
    obtain ⟨rfl, rfl, rfl, rfl⟩ := hs
    exact ⟨by simp [List.countP_append, List.countP_cons, hz, Ev.sends], i, o, path, hd, wp, hp, h1, h2, h3, h4, h5, h6, rfl, by simp⟩

/-- the events of a request that reports success -/
theorem ExecE.ok {n : Nat} {a : Option Obj} {x x' : Args} {evs : List Ev} {k : Nat} (h : ExecE rel W n a x .ok x' evs k) :
    ∃ q head code rest, SentE W a x q true head ∧ AnswerE rel W q code x .ok x' rest k ∧
      evs = head ++ .receive q true :: .status q (some code) :: (rest ++ [.close q]) := by
  unfold ExecE at h
  split at h
  · cases h.1
  · split at h
    · rename_i o path hs _ _
      split at h
      · cases h.1
      · rename_i h1 h2 ht
        rcases h with ⟨h, _⟩ | ⟨h, _⟩ | ⟨wp, wh, hwp, hwh, ⟨h, _⟩ | ⟨q, evs1, hq, hO, h⟩⟩
        · cases h
        · cases h
        · cases h
        · rcases hO with ⟨h, _⟩ | ⟨h, _⟩ | ⟨h, _⟩ | ⟨evs2, hR, rfl⟩
          · cases h
          · cases h
          · cases h
          · rcases hR with ⟨h, _⟩ | ⟨h, _⟩ | ⟨code, evs3, hA, rfl⟩
            · cases h
            · cases h
            · exact ⟨q, _, code, evs3, ⟨o, path, hs, wp, wh, rfl, h1, h2, by omega, hwp, hwh, hq, rfl⟩, hA, by rw [h]; simp⟩
    · cases h.1

/-- C104: a request that reports success was sent as the client wants it, provided its body has less than 2³² bytes (`body_cut` in `Demo`: larger
bodies are cut).  What is missing of the full claim: that this holds for bodies of any size. -/
theorem request_sent_partial (h : Runs (step rel W) ([], []) ops outs (as, log)) {pre post : Log} {p : Option Nat} {x x' : Args} {k : Nat} {evs : List Ev}
    (he : log = pre ++ ⟨p, .request x .ok x' k, evs⟩ :: post) (hb : x.body.length < 2 ^ 32) :
    ∃ i o q path hd wp wh rest, p = some i ∧ objAt i pre = some o ∧ x.path = some path ∧ x.hdrs = some hd ∧ x.type < 5 ∧
      W.widen path = some wp ∧ W.widen (reqText hd) = some wh ∧
      evs = [.openRequest o.con (verbOf x.type) wp q, .timeouts q 0 60000 (asInt o.timeout) (asInt o.timeout) true, .security q 0 true,
        .send q wh x.body true, .receive q true] ++ rest := by
  obtain ⟨i, hp, hE⟩ := requests h he
  obtain ⟨q, head, code, rest, ⟨o, path, hd, wp, wh, h1, h2, h3, h4, h5, h6, _, rfl⟩, _, rfl⟩ := hE.ok
  rw [Nat.mod_eq_of_lt hb, List.take_length]
  exact ⟨i, o, q, path, hd, wp, wh, _, hp, h1, h2, h3, h4, h5, h6, rfl⟩

/-- C104: and if memory is not refused while the client makes the headers, they are the ones of its list -/
theorem headers_passed (h : Runs (step rel W) ([], []) ops outs (as, log)) (hr : rel) {p : Option Nat} {x x' : Args} {r : Res} {k : Nat} {evs : List Ev} {hs : Hdrs}
    (he : (⟨p, .request x r x' k, evs⟩ : Entry) ∈ log) (hhd : x.hdrs = some hs) :
    ∃ i type path l content status rhdrs rcontent, p = some i ∧ Op.request i type path (some l) content status rhdrs rcontent ∈ ops ∧
      (Curl.Fits [] l → hs = Curl.merged [] l) := by
  obtain ⟨i, t, q, hd, ct, st, rh, rc, h2, h3, hM⟩ := requests_made h he
  obtain ⟨l, rfl, hB⟩ := hM.2.2.1.1 hs hhd
  exact ⟨i, t, q, l, ct, st, rh, rc, h2, h3, fun hf => Ti.built_all hr hB hf⟩

/-- C104: nothing reaches WinHTTP for a request that is refused because of its arguments, before `HTTPAPI_Init`, or on a handle that is no connection -/
theorem refused_not_sent (h : Runs (step rel W) ([], []) ops outs (as, log)) {pre post : Log} {i : Nat} {x x' : Args} {r : Res} {k : Nat} {evs : List Ev}
    (he : log = pre ++ ⟨some i, .request x r x' k, evs⟩ :: post)
    (hb : users pre = 0 ∨ objAt i pre = none ∨ x.path = none ∨ x.hdrs = none ∨ 5 ≤ x.type) :
    r = (if users pre = 0 then .notInit else .invalidArg) ∧ evs = [] ∧ x' = x := by
  obtain ⟨j, hj, hE⟩ := requests h he
  cases hj
  unfold ExecE at hE
  split at hE
  · rename_i h0; rw [if_pos h0]; exact ⟨hE.1, hE.2.2.1, hE.2.1⟩
  · rename_i h0
    rw [if_neg h0]
    split at hE
    · rename_i h1 h2 h3
      split at hE
      · exact ⟨hE.1, hE.2.2.1, hE.2.1⟩
      · simp_all
    · exact ⟨hE.1, hE.2.2.1, hE.2.1⟩

/-! ## What is delivered -/

theorem BodyE.ok {q : Nat} {c c' : Content} {evs : List Ev} {r : Res} (h : BodyE rel q c r c' evs) (hr : r = .ok) :
    ∃ ps : List (Nat × Text), (∀ p ∈ ps, p.2 ≠ [] ∧ p.2.length ≤ p.1) ∧ evs = pieceEvs q ps ++ [.avail q (some 0)] ∧
      c' = ps.foldl (fun c p => grown c p.1 p.2) c := by
  induction h with
  | failed => cases hr
  | last => exact ⟨[], by simp, rfl, rfl⟩
  | full => cases hr
  | broken => cases hr
  | nothing => cases hr
  | @piece c a bs r c' evs h1 h2 _ ih =>
    obtain ⟨ps, h3, rfl, rfl⟩ := ih hr
    refine ⟨(a, bs) :: ps, ?_, rfl, rfl⟩
    intro p hp
    rcases List.mem_cons.1 hp with rfl | hp
    · exact ⟨h1, h2⟩
    · exact h3 p hp

/-- pieces that are as long as announced are added to the buffer one after the other -/
theorem grown_all {c : Content} : ∀ {ps : List (Nat × Text)}, (∀ p ∈ ps, p.2.length = p.1) →
    ps.foldl (fun c p => grown c p.1 p.2) c = if ps = [] then c else some (c.getD [] ++ bytesV (ps.flatMap (·.2)))
  | [], _ => rfl
  | p :: ps, h => by
    rw [List.foldl_cons, grown_all fun p hp => h p (by simp [hp])]
    have h1 : grown c p.1 p.2 = some (c.getD [] ++ bytesV p.2) := by simp [grown, h p (by simp)]
    rw [h1]
    by_cases hps : ps = []
    · subst hps; simp
    · simp [hps, bytesV]

theorem LinesE.ok : ∀ {ls : List Wide} {hs hs' : Hdrs} {k : Nat}, LinesE rel W ls hs .ok hs' k →
    ∃ ts : List Text, ts.Sublist ((ls.filterMap W.narrow).filter (58 ∈ ·)) ∧ (rel → ts = (ls.filterMap W.narrow).filter (58 ∈ ·)) ∧
      (∀ t ∈ ts, okName (nameOf t)) ∧ hs' = addLines hs ts ∧ k = 0
  | [], hs, hs', k, h => ⟨[], by simp, fun _ => rfl, by simp, h.2.1, h.2.2⟩
  | w :: ws, hs, hs', k, h => by
    unfold LinesE at h
    split at h
    · rename_i hn
      rw [List.filterMap_cons_none hn]
      exact LinesE.ok h
    · rename_i t hn
      rw [List.filterMap_cons_some hn]
      rcases h with ⟨hr, h⟩ | h
      · obtain ⟨ts, h1, h2, h3, h4, h5⟩ := LinesE.ok h
        exact ⟨ts, h1.trans (by rw [List.filter_cons]; split <;> simp), fun h => absurd h hr, h3, h4, h5⟩
      · split at h
        · rename_i hc
          obtain ⟨r1, hs1, hS, h⟩ := h
          split at h
          · rename_i hr1
            subst hr1
            obtain ⟨hk, rfl⟩ := Ti.StoreE.good hS
            obtain ⟨ts, h1, h2, h3, h4, h5⟩ := LinesE.ok h
            refine ⟨t :: ts, ?_, ?_, ?_, h4, h5⟩
            · rw [List.filter_cons, if_pos (by simpa using hc)]; exact h1.cons_cons t
            · intro hr; rw [List.filter_cons, if_pos (by simpa using hc), ← h2 hr]
            · intro u hu
              rcases List.mem_cons.1 hu with rfl | hu
              · exact hk
              · exact h3 u hu
          · cases h.1
        · rename_i hc
          rw [List.filter_cons, if_neg (by simpa using hc)]
          exact LinesE.ok h

/-- what a request that reports success has stored of the headers -/
def HeadersOk (rel : Prop) (W : Codec) (q : Nat) (rh rh' : Option Hdrs) (evs : List Ev) : Prop :=
  match rh with
  | none => rh' = none ∧ evs = []
  | some hs => ∃ len, (rh' = some hs ∧ evs = [.rawSize q len, .raw q none]) ∨
      ∃ w ts, evs = [.rawSize q len, .raw q (some w)] ∧ ts.Sublist (fieldLines W w) ∧ (rel → ts = fieldLines W w) ∧ rh' = some (addLines hs ts)

/-- C105: A request that reports success has received a response: the client is told its status code, the body WinHTTP delivered piece by piece up
to the end is put behind what was in the buffer, and the headers are added to the client's.  What is missing of the full claim ("the buffer holds
the body and the headers are those of the response"): the buffer keeps what it held (`stale_body`), a piece that is shorter than announced
leaves a hole (`hole_left`), and headers that WinHTTP does not give are not missed (`headers_missed`). -/
theorem response_delivered_partial (h : Runs (step rel W) ([], []) ops outs (as, log)) {pre post : Log} {p : Option Nat} {x x' : Args} {k : Nat} {evs : List Ev}
    (he : log = pre ++ ⟨p, .request x .ok x' k, evs⟩ :: post) :
    ∃ q code ps head tail, (∀ e ∈ head, e.inside q ∨ ∃ c v u, e = .openRequest c v u q) ∧ (∀ p ∈ ps, p.2 ≠ [] ∧ p.2.length ≤ p.1) ∧
      evs = head ++ [.receive q true, .status q (some code)] ++ pieceEvs q ps ++ [.avail q (some 0)] ++ tail ++ [.close q] ∧
      x'.status = x.status.map (fun _ => .int code) ∧
      x'.rcontent = x.rcontent.map (fun c => ps.foldl (fun c p => grown c p.1 p.2) c) ∧
      ((∀ p ∈ ps, p.2.length = p.1) → x'.rcontent = x.rcontent.map fun c => if ps = [] then c else some (c.getD [] ++ bytesV (ps.flatMap (·.2)))) ∧
      HeadersOk rel W q x.rhdrs x'.rhdrs tail := by
  obtain ⟨i, hp, hE⟩ := requests h he
  obtain ⟨q, head, code, rest, ⟨o, path, hd, wp, wh, h1, h2, h3, h4, h5, h6, _, hhead⟩, hA, rfl⟩ := hE.ok
  have hh : ∀ e ∈ head, e.inside q ∨ ∃ c v u, e = .openRequest c v u q := by
    subst hhead
    intro e he
    simp at he
    rcases he with rfl | rfl | rfl | rfl
    · exact .inr ⟨_, _, _, rfl⟩
    all_goals exact .inl (by simp [Ev.inside])
  rcases hA with ⟨_, _, h, _⟩ | ⟨r1, c', evs1, hb, ⟨h7, rfl, rfl, rfl, _⟩ | ⟨rfl, hs, hs', evs2, h7, hH, rfl, rfl⟩⟩
  · cases h
  · obtain ⟨ps, h8, rfl, rfl⟩ := hb.ok rfl
    have hx : x.rhdrs = none := by simpa using h7
    have hc : x.rcontent.map (fun _ => ps.foldl (fun c p => grown c p.1 p.2) (x.rcontent.getD none)) =
        x.rcontent.map (fun c => ps.foldl (fun c p => grown c p.1 p.2) c) := by cases x.rcontent <;> rfl
    refine ⟨q, code, ps, head, [], hh, h8, by simp, rfl, hc, fun hf => ?_, ?_⟩
    · show x.rcontent.map _ = _
      rw [hc]; cases x.rcontent with
      | none => rfl
      | some c => simp only [Option.map_some]; rw [grown_all hf]
    · simp [HeadersOk, hx]
  · obtain ⟨ps, h8, rfl, rfl⟩ := hb.ok rfl
    have hc : x.rcontent.map (fun _ => ps.foldl (fun c p => grown c p.1 p.2) (x.rcontent.getD none)) =
        x.rcontent.map (fun c => ps.foldl (fun c p => grown c p.1 p.2) c) := by cases x.rcontent <;> rfl
    refine ⟨q, code, ps, head, evs2, hh, h8, by simp, rfl, hc, fun hf => ?_, ?_⟩
    · show x.rcontent.map _ = _
      rw [hc]; cases x.rcontent with
      | none => rfl
      | some c => simp only [Option.map_some]; rw [grown_all hf]
    · rw [h7]
      obtain ⟨len, ⟨h, _⟩ | ⟨_, rfl, rfl, _⟩ | ⟨w, rfl, hL⟩⟩ := hH
      · cases h
      · exact ⟨len, .inl ⟨rfl, rfl⟩⟩
      · obtain ⟨ts, h9, h10, _, rfl, _⟩ := hL.ok
        exact ⟨len, .inr ⟨w, ts, rfl, h9, h10, rfl⟩⟩

/-- C105: the client's status, headers and buffer are left alone unless a response has arrived. -/
theorem untouched (h : Runs (step rel W) ([], []) ops outs (as, log)) {pre post : Log} {p : Option Nat} {x x' : Args} {r : Res} {k : Nat} {evs : List Ev}
    (he : log = pre ++ ⟨p, .request x r x' k, evs⟩ :: post) (hn : ∀ q c, Ev.status q (some c) ∉ evs) : r ≠ .ok ∧ x' = x := by
  obtain ⟨i, hp, hE⟩ := requests h he
  unfold ExecE at hE
  split at hE
  · exact ⟨by simp [hE.1], hE.2.1⟩
  · split at hE
    · split at hE
      · exact ⟨by simp [hE.1], hE.2.1⟩
      · rcases hE with ⟨rfl, _, h, _⟩ | ⟨rfl, _, h, _⟩ | ⟨wp, wh, _, _, ⟨rfl, h, _⟩ | ⟨q, evs1, _, hO, rfl⟩⟩
        · exact ⟨by simp, h⟩
        · exact ⟨by simp, h⟩
        · exact ⟨by simp, h⟩
        · rcases hO with ⟨rfl, h, _⟩ | ⟨rfl, h, _⟩ | ⟨rfl, h, _⟩ | ⟨evs2, hR, rfl⟩
          · exact ⟨by simp, h⟩
          · exact ⟨by simp, h⟩
          · exact ⟨by simp, h⟩
          · rcases hR with ⟨rfl, h, _⟩ | ⟨rfl, h, _⟩ | ⟨code, evs3, hA, rfl⟩
            · exact ⟨by simp, h⟩
            · exact ⟨by simp, h⟩
            · exact absurd (by simp) (hn q code)
    · exact ⟨by simp [hE.1], hE.2.1⟩

/-- C105: a failure of WinHTTP on the way to the end of the body is reported: a request that reports success has seen no failure but possibly
that of the headers of the response. -/
theorem no_failure (h : Runs (step rel W) ([], []) ops outs (as, log)) {pre post : Log} {p : Option Nat} {x x' : Args} {k : Nat} {evs : List Ev}
    (he : log = pre ++ ⟨p, .request x .ok x' k, evs⟩ :: post) :
    ∀ e ∈ evs, match e with
      | .openRequest _ _ _ q => q ≠ 0
      | .timeouts _ _ _ _ _ ok | .security _ _ ok | .send _ _ _ ok | .receive _ ok => ok = true
      | .status _ y => y ≠ none
      | .avail _ y => y ≠ none
      | .read _ y => y ≠ none ∧ y ≠ some []
      | _ => True := by
  obtain ⟨i, hp, hE⟩ := requests h he
  obtain ⟨q, head, code, rest, ⟨o, path, hd, wp, wh, h1, h2, h3, h4, h5, h6, hq, rfl⟩, hA, rfl⟩ := hE.ok
  have body : ∀ {c c' : Content} {r : Res} {evs : List Ev}, BodyE rel q c r c' evs → r = .ok → ∀ e ∈ evs, match e with
      | .openRequest _ _ _ q => q ≠ 0
      | .timeouts _ _ _ _ _ ok | .security _ _ ok | .send _ _ _ ok | .receive _ ok => ok = true
      | .status _ y => y ≠ none
      | .avail _ y => y ≠ none
      | .read _ y => y ≠ none ∧ y ≠ some []
      | _ => True := by
    intro c c' r evs hb
    induction hb with
    | failed => intro h; cases h
    | last => intro _ e he; simp at he; subst he; simp
    | full => intro h; cases h
    | broken => intro h; cases h
    | nothing => intro h; cases h
    | piece hne _ _ ih =>
      intro hr e he
      rcases List.mem_cons.1 he with rfl | he
      · simp
      rcases List.mem_cons.1 he with rfl | he
      · simp [hne]
      exact ih hr e he
  have hrest : ∀ e ∈ rest, match e with
      | .openRequest _ _ _ q => q ≠ 0
      | .timeouts _ _ _ _ _ ok | .security _ _ ok | .send _ _ _ ok | .receive _ ok => ok = true
      | .status _ y => y ≠ none
      | .avail _ y => y ≠ none
      | .read _ y => y ≠ none ∧ y ≠ some []
      | _ => True := by
    rcases hA with ⟨_, _, h, _⟩ | ⟨r1, c', evs1, hb, ⟨h7, rfl, rfl, rfl, _⟩ | ⟨rfl, hs, hs', evs2, h7, hH, rfl, rfl⟩⟩
    · cases h
    · exact body hb rfl
    · intro e he
      rcases List.mem_append.1 he with he | he
      · exact body hb rfl e he
      · obtain ⟨len, ⟨h, _⟩ | ⟨_, _, rfl, _⟩ | ⟨w, rfl, _⟩⟩ := hH
        · cases h
        · simp at he; rcases he with rfl | rfl <;> trivial
        · simp at he; rcases he with rfl | rfl <;> trivial
  intro e he
  simp at he
  rcases he with rfl | rfl | rfl | rfl | rfl | rfl | he | rfl
  · exact hq
  · rfl
  · rfl
  · rfl
  · rfl
  · simp
  · exact hrest e he
  · trivial

/-! ## Memory -/

theorem LinesE.lost : ∀ {ls : List Wide} {hs hs' : Hdrs} {r : Res} {k : Nat}, LinesE rel W ls hs r hs' k → k = if r = .ok then 0 else 1
  | [], hs, hs', r, k, h => by rw [if_pos h.1]; exact h.2.2
  | w :: ws, hs, hs', r, k, h => by
    unfold LinesE at h
    split at h
    · exact LinesE.lost h
    · rcases h with ⟨_, h⟩ | h
      · exact LinesE.lost h
      · split at h
        · obtain ⟨r1, hs1, _, h⟩ := h
          split at h
          · exact LinesE.lost h
          · rw [if_neg (by simp [h.1])]; exact h.2.2
        · exact LinesE.lost h

theorem LinesE.result : ∀ {ls : List Wide} {hs hs' : Hdrs} {r : Res} {k : Nat}, LinesE rel W ls hs r hs' k → r = .ok ∨ r = .httpHeadersFailed
  | [], hs, hs', r, k, h => .inl h.1
  | w :: ws, hs, hs', r, k, h => by
    unfold LinesE at h
    split at h
    · exact LinesE.result h
    · rcases h with ⟨_, h⟩ | h
      · exact LinesE.result h
      · split at h
        · obtain ⟨r1, hs1, _, h⟩ := h
          split at h
          · exact LinesE.result h
          · exact .inr h.1
        · exact LinesE.result h

theorem BodyE.result {q : Nat} {c c' : Content} {r : Res} {evs : List Ev} (h : BodyE rel q c r c' evs) :
    r = .ok ∨ r = .queryDataAvailableFailed ∨ r = .readDataFailed ∨ r = .error := by
  induction h <;> simp_all

theorem ExecE.lost {n : Nat} {a : Option Obj} {x x' : Args} {r : Res} {evs : List Ev} {k : Nat} (h : ExecE rel W n a x r x' evs k) :
    k = if r = .httpHeadersFailed then 1 else 0 := by
  unfold ExecE at h
  split at h
  · simp [h.1, h.2.2.2]
  · split at h
    · split at h
      · simp [h.1, h.2.2.2]
      · rcases h with ⟨rfl, _, _, _, rfl⟩ | ⟨rfl, _, _, _, rfl⟩ | ⟨wp, wh, _, _, ⟨rfl, _, _, rfl⟩ | ⟨q, evs1, _, hO, rfl⟩⟩
        · simp
        · simp
        · simp
        · rcases hO with ⟨rfl, _, _, rfl⟩ | ⟨rfl, _, _, rfl⟩ | ⟨rfl, _, _, rfl⟩ | ⟨evs2, hR, rfl⟩
          · simp
          · simp
          · simp
          · rcases hR with ⟨rfl, _, _, rfl⟩ | ⟨rfl, _, _, rfl⟩ | ⟨code, evs3, hA, rfl⟩
            · simp
            · simp
            · rcases hA with ⟨_, _, rfl, _, _, rfl⟩ | ⟨r1, c', evs1, hb, ⟨_, rfl, _, _, rfl⟩ | ⟨rfl, hs, hs', evs2, h7, hH, _, _⟩⟩
              · simp
              · rcases hb.result with rfl | rfl | rfl | rfl <;> simp
              · obtain ⟨len, ⟨rfl, _, _, _, rfl⟩ | ⟨rfl, _, _, rfl⟩ | ⟨w, _, hL⟩⟩ := hH
                · simp
                · simp
                · rw [hL.lost]
                  rcases hL.result with rfl | rfl <;> simp
    · simp [h.1, h.2.2.2]

/-- C107: a request loses one block of memory if it reports that the headers of the response cannot be stored, and none otherwise. -/
theorem lost_by_request (h : Runs (step rel W) ([], []) ops outs (as, log)) {p : Option Nat} {x x' : Args} {r : Res} {k : Nat} {evs : List Ev}
    (he : (⟨p, .request x r x' k, evs⟩ : Entry) ∈ log) : k = if r = .httpHeadersFailed then 1 else 0 := by
  obtain ⟨pre, post, rfl⟩ := List.append_of_mem he
  obtain ⟨i, _, hE⟩ := requests h rfl
  exact hE.lost

theorem left_all : ∀ {log : Log} {x : Nat × List Obj}, x.2 = [] →
    (∀ pre i o evs post, log = pre ++ ⟨i, .close (some o), evs⟩ :: post → (pre.foldl usersStep x.1) ≠ 0) → (log.foldl leftStep x).2 = []
  | [], _, hx, _ => hx
  | e :: log, x, hx, h => by
    rw [List.foldl_cons]
    refine left_all ?_ ?_
    · obtain ⟨p, c, evs⟩ := e
      unfold leftStep
      dsimp only
      split
      · rename_i o
        rw [if_neg (show ¬ x.1 = 0 from h [] p o evs log rfl)]
        exact hx
      · exact hx
    · intro pre i o evs post he
      have := h (e :: pre) i o evs post (by rw [he]; rfl)
      exact this

/-- C107: if no connection is closed without users, no `HTTPAPI_CreateConnection` gives a handle that is no connection, and no request reports that the
headers cannot be stored, then no memory and no handle is lost: apart from the open connections, the final heap of `histories_run` is that of WinHTTP and
of the static variables.  What is missing of the full claim: it fails for these three cases (`left_open`, `null_host`, `line_lost` in `Demo`). -/
theorem nothing_lost_partial (h : Runs (step rel W) ([], []) ops outs (as, log))
    (h1 : ∀ pre i o evs post, log = pre ++ ⟨i, .close (some o), evs⟩ :: post → users pre ≠ 0)
    (h2 : ∀ e ∈ log, ∀ host, e.call ≠ .create host .broken)
    (h3 : ∀ e ∈ log, ∀ x x' k, e.call ≠ .request x .httpHeadersFailed x' k) : lost log = 0 ∧ left log = [] := by
  refine ⟨?_, left_all rfl h1⟩
  have : ∀ e ∈ log, e.lost = 0 := by
    intro e he
    obtain ⟨p, c, evs⟩ := e
    unfold Entry.lost
    dsimp only
    split
    · exact absurd rfl (h2 _ he _)
    · rename_i x r x' k
      rw [lost_by_request h he, if_neg]
      rintro rfl
      exact h3 _ he _ _ _ rfl
    · rfl
  unfold lost
  rw [List.sum_eq_zero_iff_forall_eq_nat]
  intro n hn
  obtain ⟨e, he, rfl⟩ := List.mem_map.1 hn
  exact this e he

/-- C107: a handle that is no connection is given only if memory is refused or the name of the host cannot be converted. -/
theorem broken_only (h : Runs (step rel W) ([], []) ops outs (as, log)) {p : Option Nat} {host : Option Text} {evs : List Ev}
    (he : (⟨p, .create host .broken, evs⟩ : Entry) ∈ log) : (¬ rel ∨ host.bind W.widen = none) ∧ evs = [] := by
  obtain ⟨pre, post, rfl⟩ := List.append_of_mem he
  rcases calls h rfl with ⟨_, h⟩ | ⟨_, _, _, _, h, hc⟩ | ⟨i, a', h1, h2⟩
  · exact h.elim
  · cases h
    unfold CreateE at hc
    split at hc
    · cases hc.1
    · rcases hc with ⟨h, _⟩ | ⟨_, h, h'⟩ | ⟨w, c, _, _, h⟩
      · cases h
      · exact ⟨h, h'⟩
      · split at h <;> cases h
  · exact h2.elim

/-- C104: A connection is made to the HTTPS port of the host, in the session the users hold, with a timeout of 30 seconds; none without users. -/
theorem connected_to (h : Runs (step rel W) ([], []) ops outs (as, log)) {pre post : Log} {p : Option Nat} {host : Option Text} {o : Obj} {evs : List Ev}
    (he : log = pre ++ ⟨p, .create host (.good o), evs⟩ :: post) :
    users pre ≠ 0 ∧ o.con ≠ 0 ∧ o.timeout = 30000 ∧ ∃ t w, host = some t ∧ W.widen t = some w ∧ evs = [.connect (held pre) w 443 o.con] := by
  rcases calls h he with ⟨_, h⟩ | ⟨_, _, _, _, h, hc⟩ | ⟨i, a', h1, h2⟩
  · exact h.elim
  · cases h
    unfold CreateE at hc
    split at hc
    · cases hc.1
    · rename_i hn
      rcases hc with ⟨h, _⟩ | ⟨h, _⟩ | ⟨w, c, hw, h1, h⟩
      · cases h
      · cases h
      · split at h
        · cases h
        · rename_i hc0
          cases h
          cases host with
          | none => cases hw
          | some t => exact ⟨hn, hc0, rfl, t, w, rfl, hw, h1⟩
  · exact h2.elim

end Verif.Wh
