import Verif.Sock.AgainOrder
import Verif.Sock.AgainDemo
/-! # C118: the hypotheses of `stream_in_order` are met by a run with sends from callbacks -/
namespace Verif.Sock
open Verif.List Verif.Headers

def flowObj (st : IO_STATE) (fd : Int) (ps : List Pend) : Obj := ⟨fd, 0, if fd = -1 then 0 else 2, if fd = -1 then 0 else 3, 0, 0, some [104], 80, st, ps⟩

def flowLog : Log := [
  ⟨0, .create [104] 80 0, 1, []⟩,
  ⟨0, .opn 0 1 0 2 0 3 0, 0, [.socket 5, .getaddrinfo (some [104]) 80 0 1, .connect 5 1 0, .getfl 5 0, .setfl 5 (orNonblock 0) 0, .opened 1 0 true, .freeaddrinfo 1]⟩,
  ⟨0, .send 0 (some [1, 2]) 9 6, 0, [.send 5 [1, 2] 1]⟩,
  ⟨0, .dowork 0 4 4, 1, [.send 5 [2] 1, .completed 9 6 true, .send 5 [9] 1, .completed 9 7 true, .recv 5 1 77, .received 2 0 [77], .send 5 [77] 1, .completed 9 8 true,
    .recv 5 (-1) 0]⟩]

/-- A message goes out in two parts; its completion callback sends another, which goes out in the same call of `socketio_dowork`; a
byte is received and sent back from the callback. -/
theorem flow_run : Runs (stepC False (fun _ => chatty) 0) ([], []) (flowLog.map Entry.op) (flowLog.map fun e => some e.r) ([some (flowObj .opn 5 [])], flowLog) := by
  have h0 : ∀ ps, flowObj .opn 5 ps = ⟨5, 0, 2, 3, 0, 0, some [104], 80, .opn, ps⟩ := fun _ => rfl
  have s1 : stepC False (fun _ => chatty) 0 ([], []) (.create [104] 80 0) (some 1) ([some (flowObj .closed (-1) [])], flowLog.take 1) :=
    ⟨1, _, _, rfl, ⟨true, Or.inr ⟨rfl, by simp, rfl⟩, rfl, rfl⟩, rfl⟩
  have s2 : stepC False (fun _ => chatty) 0 ([some (flowObj .closed (-1) [])], flowLog.take 1) (.opn 0 1 0 2 0 3 0) (some 0) ([some (flowObj .opn 5 [])], flowLog.take 2) := by
    refine Or.inr ⟨_, 0, _, _, rfl, rfl, ⟨_, ?_, rfl⟩, rfl⟩
    unfold OpenE
    dsimp only
    rw [if_neg (by simp [flowObj]), if_neg (by simp [flowObj])]
    exact Or.inr ⟨5, by omega, by omega, Or.inr ⟨1, Or.inr (Or.inr (Or.inr ⟨0, 0, by omega, by omega, rfl, rfl, rfl⟩))⟩⟩
  have s3 : stepC False (fun _ => chatty) 0 ([some (flowObj .opn 5 [])], flowLog.take 2) (.send 0 (some [1, 2]) 9 6) (some 0)
      ([some (flowObj .opn 5 [⟨[2], 9, 6⟩])], flowLog.take 3) := by
    refine Or.inr ⟨_, 0, _, _, rfl, rfl, ⟨[.send 5 [1, 2] 1], ⟨_, rfl, ?_⟩, rfl⟩, rfl⟩
    refine ⟨flowObj .opn 5 [⟨[2], 9, 6⟩], [.send 5 [1, 2] 1], [], ?_, rfl, Or.inr ⟨by simp, rfl, rfl⟩⟩
    unfold SendE
    dsimp only
    rw [if_neg (by simp [flowObj]), if_neg (by simp [flowObj])]
    exact Or.inr (Or.inr ⟨1, by simp, rfl, Or.inl ⟨rfl, rfl⟩⟩)
  have s4 : stepC False (fun _ => chatty) 0 ([some (flowObj .opn 5 [⟨[2], 9, 6⟩])], flowLog.take 3) (.dowork 0 4 4) (some 1) ([some (flowObj .opn 5 [])], flowLog) := by
    refine Or.inr ⟨_, 1, _, _, rfl, rfl, ⟨true, [.send 5 [2] 1, .completed 9 6 true, .send 5 [9] 1, .completed 9 7 true, .recv 5 1 77, .received 2 0 [77], .send 5 [77] 1, .completed 9 8 true,
      .recv 5 (-1) 0], ⟨flowObj .opn 5 [], rfl, ?_⟩, rfl, rfl⟩, rfl⟩
    unfold DoworkC
    rw [if_neg (by simp [flowObj])]
    refine Or.inr ⟨flowObj .opn 5 [], [.send 5 [2] 1, .completed 9 6 true, .send 5 [9] 1, .completed 9 7 true], [.recv 5 1 77, .received 2 0 [77], .send 5 [77] 1, .completed 9 8 true,
      .recv 5 (-1) 0], rfl, ?_, ?_⟩
    · refine .whole (p := ⟨[2], 9, 6⟩) (ps := []) (added := [⟨[9], 9, 7⟩]) (evs := [.send 5 [9] 1, .completed 9 7 true]) rfl (by simp [Queued, flowObj, chatty]) ?_
      exact .whole (p := ⟨[9], 9, 7⟩) (ps := []) (added := []) (evs := []) rfl (by simp [Queued, flowObj, chatty]) (.done rfl)
    · refine .more (o1 := flowObj .opn 5 []) (e1 := [.send 5 [77] 1, .completed 9 8 true]) (evs := [.recv 5 (-1) 0]) ?_ (.last (by omega))
      have : (if (flowObj .opn 5 []).onBytes = 0 then [] else chatty.got (flowObj .opn 5 []).onBytes (flowObj .opn 5 []).onBytesCtx [77]) = [⟨[77], 9, 8⟩] := rfl
      rw [this]
      refine Each.cons (e1 := [.send 5 [77] 1, .completed 9 8 true]) (e2 := []) ⟨0, ?_⟩ .nil
      show SendE _ _ _ _ _ _ _ _
      unfold SendE
      dsimp only
      rw [if_neg (by simp [flowObj]), if_neg (by simp [flowObj])]
      exact Or.inl ⟨rfl, rfl, rfl⟩
  exact .cons s1 (.cons s2 (.cons s3 (.cons s4 (.nil _))))

theorem flow_smooth : ∀ e ∈ ofPos 0 flowLog, e.smooth False := by
  have : ofPos 0 flowLog = flowLog := rfl
  rw [this]
  intro e he
  simp only [flowLog, List.mem_cons, List.not_mem_nil, or_false] at he
  rcases he with rfl | rfl | rfl | rfl
  · exact fun h => h.elim
  · exact fun h => h.elim
  · exact fun h => h.elim
  · intro fd bs r hm
    simp at hm
    rcases hm with ⟨_, rfl, rfl⟩ | ⟨_, rfl, rfl⟩ | ⟨_, rfl, rfl⟩ <;> rfl

/-- what `stream_in_order` says of this run: the bytes of three messages, one of them from a call, two from callbacks -/
theorem flow_stream : stream 0 flowLog = [1, 2, 9, 77] ∧ accepted 0 flowLog = [([1, 2], 9, 6)] ∧
    ∃ acc : List Pend, acc.flatMap Pend.bytes = [1, 2, 9, 77] ∧ ∀ m ∈ acc, Asked chatty (ofPos 0 flowLog) m := by
  refine ⟨by decide, by decide, ?_⟩
  obtain ⟨acc, lost, h1, _, h2, h3⟩ := stream_in_order flow_run 0 _ rfl flow_smooth
  have := h3 (by simp)
  subst this
  exact ⟨acc, by rw [← h2]; decide, h1⟩

end Verif.Sock
