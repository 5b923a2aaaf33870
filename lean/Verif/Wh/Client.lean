import Verif.Asked
import Verif.Wh.Demo
import Verif.Ti.Ledger
/-! # C117 on WinHTTP: what is sent is what the client asked for -/
set_option linter.unusedSimpArgs false
set_option linter.unusedVariables false
namespace Verif.Wh
open Verif.Headers (Hdrs)
open Verif.Ex (Passed Headed)
open Verif.Sas (text)
open Verif.Curl (Args)
variable {rel : Prop} {ops : List Op} {outs : List (Option Out)} {as : List (Option Obj)} {log : Log} {W : Codec}

/-- The call an operation asks for, with its arguments; `r`: what it returned.  Objects are passed as they are, `NULL` instead only if memory is refused. -/
def Asks (rel : Prop) (p : Op × Out) (e : Entry) : Prop :=
  match p.1, e.call with
  | .init, .init r => p.2 = .result r ∧ e.pos = none
  | .deinit, .deinit => p.2 = .done ∧ e.pos = none
  | .create host, .create h c => p.2 = c.out ∧ h = host
  | .close i, .close _ => p.2 = .done ∧ e.pos = some i
  | .setOption i n v, .setOption n' b r => p.2 = .result r ∧ e.pos = some i ∧ n' = n ∧ Passed (¬ rel) v b
  | .clone n v out, .clone n' b d r _ => p.2 = .result r ∧ e.pos = none ∧ n' = n ∧ Passed (¬ rel) v b ∧ (d = out ∨ (¬ rel ∧ d = false))
  | .request i type path hdrs content status rhdrs rcontent, .request y r _ _ =>
    p.2 = .result r ∧ e.pos = some i ∧ Made rel type path hdrs content status rhdrs rcontent y
  | _, _ => False

/-- C117: The record of a history is the list of the calls the client asked for, in order, with its arguments and what was returned. -/
theorem calls_asked (h : Runs (step rel W) ([], []) ops outs (as, log)) : Matched (Asks rel) (called ops outs) log := by
  obtain ⟨l, hl, hm⟩ := Runs.matched (R := Asks rel) (fun {x op o x'} h1 => by
    cases op with
    | init => obtain ⟨b, w, rfl, ⟨r, n', s', evs, h1, rfl, rfl⟩, rfl⟩ := h1; exact .inr ⟨_, _, rfl, rfl, rfl, rfl⟩
    | deinit => obtain ⟨b, w, rfl, ⟨n', s', evs, h1, rfl, rfl⟩, rfl⟩ := h1; exact .inr ⟨_, _, rfl, rfl, rfl, rfl⟩
    | clone n v out => obtain ⟨b, w, rfl, ⟨b', d, r, copy, k1, k2, h1, rfl, rfl⟩, rfl⟩ := h1; exact .inr ⟨_, _, rfl, rfl, rfl, rfl, rfl, k1, k2⟩
    | create host => obtain ⟨r, a', w', rfl, ⟨c, evs, h1, rfl, h2, rfl⟩, rfl⟩ := h1; exact .inr ⟨_, _, rfl, rfl, rfl, rfl⟩
    | close i =>
      rcases h1 with ⟨_, rfl, rfl⟩ | ⟨a, r, a', w', h1, rfl, ⟨rfl, h3, evs, h4, rfl⟩, rfl⟩
      · exact .inl ⟨rfl, rfl⟩
      · exact .inr ⟨_, _, rfl, rfl, rfl, rfl⟩
    | setOption i n v =>
      rcases h1 with ⟨_, rfl, rfl⟩ | ⟨a, r, a', w', h1, rfl, ⟨b, r', k, h4, rfl, rfl⟩, rfl⟩
      · exact .inl ⟨rfl, rfl⟩
      · exact .inr ⟨_, _, rfl, rfl, rfl, rfl, rfl, k⟩
    | request i type path hdrs content status rhdrs rcontent =>
      rcases h1 with ⟨_, rfl, rfl⟩ | ⟨a, r, a', w', h1, rfl, ⟨y, r', y', evs, kk, k, h4, h5, rfl, rfl⟩, rfl⟩
      · exact .inl ⟨rfl, rfl⟩
      · exact .inr ⟨_, _, rfl, rfl, rfl, rfl, k⟩) h
  simp at hl
  subst hl
  exact hm

/-- C117: Memory is not refused; a call of `WinHttpSendRequest` is made for a request.  Then that request is an `HTTPAPI_ExecuteRequest` of the client; the request handle was opened
with its method and path, and its headers (those of its list with a valid name; values of equal names joined; white space at their beginning dropped) are sent, if they fit into memory,
and its content (cut at its length modulo 2³²). -/
theorem client_request (h : Runs (step rel W) ([], []) ops outs (as, log)) (hr : rel) {l1 l2 : Log} {p : Option Nat} {x x' : Args} {r : Res} {k : Nat} {evs : List Ev}
    (hl : log = l1 ++ ⟨p, .request x r x' k, evs⟩ :: l2) {q : Nat} {wh : Wide} {body : Text} {ok : Bool} (hs : Ev.send q wh body ok ∈ evs) :
    ∃ i type path l content status rhdrs rcontent o wp,
      (called ops outs)[l1.length]? = some (.request i type (some path) (some l) content status rhdrs rcontent, .result r) ∧ objAt i l1 = some o ∧
      evs.take 1 = [.openRequest o.con (verbOf type) wp q] ∧ W.widen path = some wp ∧
      body = (content.getD []).take ((content.getD []).length % 2 ^ 32) ∧ (Curl.Fits [] l → W.widen (reqText (Curl.merged [] l)) = some wh) := by
  have hm := calls_asked h
  rw [hl] at hm
  obtain ⟨⟨op, out⟩, hk, ha⟩ := hm.of_split
  unfold Asks at ha
  obtain ⟨_, i, o, path, hd, wp, hp, ho, hpath, hhd, _, hwp, hwh, hb, h3⟩ := sent_once h hl hs
  cases op with
  | request j type q' hds content status rhdrs rcontent =>
    obtain ⟨h1, h2, t1, h4, h5, h6, h7, h8⟩ := ha
    dsimp only at h1 h2
    subst h1
    rw [hp] at h2
    cases h2
    rw [hpath] at h4
    subst h4
    obtain ⟨l, rfl, hB⟩ := h5.1 hd hhd
    have hbody : x.body = content.getD [] := by unfold Args.body; rw [h6]
    rw [hbody] at hb
    refine ⟨i, type, path, l, content, status, rhdrs, rcontent, o, wp, hk, ho, ?_, hwp, hb, fun hf => by rw [← Ti.built_all hr hB hf]; exact hwh⟩
    have := congrArg (List.take 1) h3
    rw [List.take_take] at this
    rw [← t1]
    exact this
  | _ => exact ha.elim

end Verif.Wh
