import Verif.Asked
import Verif.Mb.Demo
import Verif.Ti.Ledger
import Verif.Wce.Demo
/-! # C117 on connections that are streams (mbed, Windows CE): what is sent is what the client asked for -/
set_option linter.unusedSimpArgs false
set_option linter.unusedVariables false
namespace Verif.Mb
open Verif.Headers (Hdrs)
open Verif.Ex (Passed Headed)
open Verif.Sas (text)
open Verif.Curl (Args)
variable {rel W : Prop} {ops : List Op} {outs : List (Option Out)}

/-- The call an operation asks for, with its arguments; `r`: what it returned.  Objects are passed as they are, `NULL` instead only if memory is refused. -/
def Asks (rel : Prop) (p : Op × Out) (pos : Nat) (c : Called) : Prop :=
  match p.1, c with
  | .create host, .create h => (p.2 = .handle ∨ p.2 = .null) ∧ h = host
  | .close i, .close => p.2 = .done ∧ pos = i
  | .setOption i n v, .setOption n' v' r => p.2 = .result r ∧ pos = i ∧ n' = n ∧ v' = v
  | .request i type path hdrs content len status rhdrs rcontent, .request y r _ =>
    p.2 = .result r ∧ pos = i ∧ Made rel type path hdrs content len status rhdrs rcontent y
  | _, _ => False

/-- C117: The record of a history is the list of the calls the client asked for, in order, with its arguments and what was returned. -/
theorem calls_asked {Peer : Text → Wire → Prop} {as : List (Option Obj)} {log : Log} (h : Runs (step rel W Peer) ([], []) ops outs (as, log)) :
    Matched (fun p e => Asks rel p e.pos e.call) (called ops outs) log := by
  obtain ⟨l, hl, hm⟩ := Runs.matched (R := fun p (e : Entry) => Asks rel p e.pos e.call) (fun {x op o x'} h1 => by
    cases op with
    | create host =>
      obtain ⟨r, a', w', rfl, ⟨evs, h1, rfl, rfl⟩, rfl⟩ := h1
      exact .inr ⟨_, _, rfl, rfl, by show ((if a' = none then Out.null else Out.handle) = _ ∨ _) ; split <;> simp, rfl⟩
    | close i =>
      rcases h1 with ⟨_, rfl, rfl⟩ | ⟨a, r, a', w', h1, rfl, ⟨rfl, h3, evs, h4, rfl⟩, rfl⟩
      · exact .inl ⟨rfl, rfl⟩
      · exact .inr ⟨_, _, rfl, rfl, rfl, rfl⟩
    | setOption i n v =>
      rcases h1 with ⟨_, rfl, rfl⟩ | ⟨a, r, a', w', h1, rfl, ⟨r', h4, rfl, rfl⟩, rfl⟩
      · exact .inl ⟨rfl, rfl⟩
      · exact .inr ⟨_, _, rfl, rfl, rfl, rfl, rfl, rfl⟩
    | request i type path hdrs content len status rhdrs rcontent =>
      rcases h1 with ⟨_, rfl, rfl⟩ | ⟨a, r, a', w', h1, rfl, ⟨y, r', y', evs, k, h4, rfl, rfl⟩, rfl⟩
      · exact .inl ⟨rfl, rfl⟩
      · exact .inr ⟨_, _, rfl, rfl, rfl, rfl, k⟩) h
  simp at hl
  subst hl
  exact hm

/-- C117: If memory is not refused, the text of a request (`requests_sent`: all that is sent, if it is answered) is made of the arguments of the client: the method, the path, the headers of its
list in their order (those with a valid name; values of equal names joined; white space at their beginning dropped), if they fit into memory, an empty line, the content. -/
theorem text_asked (hr : rel) {i type len : Nat} {path : Option Text} {hdrs : Option (List (Text × Text))} {content : Option Text} {status : Option Val}
    {rhdrs : Option (List (Text × Text))} {rcontent : Bool} {out : Out} {pos : Nat} {c : Called}
    (h : Asks rel (.request i type path hdrs content len status rhdrs rcontent, out) pos c) (hf : Curl.Fits [] (hdrs.getD [])) :
    c.text = verbOf type ++ text " " ++ path.getD [] ++ text " HTTP/1.1\r\n" ++
      ((Curl.merged [] (hdrs.getD [])).flatMap fun p => p.1 ++ text ": " ++ p.2 ++ text "\r\n") ++ text "\r\n" ++ content.getD [] := by
  unfold Asks at h
  cases c with
  | request y r y' =>
    obtain ⟨_, _, h3, h4, h5, h6, _⟩ := h
    have e : y.hdrs.getD [] = Curl.merged [] (hdrs.getD []) := by
      cases hh : y.hdrs with
      | none => rw [h5.2 hr hh]; rfl
      | some hs =>
        obtain ⟨l, rfl, hB⟩ := h5.1 hs hh
        rw [Ti.built_all hr hB hf]
        rfl
    have k1 : text " " = [32] := by decide
    have k2 : text " HTTP/1.1\r\n" = text " HTTP/1.1" ++ [13, 10] := by decide
    have k3 : text "\r\n" = [13, 10] := by decide
    have k4 : text ": " = [58, 32] := by decide
    unfold Called.text
    dsimp only
    rw [e]
    unfold requestText requestLine Args.body headerLine
    rw [h3, h4, h6, k1, k2, k3, k4]
    simp
  | _ => exact h.elim

/-- C117: on mbed: every request of the record that was answered was sent by a call of the client, and its text is the one asked for. -/
theorem client_request {Peer : Text → Wire → Prop} {as : List (Option Obj)} {log : Log} (hr : rel) (h : Runs (step rel W Peer) ([], []) ops outs (as, log))
    {l1 l2 : Log} {e : Entry} (hl : log = l1 ++ e :: l2) {y y' : Args} {r : Res} (hc : e.call = .request y r y') :
    ∃ type path hdrs content len status rhdrs rcontent,
      (called ops outs)[l1.length]? = some (.request e.pos type path hdrs content len status rhdrs rcontent, .result r) ∧
      (Curl.Fits [] (hdrs.getD []) → e.call.text = verbOf type ++ text " " ++ path.getD [] ++ text " HTTP/1.1\r\n" ++
        ((Curl.merged [] (hdrs.getD [])).flatMap fun p => p.1 ++ text ": " ++ p.2 ++ text "\r\n") ++ text "\r\n" ++ content.getD []) := by
  have hm := calls_asked h
  rw [hl] at hm
  obtain ⟨⟨op, out⟩, hk, ha⟩ := hm.of_split
  cases op with
  | request i type path hdrs content len status rhdrs rcontent =>
    have ha' := ha
    unfold Asks at ha'
    rw [hc] at ha'
    obtain ⟨h1, h2, _⟩ := ha'
    dsimp only at h1 h2
    subst h1 h2
    exact ⟨type, path, hdrs, content, len, status, rhdrs, rcontent, hk, fun hf => text_asked hr ha hf⟩
  | _ =>
    unfold Asks at ha
    rw [hc] at ha
    exact ha.elim

end Verif.Mb

namespace Verif.Wce
open Verif.Sas (text)
open Verif.Curl (Args)
open Verif.Mb (Wire Op Called Out Asks text_asked verbOf)
variable {rel W : Prop} {ops : List Op} {outs : List (Option Out)} {as : List (Option Obj)} {log : Log} {J : Res → Prop} {Peer : Text → Wire → Prop}

/-- C117: on Windows CE the record of a history is the list of the calls the client asked for, in order, with its arguments and what was returned. -/
theorem calls_asked (h : Runs (step rel W J Peer) ([], []) ops outs (as, log)) : Matched (fun p e => Asks rel p e.pos e.call) (called ops outs) log := by
  obtain ⟨l, hl, hm⟩ := Runs.matched (R := fun p (e : Entry) => Asks rel p e.pos e.call) (fun {x op o x'} h1 => by
    cases op with
    | create host =>
      obtain ⟨r, a', w', rfl, ⟨h1, rfl, rfl⟩, rfl⟩ := h1
      exact .inr ⟨_, _, rfl, rfl, by show ((if a' = none then Out.null else Out.handle) = _ ∨ _) ; split <;> simp, rfl⟩
    | close i =>
      rcases h1 with ⟨_, rfl, rfl⟩ | ⟨a, r, a', w', h1, rfl, ⟨rfl, h3, rfl⟩, rfl⟩
      · exact .inl ⟨rfl, rfl⟩
      · exact .inr ⟨_, _, rfl, rfl, rfl, rfl⟩
    | setOption i n v =>
      rcases h1 with ⟨_, rfl, rfl⟩ | ⟨a, r, a', w', h1, rfl, ⟨rfl, h4, rfl⟩, rfl⟩
      · exact .inl ⟨rfl, rfl⟩
      · exact .inr ⟨_, _, rfl, rfl, rfl, rfl, rfl, rfl⟩
    | request i type path hdrs content len status rhdrs rcontent =>
      rcases h1 with ⟨_, rfl, rfl⟩ | ⟨a, r, a', w', h1, rfl, ⟨y, r', y', evs, k, h4, rfl, rfl⟩, rfl⟩
      · exact .inl ⟨rfl, rfl⟩
      · exact .inr ⟨_, _, rfl, rfl, rfl, rfl, k⟩) h
  simp at hl
  subst hl
  exact hm

/-- C117: on Windows CE: the text of every request of the record (`requests_sent_partial`: all that is sent, if it is answered) is the one the client asked for. -/
theorem client_request (hr : rel) (h : Runs (step rel W J Peer) ([], []) ops outs (as, log))
    {l1 l2 : Log} {e : Entry} (hl : log = l1 ++ e :: l2) {y y' : Args} {r : Mb.Res} (hc : e.call = .request y r y') :
    ∃ type path hdrs content len status rhdrs rcontent,
      (called ops outs)[l1.length]? = some (.request e.pos type path hdrs content len status rhdrs rcontent, .result r) ∧
      (Curl.Fits [] (hdrs.getD []) → e.call.text = verbOf type ++ text " " ++ path.getD [] ++ text " HTTP/1.1\r\n" ++
        ((Curl.merged [] (hdrs.getD [])).flatMap fun p => p.1 ++ text ": " ++ p.2 ++ text "\r\n") ++ text "\r\n" ++ content.getD []) := by
  have hm := calls_asked h
  rw [hl] at hm
  obtain ⟨⟨op, out⟩, hk, ha⟩ := hm.of_split
  cases op with
  | request i type path hdrs content len status rhdrs rcontent =>
    have ha' := ha
    unfold Asks at ha'
    rw [hc] at ha'
    obtain ⟨h1, h2, _⟩ := ha'
    dsimp only at h1 h2
    subst h1 h2
    exact ⟨type, path, hdrs, content, len, status, rhdrs, rcontent, hk, fun hf => text_asked hr ha hf⟩
  | _ =>
    unfold Asks at ha
    rw [hc] at ha
    exact ha.elim

end Verif.Wce
