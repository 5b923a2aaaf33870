import Verif.Asked
import Verif.Ti.Demo
/-! # C117 on TI's `HTTPCli`: what is sent is what the client asked for -/
set_option linter.unusedSimpArgs false
set_option linter.unusedVariables false
namespace Verif.Ti
open Verif.Headers (Hdrs)
open Verif.Ex (Passed Headed)
open Verif.Sas (text)
open Verif.Curl (Args)
variable {rel : Prop} {ops : List Op} {outs : List (Option Out)} {as : List (Option Nat)} {log : Log}

/-- The call an operation asks for, with its arguments; `r`: what it returned.  Objects are passed as they are, `NULL` instead only if memory is refused. -/
def Asks (rel : Prop) (p : Op × Out) (e : Entry) : Prop :=
  match p.1, e.call with
  | .init, .init => p.2 = .result .ok ∧ e.pos = none
  | .deinit, .deinit => p.2 = .done ∧ e.pos = none
  | .create host, .create h a => p.2 = (if a = none then .null else .handle) ∧ h = host
  | .close i, .close => p.2 = .done ∧ e.pos = some i
  | .setOption i n, .setOption n' => p.2 = .result .invalidArg ∧ e.pos = some i ∧ n' = n
  | .clone n, .clone n' => p.2 = .result .invalidArg ∧ e.pos = none ∧ n' = n
  | .request i type path hdrs content len status rhdrs rcontent, .request y r _ _ =>
    p.2 = .result r ∧ e.pos = some i ∧ Made rel type path hdrs content len status rhdrs rcontent y
  | _, _ => False

/-- C117: The record of a history is the list of the calls the client asked for, in order, with its arguments and what was returned. -/
theorem calls_asked (h : Runs (step rel) ([], []) ops outs (as, log)) : Matched (Asks rel) (called ops outs) log := by
  obtain ⟨l, hl, hm⟩ := Runs.matched (R := Asks rel) (fun {x op o x'} h1 => by
    cases op with
    | init => obtain ⟨b, w, rfl, ⟨rfl, rfl⟩, rfl⟩ := h1; exact .inr ⟨_, _, rfl, rfl, rfl, rfl⟩
    | deinit => obtain ⟨b, w, rfl, ⟨rfl, rfl⟩, rfl⟩ := h1; exact .inr ⟨_, _, rfl, rfl, rfl, rfl⟩
    | clone n => obtain ⟨b, w, rfl, ⟨rfl, rfl⟩, rfl⟩ := h1; exact .inr ⟨_, _, rfl, rfl, rfl, rfl, rfl⟩
    | create host => obtain ⟨r, a', w', rfl, ⟨evs, h1, rfl, rfl⟩, rfl⟩ := h1; exact .inr ⟨_, _, rfl, rfl, rfl, rfl⟩
    | close i =>
      rcases h1 with ⟨_, rfl, rfl⟩ | ⟨a, r, a', w', h1, rfl, ⟨rfl, h3, evs, h4, rfl⟩, rfl⟩
      · exact .inl ⟨rfl, rfl⟩
      · exact .inr ⟨_, _, rfl, rfl, rfl, rfl⟩
    | setOption i n =>
      rcases h1 with ⟨_, rfl, rfl⟩ | ⟨a, r, a', w', h1, rfl, ⟨h4, rfl, rfl⟩, rfl⟩
      · exact .inl ⟨rfl, rfl⟩
      · exact .inr ⟨_, _, rfl, rfl, rfl, rfl, rfl⟩
    | request i type path hdrs content len status rhdrs rcontent =>
      rcases h1 with ⟨_, rfl, rfl⟩ | ⟨a, r, a', w', h1, rfl, ⟨y, r', y', evs, kk, k, h4, h5, rfl, rfl⟩, rfl⟩
      · exact .inl ⟨rfl, rfl⟩
      · exact .inr ⟨_, _, rfl, rfl, rfl, rfl, k⟩) h
  simp at hl
  subst hl
  exact hm

/-- C117: Memory is not refused; a request of the record reports success.  Then it is an `HTTPAPI_ExecuteRequest` of the client, and the library has accepted, on one connection, the
method and path of that call, the headers of its list (those with a valid name; values of equal names joined; white space at their beginning dropped), the last one first, if they fit
into memory, and its content. -/
theorem client_request (h : Runs (step rel) ([], []) ops outs (as, log)) (hr : rel) {l1 l2 : Log} {p : Option Nat} {x x' : Args} {k : Nat} {evs : List Ev}
    (hl : log = l1 ++ ⟨p, .request x .ok x' k, evs⟩ :: l2) :
    ∃ i type path l content len status rhdrs rcontent c hs evs1 rest,
      (called ops outs)[l1.length]? = some (.request i type (some path) (some l) content len status rhdrs rcontent, .result .ok) ∧
      evs = evs1 ++ rest ∧ Accepted c (verbOf type) path (List.reverse hs) (content.getD []) evs1 ∧ (Curl.Fits [] l → hs = Curl.merged [] l) := by
  have hm := calls_asked h
  rw [hl] at hm
  obtain ⟨⟨op, out⟩, hk, ha⟩ := hm.of_split
  unfold Asks at ha
  obtain ⟨c, path, hs, evs1, rest, hpath, hhs, he, hA, _⟩ := request_sent h (by rw [hl]; simp : (⟨p, .request x .ok x' k, evs⟩ : Entry) ∈ log)
  cases op with
  | request i type q hd content len status rhdrs rcontent =>
    obtain ⟨h1, h2, h3, h4, h5, h6, h7, h8⟩ := ha
    dsimp only at h1
    subst h1
    rw [hpath] at h4
    subst h4
    obtain ⟨l, rfl, hB⟩ := h5.1 hs hhs
    have hbody : x.body = content.getD [] := by unfold Args.body; rw [h6]
    rw [h3, hbody] at hA
    exact ⟨i, type, path, l, content, len, status, rhdrs, rcontent, c, hs, evs1, rest, hk, he, hA, fun hf => built_all hr hB hf⟩
  | _ => exact ha.elim

end Verif.Ti
