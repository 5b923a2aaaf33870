import Verif.Asked
import Verif.Curl.Demo
import Verif.Ti.Ledger
/-! # C117 on libcurl: what is sent is what the client asked for -/
set_option linter.unusedSimpArgs false
set_option linter.unusedVariables false
namespace Verif.Curl
open Verif.Headers (Hdrs)
open Verif.Ex (Passed Headed)
open Verif.Sas (text)
variable {rel : Prop} {ops : List Op} {outs : List (Option Out)} {as : List (Option Obj)} {log : Log}

/-- The call an operation asks for, with its arguments; `r`: what it returned.  Objects are passed as they are, `NULL` instead only if memory is refused. -/
def Asks (rel : Prop) (p : Op × Out) (e : Entry) : Prop :=
  match p.1, e.call with
  | .init, .init r => p.2 = .result r ∧ e.pos = none
  | .deinit, .deinit => p.2 = .done ∧ e.pos = none
  | .create host, .create h c => p.2 = c.out ∧ h = host
  | .close i, .close => p.2 = .done ∧ e.pos = some i
  | .setOption i n v, .setOption n' b r => p.2 = .result r ∧ e.pos = some i ∧ n' = n ∧ Passed (¬ rel) v b
  | .clone n v out, .clone n' b d r _ => p.2 = .result r ∧ e.pos = none ∧ n' = n ∧ Passed (¬ rel) v b ∧ (d = out ∨ (¬ rel ∧ d = false))
  | .request i type path hdrs content len status rhdrs rcontent, .request y r _ =>
    p.2 = .result r ∧ e.pos = some i ∧ Made rel type path hdrs content len status rhdrs rcontent y
  | _, _ => False

/-- C117: The record of a history is the list of the calls the client asked for, in order, with its arguments and what was returned. -/
theorem calls_asked (h : Runs (step rel) ([], []) ops outs (as, log)) : Matched (Asks rel) (called ops outs) log := by
  obtain ⟨l, hl, hm⟩ := Runs.matched (R := Asks rel) (fun {x op o x'} h1 => by
    cases op with
    | init => obtain ⟨b, w, rfl, ⟨r, n', evs, h1, rfl, rfl⟩, rfl⟩ := h1; exact .inr ⟨_, _, rfl, rfl, rfl, rfl⟩
    | deinit => obtain ⟨b, w, rfl, ⟨n', evs, h1, rfl, rfl⟩, rfl⟩ := h1; exact .inr ⟨_, _, rfl, rfl, rfl, rfl⟩
    | clone n v out => obtain ⟨b, w, rfl, ⟨b', d, r, copy, k1, k2, h1, rfl, rfl⟩, rfl⟩ := h1; exact .inr ⟨_, _, rfl, rfl, rfl, rfl, rfl, k1, k2⟩
    | create host => obtain ⟨r, a', w', rfl, ⟨c, evs, h1, rfl, h2, rfl⟩, rfl⟩ := h1; exact .inr ⟨_, _, rfl, rfl, rfl, rfl⟩
    | close i =>
      rcases h1 with ⟨_, rfl, rfl⟩ | ⟨a, r, a', w', h1, rfl, ⟨rfl, h3, evs, h4, rfl⟩, rfl⟩
      · exact .inl ⟨rfl, rfl⟩
      · exact .inr ⟨_, _, rfl, rfl, rfl, rfl⟩
    | setOption i n v =>
      rcases h1 with ⟨_, rfl, rfl⟩ | ⟨a, r, a', w', h1, rfl, ⟨b, r', k, h4, rfl, rfl⟩, rfl⟩
      · exact .inl ⟨rfl, rfl⟩
      · exact .inr ⟨_, _, rfl, rfl, rfl, rfl, rfl, k⟩
    | request i type path hdrs content len status rhdrs rcontent =>
      rcases h1 with ⟨_, rfl, rfl⟩ | ⟨a, r, a', w', h1, rfl, ⟨y, p, rh, rcb, r', y', evs, k, h3, h4, h5, rfl, rfl⟩, rfl⟩
      · exact .inl ⟨rfl, rfl⟩
      · exact .inr ⟨_, _, rfl, rfl, rfl, rfl, k⟩) h
  simp at hl
  subst hl
  exact hm

/-- a call of `HTTPAPI_CreateConnection` -/
def Op.isCreate : Op → Bool | .create _ => true | _ => false

/-- the connection at position `i` was made for the host of the `i`-th call of `HTTPAPI_CreateConnection` -/
theorem created_by (h : Runs (step rel) ([], []) ops outs (as, log)) {e : Entry} (he : e ∈ log) {host : Option Text} {c : Conn} (hc : e.call = .create host c) :
    ∃ i, e.pos = some i ∧ (ops.filter Op.isCreate)[i]? = some (.create host) := by
  obtain ⟨l, hl, hm⟩ := Runs.created Op.isCreate (fun op e => ∃ h c, op = Op.create h ∧ e.call = .create h c) Entry.pos (fun {x op o x'} h1 => by
    cases op with
    | init => obtain ⟨b, w, rfl, ⟨r, n', evs, h1, rfl, rfl⟩, rfl⟩ := h1; exact .inr ⟨rfl, rfl, _, rfl, by rintro e he op' - ⟨h, c, -, k⟩; simp at he; subst he; cases k⟩
    | deinit => obtain ⟨b, w, rfl, ⟨n', evs, h1, rfl, rfl⟩, rfl⟩ := h1; exact .inr ⟨rfl, rfl, _, rfl, by rintro e he op' - ⟨h, c, -, k⟩; simp at he; subst he; cases k⟩
    | clone n v out =>
      obtain ⟨b, w, rfl, ⟨b', d, r, copy, k1, k2, h1, rfl, rfl⟩, rfl⟩ := h1
      exact .inr ⟨rfl, rfl, _, rfl, by rintro e he op' - ⟨h, c, -, k⟩; simp at he; subst he; cases k⟩
    | create host => obtain ⟨r, a', w', rfl, ⟨c, evs, h1, rfl, h2, rfl⟩, rfl⟩ := h1; exact .inl ⟨rfl, by simp, _, rfl, rfl, _, _, rfl, rfl⟩
    | close i =>
      rcases h1 with ⟨_, rfl, rfl⟩ | ⟨a, r, a', w', h1, rfl, ⟨rfl, h3, evs, h4, rfl⟩, rfl⟩
      · exact .inr ⟨rfl, rfl, [], by simp, by simp⟩
      · exact .inr ⟨rfl, by simp, _, rfl, by rintro e he op' - ⟨h, c, -, k⟩; simp at he; subst he; cases k⟩
    | setOption i n v =>
      rcases h1 with ⟨_, rfl, rfl⟩ | ⟨a, r, a', w', h1, rfl, ⟨b, r', k, h4, rfl, rfl⟩, rfl⟩
      · exact .inr ⟨rfl, rfl, [], by simp, by simp⟩
      · exact .inr ⟨rfl, by simp, _, rfl, by rintro e he op' - ⟨h, c, -, k⟩; simp at he; subst he; cases k⟩
    | request i type path hdrs content len status rhdrs rcontent =>
      rcases h1 with ⟨_, rfl, rfl⟩ | ⟨a, r, a', w', h1, rfl, ⟨y, p, rh, rcb, r', y', evs, k, h3, h4, h5, rfl, rfl⟩, rfl⟩
      · exact .inr ⟨rfl, rfl, [], by simp, by simp⟩
      · exact .inr ⟨rfl, by simp, _, rfl, by rintro e he op' - ⟨h, c, -, k⟩; simp at he; subst he; cases k⟩) h
  simp at hl
  subst hl
  obtain ⟨j, op, h1, h2, h0, c0, rfl, h4⟩ := hm e he _ rfl ⟨host, c, rfl, hc⟩
  rw [hc] at h4
  cases h4
  exact ⟨j, by simpa using h1, h2⟩

/-- C117: Memory is not refused; a call of the client makes libcurl send a request `q`.  Then the call is an `HTTPAPI_ExecuteRequest` of the client on its `i`-th connection, made
for `host`; `q` goes to that host and the path of that call, with its method, its content, and the headers of its list (those with a valid name; values of equal names joined;
white space at their beginning dropped), in their order, if they fit into memory. -/
theorem client_request (h : Runs (step rel) ([], []) ops outs (as, log)) (hr : rel) {l1 l2 : Log} {e : Entry} (hl : log = l1 ++ e :: l2)
    {c : Nat} {q : Request} (hq : .perform c q ∈ e.evs) :
    ∃ i type path l content len status rhdrs rcontent r host,
      (called ops outs)[l1.length]? = some (.request i type (some path) (some l) content len status rhdrs rcontent, .result r) ∧
      (ops.filter Op.isCreate)[i]? = some (.create (some host)) ∧
      q.url = text "https://" ++ host ++ path ∧ q.verb = verbOf type (content.getD []) ∧ q.body = content.getD [] ∧
      (Fits [] l → q.headers = (allLines (merged [] l)).filter shown) := by
  obtain ⟨i, x, r, x', host, hp, hcall, hcr, ⟨path, hs, hpath, hhs, hurl, hverb, hh, hb, _⟩, _⟩ := request_faithful h hl hq
  obtain ⟨i', hi, hcreate⟩ := created_by h (e := ⟨some i, .create (some host) (.good (fresh c host)), [.easyInit c]⟩) (by rw [hl]; simp [hcr]) rfl
  cases hi
  have hm := calls_asked h
  rw [hl] at hm
  obtain ⟨⟨op, out⟩, hk, ha⟩ := hm.of_split
  obtain ⟨pos, call, evs⟩ := e
  dsimp only at hp hcall
  subst hp hcall
  unfold Asks at ha
  cases op with
  | request j type p hd content len status rhdrs rcontent =>
    obtain ⟨h1, h2, h3, h4, h5, h6, h7, h8⟩ := ha
    dsimp only at h1 h2
    subst h1
    cases h2
    rw [hpath] at h4
    subst h4
    obtain ⟨l, rfl, hB⟩ := h5.1 hs hhs
    have hbody : x.body = content.getD [] := by unfold Args.body; rw [h6]
    rw [h3, hbody] at hverb
    rw [hbody] at hb
    exact ⟨i, type, path, l, content, len, status, rhdrs, rcontent, r, host, hk, hcreate, hurl, hverb, hb, fun hf => by rw [hh, Ti.built_all hr hB hf]⟩
  | _ => exact ha.elim

/-- C117: the hypotheses are met: in the record of `sample` there is a request of the fourth call, that has the path, header and content given there -/
theorem sample_sent : ∃ as log l1 e l2 c q, Recorded True sample sampleOuts as log ∧ log = l1 ++ e :: l2 ∧ l1.length = 3 ∧ .perform c q ∈ e.evs ∧
    q.url = text "https://h/p" ∧ q.verb = text "POST" ∧ q.headers = [text "A: b"] ∧ q.body = text "xy" := by
  obtain ⟨as, log, hR⟩ := sample_recorded
  obtain ⟨lib, Net, Global, Easy, Slist, Busy, g, rcb, s, env, s', _, _, _, _, _, _, hr, _⟩ := id hR
  have hm := calls_asked hr
  have hlen : log.length = 8 := by rw [← hm.1]; rfl
  obtain ⟨e, he⟩ : ∃ e, log[3]? = some e := ⟨_, List.getElem?_eq_getElem (by omega)⟩
  have hl : log = log.take 3 ++ e :: log.drop 4 := by
    have h3 : 3 < log.length := by omega
    rw [List.getElem?_eq_getElem h3] at he
    cases he
    rw [← List.drop_eq_getElem_cons h3, List.take_append_drop]
  have ha := hm.2 3 _ e rfl he
  obtain ⟨pos, call, evs⟩ := e
  cases call with
  | request y r y' =>
    have hr0 : r = .ok := by have := ha.1; cases this; rfl
    subst hr0
    obtain ⟨h1, _⟩ := (request_once hr hl).2 rfl
    obtain ⟨ev, hev, hp⟩ := List.countP_pos_iff.1 (by omega : 0 < evs.countP Ev.isPerform)
    cases ev with
    | perform c q =>
      obtain ⟨i, type, path, l, content, len, status, rhdrs, rcontent, r, host, hk, hcreate, hurl, hverb, hb, hh⟩ := client_request hr trivial hl hev
      have h3 : (log.take 3).length = 3 := by simp; omega
      rw [h3] at hk
      cases hk
      cases hcreate
      refine ⟨as, log, _, _, _, c, q, hR, hl, h3, hev, hurl, hverb, ?_, hb⟩
      rw [hh ?_]
      · decide
      · intro l1 p l2 h
        rcases l1 with _ | ⟨a, l1⟩
        · cases h
          exact ⟨by decide, by intro old h; cases h⟩
        · have := congrArg List.length h
          simp at this
    | _ => cases hp
  | _ => exact ha.elim

end Verif.Curl
