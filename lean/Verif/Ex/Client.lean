import Verif.Asked
import Verif.Ex.Demo
import Verif.Ti.Ledger
/-! # C117 on `httpapiex`: what reaches the transport is what the client asked for -/
set_option linter.unusedSimpArgs false
set_option linter.unusedVariables false
namespace Verif.Ex
open Verif.Headers (Hdrs find isLWS)
open Verif.Buffer (Content clen)
open Verif.Sas (text)
variable {oom : Prop} {ops : List Op} {outs : List (Option Out)} {as : List (Option Obj)} {log : Log}

/-- The call an operation asks for, with its arguments; `r`: what it returned.  Objects are passed as they are, `NULL` instead only if memory is refused. -/
def Asks (oom : Prop) (p : Op × Out) (e : Entry) : Prop :=
  match p.1, e.call with
  | .create host, .create h ok => p.2 = .handle ok ∧ h = host
  | .destroy i, .destroy => p.2 = .done ∧ e.pos = i
  | .setOption i n v, .setOption n' b r => p.2 = .result r ∧ e.pos = i ∧ n' = n ∧ Passed (oom ∨ maxObj < (v.getD []).length) v b
  | .request i type path hdrs content status rhdrs rcontent, .request y r _ =>
    p.2 = .result r ∧ e.pos = i ∧ Made oom type path hdrs content status rhdrs rcontent y
  | _, _ => False

/-- C117: The record of a history is the list of the calls the client asked for, in order, with its arguments and what was returned. -/
theorem calls_asked (h : Runs (step oom) ([], []) ops outs (as, log)) : Matched (Asks oom) (called ops outs) log := by
  obtain ⟨l, hl, hm⟩ := Runs.matched (R := Asks oom) (fun {x op o x'} h1 => by
    cases op with
    | create host => obtain ⟨r, a', w', rfl, ⟨ok, h1, rfl, rfl⟩, rfl⟩ := h1; exact .inr ⟨_, _, rfl, rfl, rfl, rfl⟩
    | destroy i =>
      rcases h1 with ⟨_, rfl, rfl⟩ | ⟨a, r, a', w', h1, rfl, ⟨rfl, h3, evs, h4, rfl⟩, rfl⟩
      · exact .inl ⟨rfl, rfl⟩
      · exact .inr ⟨_, _, rfl, rfl, rfl, rfl⟩
    | setOption i n v =>
      rcases h1 with ⟨_, rfl, rfl⟩ | ⟨a, r, a', w', h1, rfl, ⟨b, r', evs, k, h4, rfl, rfl⟩, rfl⟩
      · exact .inl ⟨rfl, rfl⟩
      · exact .inr ⟨_, _, rfl, rfl, rfl, rfl, rfl, k⟩
    | request i type path hdrs content status rhdrs rcontent =>
      rcases h1 with ⟨_, rfl, rfl⟩ | ⟨a, r, a', w', h1, rfl, ⟨y, d, r', y', d', evs, k, h3, rfl, rfl⟩, rfl⟩
      · exact .inl ⟨rfl, rfl⟩
      · exact .inr ⟨_, _, rfl, rfl, rfl, rfl, k⟩) h
  simp at hl
  subst hl
  exact hm

/-- a call of `HTTPAPIEX_Create` -/
def Op.isCreate : Op → Bool | .create _ => true | _ => false

/-- the handle at position `i` was made for the host of the `i`-th call of `HTTPAPIEX_Create` -/
theorem created_by (h : Runs (step oom) ([], []) ops outs (as, log)) {e : Entry} (he : e ∈ log) {host : Option Text} {ok : Bool} (hc : e.call = .create host ok) :
    (ops.filter Op.isCreate)[e.pos]? = some (.create host) := by
  obtain ⟨l, hl, hm⟩ := Runs.created Op.isCreate (fun op e => ∃ h c, op = Op.create h ∧ e.call = .create h c) (fun e => some e.pos) (fun {x op o x'} h1 => by
    cases op with
    | create host => obtain ⟨r, a', w', rfl, ⟨ok, h1, rfl, rfl⟩, rfl⟩ := h1; exact .inl ⟨rfl, by simp, _, rfl, rfl, _, _, rfl, rfl⟩
    | destroy i =>
      rcases h1 with ⟨_, rfl, rfl⟩ | ⟨a, r, a', w', h1, rfl, ⟨rfl, h3, evs, h4, rfl⟩, rfl⟩
      · exact .inr ⟨rfl, rfl, [], by simp, by simp⟩
      · exact .inr ⟨rfl, by simp, _, rfl, by rintro e he op' - ⟨h, c, -, k⟩; simp at he; subst he; cases k⟩
    | setOption i n v =>
      rcases h1 with ⟨_, rfl, rfl⟩ | ⟨a, r, a', w', h1, rfl, ⟨b, r', evs, k, h4, rfl, rfl⟩, rfl⟩
      · exact .inr ⟨rfl, rfl, [], by simp, by simp⟩
      · exact .inr ⟨rfl, by simp, _, rfl, by rintro e he op' - ⟨h, c, -, k⟩; simp at he; subst he; cases k⟩
    | request i type path hdrs content status rhdrs rcontent =>
      rcases h1 with ⟨_, rfl, rfl⟩ | ⟨a, r, a', w', h1, rfl, ⟨y, d, r', y', d', evs, k, h3, rfl, rfl⟩, rfl⟩
      · exact .inr ⟨rfl, rfl, [], by simp, by simp⟩
      · exact .inr ⟨rfl, by simp, _, rfl, by rintro e he op' - ⟨h, c, -, k⟩; simp at he; subst he; cases k⟩) h
  simp at hl
  subst hl
  obtain ⟨j, op, h1, h2, h0, c0, rfl, h4⟩ := hm e he _ rfl ⟨host, ok, rfl, hc⟩
  rw [hc] at h4
  cases h4
  simp at h1
  rw [h1]
  exact h2

/-- C117: Memory is not refused; a call of the client makes the transport execute a request `q`.  Then the call is an `HTTPAPIEX_ExecuteRequest` of the client on its `i`-th
handle, made for `host`; `q` has the method, path and content of that call, the header `Host` with the name of that host, `Content-Length` with the size of the content, and for all
other names the headers of the client's list (values of equal names joined, white space at their beginning dropped), if they fit into memory. -/
theorem client_request (h : Runs (step oom) ([], []) ops outs (as, log)) (hr : ¬ oom) {l1 l2 : Log} {e : Entry} (hl : log = l1 ++ e :: l2)
    {c : Nat} {q : Req} {g g' : Resp} {s : Res} (hq : .execute c q g s g' ∈ e.evs) (hcall : ∃ y r y', e.call = .request y r y') :
    ∃ i type path hdrs content status rhdrs rcontent r host,
      (called ops outs)[l1.length]? = some (.request i type path hdrs content status rhdrs rcontent, .result r) ∧
      (ops.filter Op.isCreate)[i]? = some (.create (some host)) ∧
      q.type = type ∧ q.path = path.getD [] ∧ q.content = content.elim none (fun bs => some (bytesV bs)) ∧
      find q.hdrs (text "Host") = some (host.dropWhile isLWS) ∧ (∃ t, Crt.IsDecimal (clen q.content) t ∧ find q.hdrs (text "Content-Length") = some t) ∧
      (Curl.Fits [] (hdrs.getD []) → ∀ n, n ≠ text "Host" → n ≠ text "Content-Length" → find q.hdrs n = find (Curl.merged [] (hdrs.getD [])) n) := by
  obtain ⟨y, r, y', hcall⟩ := hcall
  obtain ⟨pos, call, evs⟩ := e
  dsimp only at hcall hq
  subst hcall
  obtain ⟨q1, q2, q3, q4, ⟨j, l, host, hj, q5⟩, q6, q7⟩ := what_is_sent h hl hq
  have hcm : (⟨j, .create (some host) true, []⟩ : Entry) ∈ ofPos pos l1 := by rw [hj]; simp
  unfold ofPos at hcm
  obtain ⟨hc1, hc2⟩ := List.mem_filter.1 hcm
  have hc2 : j = pos := of_decide_eq_true hc2
  subst hc2
  have hcreate := created_by h (e := ⟨j, .create (some host) true, []⟩) (by rw [hl]; simp [hc1]) rfl
  have hm := calls_asked h
  rw [hl] at hm
  obtain ⟨⟨op, out⟩, hk, ha⟩ := hm.of_split
  unfold Asks at ha
  cases op with
  | request i type p hd content status rhdrs rcontent =>
    obtain ⟨h1, h2, h3, h4, h5, h6, h7, h8⟩ := ha
    dsimp only at h1 h2
    subst h1 h2
    have hcont : y.content = content.map fun bs => some (bytesV bs) := by
      rcases h6 with h | ⟨h, _⟩
      · exact h
      · exact absurd h hr
    have hcont2 : q.content = content.elim none (fun bs => some (bytesV bs)) := by rw [q4, hcont]; cases content <;> rfl
    refine ⟨j, type, p, hd, content, status, rhdrs, rcontent, r, host, hk, hcreate, by rw [q1, h3], by rw [q3, h4], hcont2, q5, by rw [q4]; exact q6, fun hf n n1 n2 => ?_⟩
    rw [q7 n n1 n2]
    cases hh : y.hdrs with
    | none =>
      rw [h5.2 hr hh]
      rfl
    | some hs =>
      obtain ⟨l, rfl, hB⟩ := h5.1 hs hh
      rw [Ti.built_all hr hB hf]
      rfl
  | _ => exact ha.elim

end Verif.Ex
