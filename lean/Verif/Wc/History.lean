import Verif.Wc.HSpec
import Verif.Wc.Props
/-! # Lives of `WolfSSLConnection` objects -/
set_option linter.unusedSimpArgs false
set_option linter.unusedVariables false
namespace Verif.Wc
open Verif.Mb (Wire Put Received Bytes Text)
open Verif.Sas (text)

/-- a method called by the client -/
def exec (t : Tls) (c : Nat) (op : Op) : M Out :=
  match op with
  | .connect host port => do
    let r ← connect t c (.str host) port
    pure (.num r)
  | .isConnected => do
    let b ← isConnected c
    pure (.bool b)
  | .send bs => do
    let r ← send t c (.lit bs) bs.length
    pure (.num r)
  | .receive n => do
    let p ← malloc n
    if p = 0 then pure .skipped else do
    let r ← receive t c p 0 n
    let vs ← loadN p 0 n
    free p
    pure (.data r vs)
  | .close => do
    let b ← close t c
    pure (.bool b)
  | .load u => do
    let b ← loadCertificate t c (.str u) (u.length + 1)
    pure (.bool b)

def execAll (t : Tls) (c : Nat) : List Op → M (List Out)
  | [] => pure []
  | op :: ops => do
    let x ← exec t c op
    let xs ← execAll t c ops
    pure (x :: xs)

/-- an object in memory `c` from the constructor to the destructor -/
def life (t : Tls) (c : Nat) (ops : List Op) : M (List Out) := do
  construct t c
  let xs ← execAll t c ops
  destruct t c
  pure xs

/-- arguments a client may pass: texts without NUL, data of less than 2³¹ bytes -/
def good : Op → Prop
  | .connect host _ => NoNul host ∧ host.length < maxObj
  | .send bs => bs.length < 2 ^ 31
  | .receive n => 0 < n ∧ n < 2 ^ 31
  | .load u => NoNul u ∧ u.length < maxObj
  | _ => True

variable {rel : Prop} {t : Tls} {R : Reps} {Peer : Text → Wire → Prop} {W : Prop}

theorem lit_bytes {bs : Text} (h : bs.length < 2 ^ 31) : Bytes emp (.lit bs) bs where
  storage := by
    intro rel
    unfold Verif.storage
    exact Triple.pure (entails_pand_r (entails_refl _) (List.prefix_refl _))

theorem str_reads {u : Text} (h : NoNul u) (hl : u.length < maxObj) : Reads emp (.str u) u :=
  lit_reads (by have := cstrV_bytes h []; simpa [bytesV] using this) (by simp; omega)

theorem exec_spec (H : Honours rel t R Peer W) {c : Nat} {op : Op} (hop : good op) {o : Ob} {tr : List TEv} :
    Triple rel (R.Net tr ∗ ObR R c o) (exec t c op) (fun out => ∃∃ (o' : Ob) (evs : List TEv), (step Peer W o op out o' evs) ⋏ R.Net (tr ++ evs) ∗ ObR R c o') := by
  unfold exec
  cases op with
  | connect host port =>
    dsimp only
    rw [← sep_emp (P := ObR R c o)]
    step (connect_spec H (c := c) (o := o) (port := port) (tr := tr) (str_reads hop.1 hop.2)) into r
    intro o' evs h
    exact Triple.pure (entails_ex_r o' (entails_ex_r evs (entails_pand_r (by (try simp only [sep_emp]); sep_cancel) ⟨r, rfl, h⟩)))
  | isConnected =>
    dsimp only
    step (isConnected_spec (R := R) (c := c) (o := o)) into r
    intro h
    exact Triple.pure (entails_ex_r o (entails_ex_r [] (entails_pand_r (by rw [List.append_nil]; sep_cancel) ⟨by rw [h], rfl, rfl⟩)))
  | send bs =>
    dsimp only
    rw [← sep_emp (P := ObR R c o)]
    step (send_spec H (c := c) (o := o) hop (lit_bytes hop)) into r
    intro o' h
    exact Triple.pure (entails_ex_r o' (entails_ex_r [] (entails_pand_r (by simp only [sep_emp, List.append_nil]; sep_cancel) ⟨r, rfl, h, rfl⟩)))
  | receive n =>
    dsimp only
    have hn : n ≤ maxObj := by have := hop.2; have : maxObj = 2 ^ 56 := rfl; omega
    refine Triple.malloc (fun hr => ?_) fun p hp hm => ?_
    · rw [if_pos rfl]
      exact Triple.pure (entails_ex_r o (entails_ex_r [] (entails_pand_r (by rw [List.append_nil]; sep_cancel) ⟨rfl, .inl ⟨rfl, rfl⟩⟩)))
    rw [if_neg hp]
    cases hl : o.live with
    | none =>
      step (receive_idle (t := t) (R := R) (p := p) (off := 0) (n := n) hl) into r
      intro hr
      step (loadN_spec (p := p) (off := 0) (n := n) (b := List.replicate n .undef) (by simp)) into vs
      intro hvs
      step (free_spec (p := p) (b := List.replicate n .undef))
      refine Triple.pure (entails_ex_r o (entails_ex_r [] (entails_pand_r (by rw [List.append_nil]; sep_cancel) ⟨rfl, .inr ?_⟩)))
      rw [hl]
      exact ⟨rfl, by rw [hr, hvs]; simp⟩
    | some w =>
      step (receive_spec H (c := c) (p := p) (b := List.replicate n .undef) (off := 0) hl hop.1 hop.2 (by simp)) into r
      have eta : ({ o with live := some w } : Ob) = o := by rw [← hl]
      unfold Received
      split
      · rename_i hi
        split
        · rename_i hfin
          rw [pand_sep]
          hoist; intro hr
          rw [eta]
          step (loadN_spec (p := p) (off := 0) (n := n) (b := List.replicate n .undef) (by simp)) into vs
          intro hvs
          step (free_spec (p := p) (b := List.replicate n .undef))
          refine Triple.pure (entails_ex_r o (entails_ex_r [] (entails_pand_r (by rw [List.append_nil]; sep_cancel) ⟨rfl, .inr ?_⟩)))
          rw [hl]
          dsimp only
          rw [if_pos hi]
          exact ⟨rfl, _, _, rfl, by rw [if_pos hfin]; exact ⟨hr, by rw [hvs]; simp⟩⟩
        · rename_i hfin
          simp only [hex_sep, pand_sep]
          hoist; intro vs hr hvs
          rw [eta]
          step (loadN_spec (p := p) (off := 0) (n := n) (b := patch (List.replicate n .undef) 0 vs) (by simp [patch, hvs])) into us
          intro hus
          step (free_spec (p := p) (b := patch (List.replicate n .undef) 0 vs))
          refine Triple.pure (entails_ex_r o (entails_ex_r [] (entails_pand_r (by rw [List.append_nil]; sep_cancel) ⟨rfl, .inr ?_⟩)))
          rw [hl]
          dsimp only
          rw [if_pos hi]
          exact ⟨rfl, _, _, rfl, by rw [if_neg hfin]; exact hr⟩
      · rename_i hi
        simp only [hex_sep, pand_sep]
        hoist; intro k hr h0 hk hw
        have hlen : (bytesV (w.ins.take k)).length = k := by simp [bytesV]; omega
        have e : patch (List.replicate n .undef) 0 (bytesV (w.ins.take k)) = bytesV (w.ins.take k) ++ List.replicate (n - k) .undef := by
          unfold patch
          rw [hlen]
          simp
        rw [e]
        step (loadN_spec (p := p) (off := 0) (n := n) (b := bytesV (w.ins.take k) ++ List.replicate (n - k) .undef) (by rw [List.length_append, hlen, List.length_replicate]; omega)) into us
        intro hus
        step (free_spec (p := p) (b := bytesV (w.ins.take k) ++ List.replicate (n - k) .undef))
        refine Triple.pure (entails_ex_r { o with live := some (w.got k) } (entails_ex_r [] (entails_pand_r (by rw [List.append_nil]; sep_cancel) ⟨rfl, .inr ?_⟩)))
        rw [hl]
        dsimp only
        rw [if_neg hi]
        refine ⟨k, h0, hk, hw, rfl, ?_⟩
        rw [hr, hus, List.drop_zero, List.take_of_length_le (by rw [List.length_append, hlen, List.length_replicate]; omega)]
  | close =>
    dsimp only
    step (close_spec H (c := c) (o := o) (tr := tr)) into r
    intro o' evs h
    exact Triple.pure (entails_ex_r o' (entails_ex_r evs (entails_pand_r (by sep_cancel) ⟨r, rfl, h⟩)))
  | load u =>
    dsimp only
    rw [← sep_emp (P := ObR R c o)]
    step (loadCertificate_spec H (c := c) (o := o) (tr := tr) (str_reads hop.1 hop.2)) into r
    intro evs h
    exact Triple.pure (entails_ex_r o (entails_ex_r evs (entails_pand_r (by (try simp only [sep_emp]); sep_cancel) ⟨r, rfl, rfl, h⟩)))

theorem execAll_spec (H : Honours rel t R Peer W) {c : Nat} : ∀ (ops : List Op), (∀ op ∈ ops, good op) → ∀ (o : Ob) (tr : List TEv),
    Triple rel (R.Net tr ∗ ObR R c o) (execAll t c ops) (fun outs => ∃∃ (o' : Ob) (evss : List (List TEv)), (Steps Peer W o ops outs o' evss) ⋏ R.Net (tr ++ evss.flatten) ∗ ObR R c o')
  | [], _, o, tr => by
    rw [execAll]
    exact Triple.pure (entails_ex_r o (entails_ex_r [] (entails_pand_r (by simp only [List.flatten_nil, List.append_nil]; exact entails_refl _) .nil)))
  | op :: ops, hops, o, tr => by
    rw [execAll]
    step (exec_spec H (c := c) (o := o) (tr := tr) (hops op (by simp))) into out
    intro o1 evs h
    step (execAll_spec H (c := c) ops (fun x hx => hops x (by simp [hx])) o1 (tr ++ evs)) into outs
    intro o2 evss hs
    refine Triple.pure (entails_ex_r o2 (entails_ex_r (evs :: evss) (entails_pand_r ?_ (.cons h hs))))
    rw [List.flatten_cons, ← List.append_assoc]
    exact entails_refl _

/-- C93: the life of an object: it runs, and does what `Lives` says; what is left behind is `LeftR`. -/
theorem life_spec (H : Honours rel t R Peer W) {c : Nat} {b : Block} (hb : b.length = 8) (ops : List Op) (hops : ∀ op ∈ ops, good op) :
    Triple rel (R.Net [] ∗ c ↦ b) (life t c ops) (fun outs => ∃∃ (o : Ob) (evs : List TEv), (Lives Peer W ops outs o evs) ⋏
      R.Net (evs ++ destroying o) ∗ (∃∃ b' : Block, c ↦ b') ∗ LeftR R o) := by
  unfold life
  step (construct_spec H (c := c) (tr := []) hb) into u
  intro o0 evs0 h0
  step (execAll_spec H (c := c) ops hops o0 ([] ++ evs0)) into outs
  intro o evss hs
  step (destruct_spec H (c := c) (o := o) (tr := [] ++ evs0 ++ evss.flatten))
  intro b'
  refine Triple.pure (entails_ex_r o (entails_ex_r (evs0 ++ evss.flatten) (entails_pand_r ?_ ⟨o0, evs0, evss, h0, hs, rfl⟩)))
  rw [List.nil_append]
  simp only [hex_sep, sep_hex]
  refine entails_ex_r b' ?_
  sep_cancel

end Verif.Wc
