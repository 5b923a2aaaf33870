import Verif.Wc.Props
import Verif.Mb.History
/-!
# `WolfSSLConnection` meets the contract that `httpapi_mbed.cpp` relies on

So every theorem about `httpapi_mbed.cpp` holds of the two files together, on top of wolfSSL and lwIP.
-/
set_option linter.unusedVariables false
namespace Verif.Wc
open Verif.Mb (Wire Put Received Bytes Text)

variable {rel : Prop} {t : Tls} {R : Reps} {Peer : Text → Wire → Prop} {W : Prop}

/-- an object, for the contract -/
def ConR (R : Reps) (c : Nat) (w : Option Wire) : HProp := ∃∃ o : Ob, (o.live = w) ⋏ ObR R c o
theorem ConR_eq {c : Nat} {w : Option Wire} : ConR R c w = ∃∃ o : Ob, (o.live = w) ⋏ ObR R c o := rfl
theorem ConR_intro {c : Nat} {o : Ob} {w : Option Wire} (h : o.live = w) : ObR R c o ⊢ₕ ConR R c w := entails_ex_r o (entails_pand_r (entails_refl _) h)

/-- what objects that were destroyed left behind -/
def Lefts (R : Reps) : List Ob → HProp
  | [] => emp
  | o :: os => LeftR R o ∗ Lefts R os
/-- the memory of the libraries, for the contract -/
def NetR (R : Reps) (_ : List Mb.Ev) : HProp := ∃∃ (tr : List TEv) (os : List Ob), R.Net tr ∗ Lefts R os
theorem NetR_eq {l : List Mb.Ev} : NetR R l = ∃∃ (tr : List TEv) (os : List Ob), R.Net tr ∗ Lefts R os := rfl
theorem NetR_intro {l : List Mb.Ev} {tr : List TEv} {os : List Ob} : R.Net tr ∗ Lefts R os ⊢ₕ NetR R l := entails_ex_r tr (entails_ex_r os (entails_refl _))

/-- C93: `WolfSSLConnection` is a connection as `httpapi_mbed.cpp` expects it. -/
theorem honours (H : Honours rel t R Peer W) : Mb.Honours rel (asLib t) (NetR R) (ConR R) Peer W where
  construct c b tr hb := by
    conv => arg 2; rw [NetR_eq]
    hoist; intro ttr os
    refine ((construct_spec H (tr := ttr) hb).frame (Lefts R os)).conseq (by (try simp only [sep_assoc]); sep_cancel) fun _ => ?_
    simp only [hex_sep, pand_sep]
    refine entails_ex_l fun o => entails_ex_l fun evs => entails_pand_l fun h => ?_
    refine entails_trans (Q := (R.Net (ttr ++ evs) ∗ Lefts R os) ∗ ObR R c o) (by simp only [sep_assoc]; sep_cancel) (sep_mono NetR_intro (ConR_intro (o := o) ?_))
    rcases h with ⟨rfl, _⟩ | ⟨_, _, rfl, _⟩ <;> rfl
  destruct c w tr := by
    conv => arg 2; rw [NetR_eq, ConR_eq]
    hoist; intro o hw ttr os
    refine ((destruct_spec H (o := o) (tr := ttr)).frame (Lefts R os)).conseq (by (try simp only [sep_assoc]); sep_cancel) fun _ => ?_
    refine entails_trans ?_ (sep_mono (NetR_intro (tr := ttr ++ destroying o) (os := o :: os)) (entails_refl _))
    rw [Lefts, Mb.Raw]
    simp only [sep_assoc]
    sep_cancel
  isConnected c w := by
    conv => arg 2; rw [ConR_eq]
    hoist; intro o hw
    refine isConnected_spec.conseq (entails_refl _) fun r => entails_pand_l fun h => entails_pand_r (ConR_intro hw) (by rw [h, hw])
  close c w tr := by
    conv => arg 2; rw [NetR_eq, ConR_eq]
    hoist; intro o hw ttr os
    show Triple rel _ (do let _ ← close t c; pure ()) _
    refine Triple.pre (?_ : Triple rel (R.Net ttr ∗ ObR R c o ∗ Lefts R os) _ _) (by (try simp only [sep_assoc]); sep_cancel)
    step (close_spec H (c := c) (o := o) (tr := ttr)) into r
    intro o' evs h
    refine Triple.pure ?_
    refine entails_trans (Q := (R.Net (ttr ++ evs) ∗ Lefts R os) ∗ ObR R c o') (by simp only [sep_assoc]; sep_cancel) (sep_mono NetR_intro (ConR_intro (o := o') ?_))
    obtain ⟨_, h⟩ := h
    cases hl : o.live with
    | none => rw [hl] at h; rw [h.1, hl]
    | some w => rw [hl] at h; rw [h.1]
  loadCertificate c V s u tr hs := by
    conv => arg 2; rw [NetR_eq, ConR_eq]
    hoist; intro o hw ttr os
    refine ((loadCertificate_spec H (c := c) (o := o) (tr := ttr) hs).frame (Lefts R os)).conseq (by (try simp only [sep_assoc]); sep_cancel) fun r => ?_
    simp only [hex_sep, pand_sep]
    refine entails_ex_l fun evs => entails_pand_l fun h => ?_
    refine entails_trans (Q := (R.Net (ttr ++ evs) ∗ Lefts R os) ∗ ObR R c o ∗ V) (by simp only [sep_assoc]; sep_cancel) (sep_mono NetR_intro (sep_mono (ConR_intro hw) (entails_refl _)))
  connect c V s u p tr hs := by
    conv => arg 2; rw [NetR_eq, ConR_eq]
    hoist; intro o hw ttr os
    refine ((connect_spec H (c := c) (o := o) (tr := ttr) (port := p) hs).frame (Lefts R os)).conseq (by (try simp only [sep_assoc]); sep_cancel) fun r => ?_
    simp only [hex_sep, pand_sep]
    refine entails_ex_l fun o' => entails_ex_l fun evs => entails_pand_l fun h => ?_
    refine entails_ex_r o'.live (entails_pand_r ?_ ?_)
    · exact entails_trans (Q := (R.Net (ttr ++ evs) ∗ Lefts R os) ∗ ObR R c o' ∗ V) (by simp only [sep_assoc]; sep_cancel)
        (sep_mono NetR_intro (sep_mono (ConR_intro rfl) (entails_refl _)))
    · cases h with
      | noCtx _ h => exact .inl ⟨h, hw⟩
      | again _ _ h => exact .inl ⟨h, hw⟩
      | noSocket _ _ h => exact .inl ⟨h, hw⟩
      | unreached _ _ h => exact .inl ⟨h, hw⟩
      | refused _ _ h => exact .inl ⟨h, hw⟩
      | done _ _ _ h1 h2 h3 => exact .inr ⟨rfl, _, rfl, h1, h2, h3⟩
  sendAll c w V p bs hb hp := by
    conv => arg 2; rw [ConR_eq]
    hoist; intro o hw
    refine (send_spec H (c := c) (o := o) hb hp).conseq (entails_refl _) fun r => ?_
    refine entails_ex_l fun o' => entails_pand_l fun h => ?_
    unfold Sent at h
    rw [hw] at h
    obtain ⟨w', rfl, ⟨n, hn, hw', hall⟩, hr, h0⟩ := h
    refine entails_ex_r w' (entails_pand_r (sep_mono (ConR_intro rfl) (entails_refl _)) ⟨n, hn, hw', fun hr0 hW => ?_⟩)
    rcases hr with hr | hr
    · exact hall hr trivial
    · have : bs = [] := h0 hW (by omega)
      subst this
      simp at hn
      simp [hn]
  receive c w p b off n h0 hn hb := by
    conv => arg 2; rw [ConR_eq]
    hoist; intro o hw
    refine (receive_spec H (c := c) (o := o) hw h0 hn hb).conseq (entails_refl _) fun r => ?_
    unfold Received
    split
    · split
      · exact entails_pand_l fun h => entails_pand_r (sep_mono (ConR_intro rfl) (entails_refl _)) h
      · exact entails_ex_l fun vs => entails_pand_l fun h => entails_ex_r vs (entails_pand_r (sep_mono (ConR_intro rfl) (entails_refl _)) h)
    · exact entails_ex_l fun k => entails_pand_l fun h => entails_ex_r k (entails_pand_r (sep_mono (ConR_intro rfl) (entails_refl _)) h)

/-- C93: histories of calls of `httpapi.h` run on `httpapi_mbed.cpp` and `wolfssl_connection.cpp` together, on wolfSSL and lwIP. -/
theorem stack_run {P : Text → Wire → Prop} (H : Honours rel t R Peer W) (S : Mb.Served rel W Peer P) (hrel : rel) {buf cp : Ptr} (ops : List Mb.Op) (hops : ∀ op ∈ ops, Mb.good op)
    (s : St) (hf : s.heap.fin) (hr : Reliable s.alloc) (h0 : Mb.NetL (NetR R) buf cp [] s.heap) :
    ∃ outs env as log s', runOps (Mb.exec (asLib t) buf cp) ops [] s = some (.ok ((outs, env), s')) ∧
      Runs (Mb.step rel W Peer) ([], []) ops outs (as, log) ∧ (Own (ORep (Mb.ServedR P (ConR R))) env as ∗ Mb.NetL (NetR R) buf cp log) s'.heap :=
  Mb.histories_run (honours H) S hrel ops hops s hf hr h0

end Verif.Wc
