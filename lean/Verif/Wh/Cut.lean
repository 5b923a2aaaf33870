import Verif.Wh.Demo
/-! # C104: a body of more than 2³² bytes is cut -/
set_option linter.unusedSimpArgs false
set_option linter.unusedVariables false
namespace Verif.Wh
open Verif.Headers (Hdrs)
open Verif.Buffer (Content)
open Verif.Curl (Args)
open Verif.Sas (text)
open Verif.Map (okText)

def cutOps (bs : Text) : List Op := [.init, .create (some (text "h")), .request 0 1 (some (text "/")) (some []) (some bs) none none none]

/-- C104: Of a body of 2³² + 1 bytes, one byte is sent, and the request reports success. -/
theorem body_cut (bs : Text) (hbs : bs.length = 2 ^ 32 + 1) : ∃ outs as log, Recorded True demoW (cutOps bs) outs as log ∧
    ∃ p x x' k evs q wh, (⟨p, .request x .ok x' k, evs⟩ : Entry) ∈ log ∧ x.body = bs ∧ Ev.send q wh (bs.take 1) true ∈ evs := by
  have hops : ∀ op ∈ cutOps bs, good op := by
    have : bs.length < maxObj := by rw [hbs]; decide
    simp [cutOps, good, okText, Ex.okPairs, Ex.okBytes, text, NoNul, maxObj] at this ⊢
    omega
  obtain ⟨outs, env, as, log, s', k1, k2, k3⟩ := histories_run (fine_honours (rel := True)) (g := 1003) (cutOps bs) hops (by simp [cutOps, szMod]) (demoSt fun _ => false)
    demoSt_fin (fun _ => demoSt_reliable) (demoSt_net (by simp [fineNet, true_pand]))
  refine ⟨outs, as, log, ⟨_, _, _, _, _, _, _, _, _, fine_honours, demoSt_fin, fun _ => demoSt_reliable, demoSt_net (by simp [fineNet, true_pand]), hops, k1, k2, k3⟩, ?_⟩
  have hfine : ∀ e ∈ trace log, e.fine := by
    rw [NetL_eq, fineNet] at k3
    simp only [sep_pand, pand_sep] at k3
    exact k3.1
  unfold cutOps at k2
  cases k2 with | cons h1 h =>
  cases h with | cons h2 h =>
  cases h with | cons h3 h =>
  cases h with | nil =>
  obtain ⟨b, w1, hb, ⟨r, n', s', evs, hI, rfl, rfl⟩, rfl⟩ := h1
  obtain ⟨b, a', w2, hb2, ⟨c, evs2, hc, rfl, rfl, rfl⟩, rfl⟩ := h2
  rcases h3 with ⟨hn, _⟩ | ⟨a, r4, a4, w4, hi, hr4, ⟨y, r3, y', evs3, k, hM, hE, _, rfl, rfl⟩, he⟩
  · simp at hn
  cases he
  simp at hi
  subst hi
  simp [trace] at hfine
  -- the session is opened
  have hr : r = .ok := by
    unfold InitE at hI
    rw [if_pos (show users ([], []).snd = 0 from rfl)] at hI
    rcases hI with ⟨_, _, _, rfl⟩ | ⟨_, h, _⟩
    · exact absurd (hfine (.session 0) (.inl (by simp))) (by simp [Ev.fine])
    · exact h
  subst hr
  have hu : users ([] ++ [(⟨none, .init .ok, evs⟩ : Entry)]) = 1 := rfl
  unfold CreateE at hc
  dsimp only at hc
  rw [hu, if_neg (by decide)] at hc
  rcases hc with ⟨_, h, _⟩ | ⟨_, h | h, _⟩ | ⟨w, d, _, rfl, rfl⟩
  · exact absurd trivial h
  · exact absurd trivial h
  · exact absurd h (by decide)
  have hd : d ≠ 0 := by
    have := hfine (.connect _ w 443 d) (.inr (.inl (List.mem_singleton.2 rfl)))
    simpa [Ev.fine] using this
  rw [if_neg hd] at hE
  obtain ⟨e1, e2, e3, e4, e5, e6, e7, e8⟩ := hM
  unfold ExecE at hE
  rw [if_neg (by simp [users, usersStep]), e2] at hE
  cases hh : y.hdrs with
  | none => exact absurd (e3.2 trivial hh) (by simp)
  | some hs =>
    obtain ⟨ps, hp, hB⟩ := e3.1 hs hh
    cases hp
    have : hs = [] := hB
    subst this
    rw [hh] at hE
    simp only [Conn.obj] at hE
    rw [if_neg (by omega)] at hE
    have hbody : y.body = bs := by simp [Args.body, e4]
    have hrh : y.rhdrs = none := by
      cases hz : y.rhdrs with
      | none => rfl
      | some z => obtain ⟨_, h, _⟩ := e7.1 z hz; cases h
    rcases hE with ⟨_, h | h, _⟩ | ⟨_, h | h | h, _⟩ | ⟨wp, wh, _, _, ⟨_, _, rfl, _⟩ | ⟨q, evs1, _, hO, rfl⟩⟩
    · exact absurd trivial h
    · exact absurd h (by decide)
    · exact absurd trivial h
    · exact absurd h (by decide)
    · exact absurd h (by decide)
    · exact absurd (hfine _ (.inr (.inr (List.mem_singleton.2 rfl)))) (by simp [Ev.fine])
    · have hf : ∀ e ∈ evs1, e.fine := fun e he => hfine _ (.inr (.inr (by simp [he])))
      rcases hO with ⟨_, _, rfl, _⟩ | ⟨_, _, rfl, _⟩ | ⟨_, _, rfl, _⟩ | ⟨evs2, hR, rfl⟩
      · exact absurd (hf _ (List.mem_singleton.2 rfl)) (by simp [Ev.fine])
      · exact absurd (hf (.security q 0 false) (by simp)) (by simp [Ev.fine])
      · exact absurd (hf (.send q wh (y.body.take (y.body.length % 2 ^ 32)) false) (by simp)) (by simp [Ev.fine])
      · have hr3 : r3 = .ok := by
          rcases hR with ⟨_, _, rfl, _⟩ | ⟨_, _, rfl, _⟩ | ⟨code, evs3, hA, rfl⟩
          · exact absurd (hf (.receive q false) (by simp)) (by simp [Ev.fine])
          · exact absurd (hf (.status q none) (by simp)) (by simp [Ev.fine])
          · have body : ∀ {c c' : Content} {r : Res} {evs : List Ev}, BodyE True q c r c' evs → (∀ e ∈ evs, e.fine) → r = .ok := by
              intro c c' r evs hb hf
              cases hb with
              | failed => exact absurd (hf _ (List.mem_singleton.2 rfl)) (by simp [Ev.fine])
              | last => rfl
              | @full c a h0 => exact absurd (hf _ (List.mem_singleton.2 rfl)) (by simp [Ev.fine, h0])
              | @broken c a tl h0 => exact absurd (hf (.avail q (some a)) (by simp)) (by simp [Ev.fine, h0])
              | @nothing c a h0 => exact absurd (hf (.avail q (some a)) (by simp)) (by simp [Ev.fine, h0])
              | @piece c a bs r c' evs h0 h1 =>
                have := hf (.avail q (some a)) (by simp)
                simp [Ev.fine] at this
                subst this
                exact absurd (List.length_eq_zero_iff.1 (by omega)) h0
            rcases hA with ⟨_, h, _⟩ | ⟨r1, c', evs1, hb, ⟨_, rfl, _, rfl, _⟩ | ⟨_, hs, _, _, h, _⟩⟩
            · exact absurd trivial h
            · exact body hb fun e he => hf e (by simp [he])
            · rw [hrh] at h; cases h
        subst hr3
        refine ⟨_, y, y', k, _, q, wh, List.mem_append_right _ (List.mem_singleton.2 rfl), hbody, ?_⟩
        have : y.body.take (y.body.length % 2 ^ 32) = bs.take 1 := by rw [hbody, hbs]
        rw [this]
        simp

end Verif.Wh
