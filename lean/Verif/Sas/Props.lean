import Verif.Sas.Model
import Verif.Sas.Spec
import Verif.Hmac.Sha256
import Verif.Base64.Decode
import Verif.Url.Props
import Verif.Strings.History
import Verif.Crt.Props
/-!
# sastoken.c: proofs (C39)
-/
set_option linter.unusedVariables false
namespace Verif.Sas
open Verif.Sha Verif.Hmac Verif.Buffer Verif.Strings Verif.Base64 Verif.Url Verif.Crt
variable {rel : Prop}

theorem OStr_some {h : Ptr} {t : Strings.Text} : OStr h (some t) = Str h t := ORep_some

/-- `c` appends `u` to the string `h`, which holds `t`; it may fail (`true`) only for want of memory. -/
def Builds (rel : Prop) (c : M Bool) (h : Ptr) (t u : List UInt8) (F : HProp) : Prop :=
  Triple rel (Str h t ∗ F) c (fun bad => if bad then ((¬ rel ∨ maxObj < t.length + u.length + 1) ⋏ ∃∃ t', Str h t' ∗ F) else Str h (t ++ u) ∗ F)

theorem Builds.orElse {c1 c2 : M Bool} {h : Ptr} {t u w : List UInt8} {F : HProp} (h1 : Builds rel c1 h t u F) (h2 : Builds rel c2 h (t ++ u) w F) :
    Builds rel (orElse c1 c2) h t (u ++ w) F := by
  unfold Builds Sas.orElse at *
  refine Triple.bind' h1 fun bad => ?_
  cases bad with
  | true =>
    simp only [if_true]
    hoist; intro hb t'
    refine Triple.pure ?_
    rw [if_pos rfl]
    refine entails_pand_r (entails_ex_r t' (entails_refl _)) ?_
    rcases hb with h | h
    · exact Or.inl h
    · right; simp only [List.length_append]; omega
  | false =>
    simp only [Bool.false_eq_true, if_false]
    refine h2.conseq (entails_refl _) fun bad => ?_
    cases bad with
    | true =>
      simp only [if_true]
      refine entails_pand_l fun hb => entails_pand_r (entails_refl _) ?_
      simp only [List.length_append] at *
      rcases hb with h | h
      · exact Or.inl h
      · right; omega
    | false => simp only [Bool.false_eq_true, if_false, List.append_assoc]; exact entails_refl _

theorem ne0 {e : Nat} (h : e ≠ 0) : (e != 0) = true := by simp [h]

theorem builds_concat {h : Ptr} {t u : List UInt8} {s : CharPtr} {F R : HProp} (hF : F = (CStr s u ∗ R)) :
    Builds rel (failed (STRING_concat h s)) h t u F := by
  unfold Builds failed
  have hs := STRING_concat_spec (rel := rel) (h := h) (s2 := s) (a := some t) (o := some u)
  rw [OStr_some, Arg_some] at hs
  rw [hF]
  step hs into e
  intro a' he
  rcases he with ⟨rfl, -, c, c', hc, rfl, w, hw, rfl⟩ | ⟨hne, rfl, hbad⟩
  · cases hc; cases hw
    refine Triple.pure ?_
    rw [OStr_some]
    exact entails_refl _
  · rw [ne0 hne]
    refine Triple.pure ?_
    rw [if_pos rfl, OStr_some]
    refine entails_pand_r (entails_ex_r t (by sep_cancel)) ?_
    rcases hbad with h | h | ⟨x, y, hx, hy, h⟩
    · simp at h
    · exact Or.inl h
    · cases hx; cases hy; exact Or.inr h

theorem builds_lit {h : Ptr} {t u : List UInt8} {F : HProp} (hn : NoNul u) (hl : u.length < maxObj) :
    Builds rel (failed (STRING_concat h (.str u))) h t u F := by
  refine builds_concat (R := F) ?_
  have := Strings.Arg_lit (t := u) ⟨hn, hl⟩
  rw [Arg_some] at this
  rw [this, emp_sep]

theorem builds_copy {h : Ptr} {u : List UInt8} {F : HProp} (hn : NoNul u) (hl : u.length < maxObj) :
    Builds rel (failed (STRING_copy h (.str u))) h [] u F := by
  unfold Builds failed
  have hs := STRING_copy_spec (rel := rel) (h := h) (s2 := .str u) (a := some []) (o := some u)
  rw [Strings.Arg_lit ⟨hn, hl⟩, OStr_some, sep_emp] at hs
  step hs into e
  intro a' he
  rcases he with ⟨rfl, -, c, c', hc, rfl, hw⟩ | ⟨hne, rfl, hbad⟩
  · cases hc; cases hw
    refine Triple.pure ?_
    rw [OStr_some]
    exact entails_refl _
  · rw [ne0 hne]
    refine Triple.pure ?_
    rw [if_pos rfl, OStr_some]
    refine entails_pand_r (entails_ex_r [] (by sep_cancel)) ?_
    rcases hbad with h | h
    · simp at h
    · exact Or.inl h

theorem builds_STRING {h g : Ptr} {t u : List UInt8} {F R : HProp} (hF : F = (Str g u ∗ R)) :
    Builds rel (failed (STRING_concat_with_STRING h g)) h t u F := by
  unfold Builds failed
  have hs := STRING_concat_with_STRING_spec_partial (rel := rel) (h := h) (g := g) (a := some t) (b := some u)
  rw [OStr_some, OStr_some] at hs
  rw [hF]
  step hs into e
  intro a' he
  rcases he with ⟨rfl, -, c, c', hc, rfl, w, hw, rfl⟩ | ⟨hne, rfl, hbad⟩
  · cases hc; cases hw
    refine Triple.pure ?_
    rw [OStr_some]
    exact entails_refl _
  · rw [ne0 hne]
    refine Triple.pure ?_
    rw [if_pos rfl, OStr_some]
    refine entails_pand_r (entails_ex_r t (by sep_cancel)) ?_
    rcases hbad with h | h | ⟨x, y, hx, hy, h⟩
    · simp at h
    · exact Or.inl h
    · cases hx; cases hy; exact Or.inr h

theorem text_ascii (s : String) : text s = ascii s := rfl

theorem buildToBeHashed_spec {h te scope : Ptr} {P R1 : HProp} {st ex : List UInt8} (h1 : P = (Str scope st ∗ R1)) :
    Builds rel (buildToBeHashed h scope te) h [] (st ++ ascii "\n" ++ ex) (P ∗ CStr (.heap te 0) ex) := by
  rw [List.append_assoc]
  unfold buildToBeHashed
  refine Builds.orElse (builds_STRING (R := R1 ∗ CStr (.heap te 0) ex) (by rw [h1, sep_assoc])) ?_
  refine Builds.orElse (builds_lit (by decide) (by decide)) ?_
  exact builds_concat (R := P) (sep_comm _ _)

theorem buildResult_spec {h te scope keyName g : Ptr} {P R1 R2 : HProp} {st nt sg ex : List UInt8} (h1 : P = (Str scope st ∗ R1))
    (h2 : P = (Str keyName nt ∗ R2)) {D : HProp} :
    Builds rel (buildResult h scope g te keyName) h []
      (ascii "SharedAccessSignature sr=" ++ st ++ ascii "&sig=" ++ sg ++ ascii "&se=" ++ ex ++ ascii "&skn=" ++ nt) (P ∗ CStr (.heap te 0) ex ∗ Str g sg) := by
  simp only [List.append_assoc]
  unfold buildResult
  have l : ∀ s : String, NoNul (ascii s) → (ascii s).length < maxObj → ∀ t, Builds rel (failed (STRING_concat h (.str (text s)))) h t (ascii s) (P ∗ CStr (.heap te 0) ex ∗ Str g sg) :=
    fun s a b t => builds_lit a b
  refine Builds.orElse (builds_copy (by decide) (by decide)) ?_
  refine Builds.orElse (builds_STRING (R := R1 ∗ CStr (.heap te 0) ex ∗ Str g sg) (by rw [h1, sep_assoc])) ?_
  refine Builds.orElse (l _ (by decide) (by decide) _) ?_
  refine Builds.orElse (builds_STRING (R := P ∗ CStr (.heap te 0) ex) (by rw [sep_comm (Str g sg), sep_assoc])) ?_
  refine Builds.orElse (l _ (by decide) (by decide) _) ?_
  refine Builds.orElse (builds_concat (R := P ∗ Str g sg) (sep_left_comm _ _ _)) ?_
  refine Builds.orElse (l _ (by decide) (by decide) _) ?_
  exact builds_STRING (R := R2 ∗ CStr (.heap te 0) ex ∗ Str g sg) (by rw [h2, sep_assoc])

theorem readBytes_pts {p : Ptr} {vs : List Val} {bs : List UInt8} {n : Nat} (h : bytesV bs <+: vs) (hn : n ≤ bs.length) :
    Triple rel (p ↦ vs) (readBytes (.heap p 0) n) (fun r => (r = bs.take n) ⋏ p ↦ vs) := by
  unfold readBytes
  refine Triple.ite (fun h => ?_) (fun h0 => ?_)
  · subst h
    exact Triple.pure (entails_pand_r (entails_refl _) (by simp))
  step (storage_pts (off := 0) (Nat.zero_le _))
  have hl := h.length_le
  rw [bytesV_length] at hl
  rw [if_pos (by simp; omega)]
  have e : (vs.drop 0).take n = bytesV (bs.take n) := by
    rw [List.drop_zero, prefix_take h (by rw [bytesV_length]; exact hn)]; simp [bytesV]
  rw [e, go_bytes]
  exact Triple.pure (entails_pand_r (entails_refl _) rfl)

theorem readBytes_CStr {p : Ptr} {t : List UInt8} {n : Nat} (hn : n ≤ t.length) :
    Triple rel (CStr (.heap p 0) t) (readBytes (.heap p 0) n) (fun r => (r = t.take n) ⋏ CStr (.heap p 0) t) := by
  rw [CStr_heap0]
  hoist; intro vs hvs
  obtain ⟨h1, h2⟩ := cstrV_prefix hvs
  have h3 : bytesV t <+: vs := by rw [bytesV_append] at h1; exact (List.prefix_append _ _).trans h1
  refine (readBytes_pts h3 hn).conseq (entails_refl _) fun r => entails_pand_l fun h => entails_pand_r ?_ h
  exact entails_ex_r vs (entails_pand_r (entails_refl _) hvs)

theorem readBytes_zero {p : CharPtr} {D : HProp} {bs : List UInt8} : Triple rel D (readBytes p 0) (fun r => (r = bs.take 0) ⋏ D) := by
  unfold readBytes
  rw [if_pos rfl]
  exact Triple.pure (entails_pand_r (entails_refl _) (by simp))

/-- What `computeHash` leaves in the hash buffer. -/
def Hashed (rel : Prop) (kb m : List UInt8) (r : HMACSHA256_RESULT) (c : Content) : Prop :=
  (r = .OK ∧ kb ≠ [] ∧ c = some (bytesV (rfc2104 Fips.SHA256 (effKey kb) (effText m)))) ∨ (r ≠ .OK ∧ (¬ rel ∨ kb = []))

theorem computeHash_spec {l : Locals} (ht : Sized l.tctx) (hs : Sized l.ctx.shaContext) {dk tbh hash : Ptr} {kb m : List UInt8} (hm : m ≠ []) :
    Triple rel (Buf hash none ∗ Buf dk (exactly kb) ∗ Str tbh m) (computeHash l dk tbh hash)
      (fun r => ∃∃ c, (Hashed rel kb m r c) ⋏ (Buf hash c ∗ Buf dk (exactly kb) ∗ Str tbh m)) := by
  unfold computeHash
  simp only [← OBuf_some, ← OStr_some]
  step (BUFFER_length_spec (h := dk) (a := some (exactly kb)))
  step (STRING_length_spec (h := tbh) (a := some m))
  step (BUFFER_u_char_spec (h := dk) (a := some (exactly kb))) into k
  step (STRING_c_str_spec (h := tbh) (a := some m)) into p
  have e1 : Option.getD (Option.map clen (some (exactly kb))) 0 = kb.length := by
    unfold exactly; split
    · next h => subst h; rfl
    · simp [clen, bytesV_length]
  have e2 : Option.getD (Option.map List.length (some m)) 0 = m.length := rfl
  rw [e1, e2]
  have hkr : ReadsB rel (BufAt dk k (some (exactly kb)) ∗ StrAt tbh p (some m)) (.ofPtr k) kb := by
    intro n hn
    by_cases hk : kb = []
    · subst hk
      have : n = 0 := by simpa using hn
      subst this
      exact readBytes_zero
    · rw [exactly, if_neg hk]
      simp only [BufAt, StrAt, sep_assoc]
      refine Triple.know (know_pts (p := k) (φ := k ≠ 0) (by pick) fun h1 h2 => h1) fun hk0 => ?_
      rw [ofPtr_ne hk0]
      last (readBytes_pts (p := k) (bs := kb) (List.prefix_refl _) hn)
      rw [pand_sep]
      exact entails_pand_l fun h => entails_pand_r (by sep_cancel) h
  have hmr : ReadsB rel (BufAt dk k (some (exactly kb)) ∗ StrAt tbh p (some m)) (.ofPtr p) m := by
    intro n hn
    simp only [StrAt]
    refine Triple.know (know_heap0 (p := p) (by pick)) fun hp => ?_
    rw [ofPtr_ne hp]
    last (readBytes_CStr (p := p) hn)
    rw [pand_sep]
    exact entails_pand_l fun h => entails_pand_r (by sep_cancel) h
  have goal : (kb ≠ [] → CharPtr.ofPtr k ≠ .null) → CharPtr.ofPtr p ≠ .null →
      Triple rel (OBuf hash (some none) ∗ BufAt dk k (some (exactly kb)) ∗ StrAt tbh p (some m))
        (HMACSHA256_ComputeHash l (.ofPtr k) kb.length (.ofPtr p) m.length hash)
      (fun r => ∃∃ c, (Hashed rel kb m r c) ⋏ (OBuf hash (some c) ∗ OBuf dk (some (exactly kb)) ∗ OStr tbh (some m))) := by
    intro hk0 hp0
    refine (HMACSHA256_ComputeHash_spec' ht hs hkr hmr hk0 fun _ => hp0).conseq (entails_refl _) fun r => ?_
    have back : (BufAt dk k (some (exactly kb)) ∗ StrAt tbh p (some m)) ⊢ₕ (OBuf dk (some (exactly kb)) ∗ OStr tbh (some m)) :=
      sep_mono BufAt_OBuf StrAt_OStr
    refine entails_ex_l fun a' => entails_pand_l fun h => ?_
    rcases h with ⟨rfl, hb, rfl⟩ | ⟨rfl, hb, rfl, c, hc, h2⟩ | ⟨rfl, hb, c, hc, rfl⟩
    · refine entails_ex_r _ (entails_pand_r (sep_mono (entails_refl _) back) (Or.inr ⟨by simp, Or.inr ?_⟩))
      rcases hb with h | h | h
      · exact h
      · exact (hm h).elim
      · simp at h
    · refine entails_ex_r _ (entails_pand_r (sep_mono (entails_refl _) back) (Or.inr ⟨by simp, Or.inl ?_⟩))
      cases hc
      rcases h2 with h | h
      · exact h
      · simp [clen, maxObj] at h
    · cases hc
      have hl : (([] : List Val) ++ List.replicate 32 Val.undef).drop 32 = [] := by simp
      refine entails_ex_r _ (entails_pand_r (sep_mono (entails_refl _) back) (Or.inl ⟨rfl, fun h => hb (Or.inl h), ?_⟩))
      rw [Option.getD, hl, List.append_nil]
  have hp : ∀ h, (OBuf hash (some none) ∗ BufAt dk k (some (exactly kb)) ∗ StrAt tbh p (some m)) h → p ≠ 0 := by
    simp only [StrAt]
    exact know_heap0 (p := p) (by pick)
  have hk : kb ≠ [] → ∀ h, (OBuf hash (some none) ∗ BufAt dk k (some (exactly kb)) ∗ StrAt tbh p (some m)) h → k ≠ 0 := by
    intro hk
    rw [exactly, if_neg hk]
    simp only [StrAt, BufAt, sep_assoc]
    exact know_pts (p := k) (φ := k ≠ 0) (by pick) fun h1 h2 => h1
  refine Triple.pre ?_ (P' := OBuf hash (some none) ∗ BufAt dk k (some (exactly kb)) ∗ StrAt tbh p (some m)) (by sep_cancel)
  refine Triple.know hp fun hp0 => ?_
  have hp1 : CharPtr.ofPtr p ≠ .null := by rw [ofPtr_ne hp0]; simp
  by_cases h : kb = []
  · exact goal (fun hh => (hh h).elim) hp1
  · refine Triple.know (hk h) fun hk0 => ?_
    exact goal (fun _ => by rw [ofPtr_ne hk0]; simp) hp1

/-- The token with a given signature. -/
def tokenOf (sig st nt ex : List UInt8) : List UInt8 :=
  ascii "SharedAccessSignature sr=" ++ st ++ ascii "&sig=" ++ sig ++ ascii "&se=" ++ ex ++ ascii "&skn=" ++ nt

theorem token_eq (key scope keyName expiry : List UInt8) : token key scope keyName expiry = tokenOf (signature key scope expiry) scope keyName expiry := rfl

/-- The signature computed for keys and texts of any size (see `effKey`, `effText`). -/
def sigX (kb st ex : List UInt8) : List UInt8 := encode (rfc4648 (rfc2104 Fips.SHA256 (effKey kb) (effText (st ++ ascii "\n" ++ ex))))

/-- Memory lost by a failed call: nothing, or one block, and that only if the allocator refused a request. -/
def LostS (rel : Prop) (r : Ptr) (lost : HProp) : Prop := lost = emp ∨ (¬ rel ∧ r = 0 ∧ ∃ p vs, lost = (p ↦ vs))

/-- The reasons for which NULL may be returned. -/
def Bad (rel : Prop) (kb st nt ex : List UInt8) : Prop := ¬ rel ∨ kb = [] ∨ maxObj < (tokenOf (sigX kb st ex) st nt ex).length + 1

abbrev Token (rel : Prop) (kb st nt ex : List UInt8) (r : Ptr) : HProp :=
  Made Str (Bad rel kb st nt ex) (fun t => kb ≠ [] ∧ t = tokenOf (sigX kb st ex) st nt ex) r

theorem Made_mono {α : Type} {R : Ptr → α → HProp} {bad bad' : Prop} {ok ok' : α → Prop} {r : Ptr} (h1 : bad → bad') (h2 : ∀ x, ok x → ok' x) :
    Made R bad ok r ⊢ₕ Made R bad' ok' r := by
  unfold Made
  split
  · exact entails_pand_l fun h => entails_pand_r (entails_refl _) (h1 h)
  · exact entails_ex_l fun x => entails_pand_l fun h => entails_ex_r x (entails_pand_r (entails_refl _) (h2 x h))

theorem Made_zero_bad {kb st nt ex : List UInt8} {Q : HProp} (h : Bad rel kb st nt ex) : Q ⊢ₕ Token rel kb st nt ex 0 ∗ Q :=
  Made_fail_sep h (entails_refl _)

/-- The state after the innermost condition. -/
def Attempted (rel : Prop) (te dk tbh hash result : Ptr) (kb st nt ex : List UInt8) (P : HProp) (x : Bool × Ptr × Ptr) : HProp :=
  ∃∃ (lost : HProp) (c : Content) (t : List UInt8) (b u : Option Strings.Text),
    ((x.1 = false ∧ kb ≠ [] ∧ lost = emp ∧ t = tokenOf (sigX kb st ex) st nt ex) ∨ (x.1 = true ∧ LostS rel 0 lost ∧ Bad rel kb st nt ex)) ⋏
    (Str result t ∗ OStr x.2.1 b ∗ OStr x.2.2 u ∗ Str tbh (st ++ ascii "\n" ++ ex) ∗ Buf hash c ∗ Buf dk (exactly kb) ∗ P ∗ CStr (.heap te 0) ex ∗ lost)

theorem sig_len {sig st nt ex : List UInt8} : sig.length ≤ (tokenOf sig st nt ex).length := by
  unfold tokenOf; simp only [List.length_append]; omega

theorem attempt_spec {l : Locals} (ht : Sized l.tctx) (hs : Sized l.ctx.shaContext) {te dk tbh hash result scope keyName : Ptr}
    {kb st nt ex : List UInt8} {P R1 R2 : HProp} (h1 : P = (Str scope st ∗ R1)) (h2 : P = (Str keyName nt ∗ R2)) :
    Triple rel (Str result [] ∗ Str tbh (st ++ ascii "\n" ++ ex) ∗ Buf hash none ∗ Buf dk (exactly kb) ∗ P ∗ CStr (.heap te 0) ex)
      (attempt l te dk tbh hash result scope keyName) (Attempted rel te dk tbh hash result kb st nt ex P) := by
  unfold attempt
  have hm : st ++ ascii "\n" ++ ex ≠ [] := by simp [ascii]
  step (computeHash_spec ht hs (dk := dk) (tbh := tbh) (hash := hash) (kb := kb) hm) into r
  intro c hc
  rcases hc with ⟨rfl, hk, rfl⟩ | ⟨hne, hbad⟩
  · rw [if_neg (by simp)]
    have hlen : (rfc2104 Fips.SHA256 (effKey kb) (effText (st ++ ascii "\n" ++ ex))).length = 32 := (USHA_sizes .sha256).2.2.2 _
    generalize hM : rfc2104 Fips.SHA256 (effKey kb) (effText (st ++ ascii "\n" ++ ex)) = M at hlen
    have hsig : sigX kb st ex = encode (rfc4648 M) := by rw [← hM]; rfl
    have he := Base64_Encode_spec (rel := rel) (input := hash) (a := some (some (bytesV M)))
      (bs := M) (by rintro _ ⟨⟩; rfl)
    rw [OBuf_some] at he
    step he into b
    by_cases hb : b = 0
    · subst hb
      rw [if_pos rfl, Made_zero]
      hoist; intro hbad
      refine Triple.pure ?_
      refine entails_ex_r emp (entails_ex_r (some (bytesV M)) (entails_ex_r [] (entails_ex_r none (entails_ex_r none (entails_pand_r ?_ (Or.inr ⟨rfl, Or.inl rfl, Or.inl ?_⟩))))))
      · dsimp only
        rw [show OStr 0 none = emp from ORep_null]
        sep_cancel
      · rcases hbad with h | h | h
        · simp at h
        · exact h
        · rw [rfc4648_length, hlen] at h; simp [maxObj] at h
    · rw [if_neg hb, Made_ne hb]
      hoist; rintro t - rfl
      refine Triple.know (know_Str (h := b) (by pick)) fun hst => ?_
      have hu := URL_Encode_spec (rel := rel) (input := b) (o := some (rfc4648 M))
      rw [OStr_some] at hu
      step hu into u
      intro lost hlost
      by_cases hu0 : u = 0
      · subst hu0
        rw [if_pos rfl, Encoded, if_pos rfl]
        hoist; intro hbad
        refine Triple.pure ?_
        refine entails_ex_r lost (entails_ex_r (some (bytesV M)) (entails_ex_r [] (entails_ex_r (some (rfc4648 M))
          (entails_ex_r none (entails_pand_r ?_ (Or.inr ⟨rfl, ?_, ?_⟩))))))
        · dsimp only
          rw [show OStr 0 none = emp from ORep_null, OStr_some]
          sep_cancel
        · rcases hlost with h | ⟨h1, h2, t, p, _, h3⟩
          · exact Or.inl h
          · exact Or.inr ⟨h1, rfl, p, _, h3⟩
        · rcases hbad with h | h | ⟨t, ht, h⟩
          · simp at h
          · exact Or.inl h
          · cases ht
            have := sig_len (sig := sigX kb st ex) (st := st) (nt := nt) (ex := ex)
            rw [hsig] at this
            exact Or.inr (Or.inr (by rw [hsig]; omega))
      · rw [if_neg hu0]
        have hl : lost = emp := by
          rcases hlost with h | ⟨h1, h2, _⟩
          · exact h
          · exact (hu0 h2).elim
        subst hl
        refine Triple.pre (P' := Str result [] ∗ Str b (rfc4648 M) ∗ Str u (sigX kb st ex) ∗
          Str tbh (st ++ ascii "\n" ++ ex) ∗ Buf hash (some (bytesV M)) ∗ Buf dk (exactly kb) ∗ P ∗ CStr (.heap te 0) ex) ?_ ?_
        · have hbr := buildResult_spec (rel := rel) (h := result) (te := te) (g := u) (sg := sigX kb st ex) (ex := ex) h1 h2 (D := emp)
          unfold Builds at hbr
          step hbr into bad
          cases bad with
          | true =>
            simp only [if_true]
            hoist; intro hb t'
            refine Triple.pure ?_
            refine entails_ex_r emp (entails_ex_r (some (bytesV M)) (entails_ex_r t' (entails_ex_r (some (rfc4648 M))
              (entails_ex_r (some (sigX kb st ex)) (entails_pand_r ?_ (Or.inr ⟨rfl, Or.inl rfl, ?_⟩))))))
            · dsimp only
              rw [OStr_some, OStr_some]
              sep_cancel
            · rcases hb with h | h
              · exact Or.inl h
              · right; right; simp only [List.length_nil, Nat.zero_add] at h; exact h
          | false =>
            simp only [Bool.false_eq_true, if_false]
            refine Triple.pure ?_
            refine entails_ex_r emp (entails_ex_r (some (bytesV M)) (entails_ex_r (tokenOf (sigX kb st ex) st nt ex) (entails_ex_r (some (rfc4648 M))
              (entails_ex_r (some (sigX kb st ex)) (entails_pand_r ?_ (Or.inl ⟨rfl, hk, rfl, rfl⟩))))))
            dsimp only
            rw [OStr_some, OStr_some, List.nil_append]
            simp only [sep_assoc]
            unfold tokenOf
            sep_cancel
        · have hes : Encoded rel (some (rfc4648 M)) u ⊢ₕ Str u (sigX kb st ex) :=
            by rw [hsig]; exact Encoded_Str hst.2.1 hu0
          refine fun h hh => ?_
          have : (Encoded rel (some (rfc4648 M)) u ∗
            (Str result [] ∗ Str b (rfc4648 M) ∗
          Str tbh (st ++ ascii "\n" ++ ex) ∗ Buf hash (some (bytesV M)) ∗ Buf dk (exactly kb) ∗ P ∗ CStr (.heap te 0) ex)) h := by
            refine (?_ : _ ⊢ₕ _) h hh
            sep_cancel
          have := sep_mono hes (entails_refl _) h this
          refine (?_ : _ ⊢ₕ _) h this
          sep_cancel
  · rw [if_pos hne]
    refine Triple.pure ?_
    refine entails_ex_r emp (entails_ex_r c (entails_ex_r [] (entails_ex_r none (entails_ex_r none (entails_pand_r ?_ (Or.inr ⟨rfl, Or.inl rfl, ?_⟩))))))
    · dsimp only
      rw [show OStr 0 none = emp from ORep_null]
      sep_cancel
    · rcases hbad with h | h
      · exact Or.inl h
      · exact Or.inr (Or.inl h)

/-- What every block of the function leaves: the token or NULL, and what may have been lost. -/
def Done (rel : Prop) (kb st nt ex : List UInt8) (rest : HProp) (r : Ptr) : HProp :=
  ∃∃ lost : HProp, (LostS rel r lost) ⋏ (Token rel kb st nt ex r ∗ rest ∗ lost)

theorem sign_spec {l : Locals} (ht : Sized l.tctx) (hs : Sized l.ctx.shaContext) {te dk tbh hash result scope keyName : Ptr}
    {kb st nt ex : List UInt8} {P R1 R2 : HProp} (h1 : P = (Str scope st ∗ R1)) (h2 : P = (Str keyName nt ∗ R2)) :
    Triple rel (Str result [] ∗ Str tbh (st ++ ascii "\n" ++ ex) ∗ Buf hash none ∗ Buf dk (exactly kb) ∗ P ∗ CStr (.heap te 0) ex)
      (sign l te dk tbh hash result scope keyName)
      (fun r => ∃∃ c : Content, Done rel kb st nt ex (Str tbh (st ++ ascii "\n" ++ ex) ∗ Buf hash c ∗ Buf dk (exactly kb) ∗ P ∗ CStr (.heap te 0) ex) r) := by
  unfold sign
  refine Triple.bind' (attempt_spec ht hs h1 h2) fun x => ?_
  unfold Attempted
  hoist; intro lost c t b u hx
  refine Triple.know (know_Str (h := result) (by pick)) fun hr0 => ?_
  obtain ⟨bad, bp, up⟩ := x
  dsimp only at hx ⊢
  cases bad with
  | true =>
    rw [if_pos rfl]
    rcases hx with ⟨h, -⟩ | ⟨-, hlost, hbad⟩
    · simp at h
    have hd := STRING_delete_spec (rel := rel) (h := result) (a := some t)
    rw [OStr_some] at hd
    simp only [pure_bind]
    step hd
    step (STRING_delete_spec (h := bp) (a := b))
    step (STRING_delete_spec (h := up) (a := u))
    refine Triple.pure (entails_ex_r c (entails_ex_r lost (entails_pand_r ?_ hlost)))
    refine Made_fail_sep hbad ?_
    simp only [sep_assoc]
    sep_cancel
  | false =>
    rw [if_neg (by simp)]
    obtain ⟨-, hk, rfl, rfl⟩ := hx.resolve_right (by simp)
    simp only [pure_bind]
    step (STRING_delete_spec (h := bp) (a := b))
    step (STRING_delete_spec (h := up) (a := u))
    refine Triple.pure (entails_ex_r c (entails_ex_r emp (entails_pand_r ?_ (Or.inl rfl))))
    refine Made_ok_sep _ hr0.1 ⟨hk, rfl⟩ ?_
    simp only [sep_assoc]
    sep_cancel

/-- The state after the three allocations. -/
def Prepared (rel : Prop) (x : Bool × Ptr × Ptr × Ptr) : HProp :=
  if x.1 then (¬ rel ∧ x.2.2.2 = 0) ⋏ ∃∃ (h : Option Content) (t : Option Strings.Text), OBuf x.2.1 h ∗ OStr x.2.2.1 t
  else Buf x.2.1 none ∗ Str x.2.2.1 [] ∗ Str x.2.2.2 []

theorem prepare_spec : Triple rel emp prepare (Prepared rel) := by
  unfold prepare
  step BUFFER_new_spec into h
  by_cases hh : h = 0
  · subst hh
    rw [if_pos rfl, if_pos rfl]
    hoist; intro hr
    refine Triple.pure ?_
    unfold Prepared
    rw [if_pos rfl]
    refine entails_pand_r (entails_ex_r none (entails_ex_r none ?_)) ⟨hr, rfl⟩
    dsimp only
    rw [show OStr 0 none = emp from ORep_null, OBuf_null]
    sep_cancel
  rw [if_neg hh, if_neg hh]
  step STRING_new_spec into t
  by_cases ht : t = 0
  · subst ht
    rw [if_pos rfl, Made_zero]
    hoist; intro hr
    refine Triple.pure ?_
    unfold Prepared
    rw [if_pos rfl]
    refine entails_pand_r (entails_ex_r (some none) (entails_ex_r none ?_)) ⟨hr, rfl⟩
    dsimp only
    rw [show OStr 0 none = emp from ORep_null, OBuf_some]
    sep_cancel
  rw [if_neg ht, Made_ne ht]
  hoist; rintro _ rfl
  step STRING_new_spec into r
  by_cases hr0 : r = 0
  · subst hr0
    rw [if_pos rfl, Made_zero]
    hoist; intro hr
    refine Triple.pure ?_
    unfold Prepared
    rw [if_pos rfl]
    refine entails_pand_r (entails_ex_r (some none) (entails_ex_r (some []) ?_)) ⟨hr, rfl⟩
    dsimp only
    rw [OStr_some, OBuf_some]
    sep_cancel
  rw [if_neg hr0, Made_ne hr0]
  hoist; rintro _ rfl
  refine Triple.pure ?_
  unfold Prepared
  rw [if_neg (by simp)]
  dsimp only
  sep_cancel

theorem create_spec {l : Locals} (ht : Sized l.tctx) (hs : Sized l.ctx.shaContext) {te dk scope keyName : Ptr}
    {kb st nt ex : List UInt8} {P R1 R2 : HProp} (h1 : P = (Str scope st ∗ R1)) (h2 : P = (Str keyName nt ∗ R2)) :
    Triple rel (Buf dk (exactly kb) ∗ P ∗ CStr (.heap te 0) ex) (create l te dk scope keyName)
      (Done rel kb st nt ex (Buf dk (exactly kb) ∗ P ∗ CStr (.heap te 0) ex)) := by
  unfold create
  step prepare_spec into x
  obtain ⟨bad, hash, tbh, result⟩ := x
  dsimp only
  unfold Prepared
  cases bad with
  | true =>
    rw [if_pos rfl, if_pos rfl]
    dsimp only
    hoist; intro hr hres h t
    subst hres
    rw [pure_bind]
    step (STRING_delete_spec (h := tbh) (a := t))
    step (BUFFER_delete_spec (h := hash) (a := h))
    refine Triple.pure (entails_ex_r emp (entails_pand_r (Made_fail_sep (Or.inl hr) ?_) (Or.inl rfl)))
    sep_cancel
  | false =>
    rw [if_neg (by simp), if_neg (by simp)]
    dsimp only
    rw [sep_assoc, sep_assoc]
    have hb := buildToBeHashed_spec (rel := rel) (h := tbh) (te := te) (ex := ex) h1
    unfold Builds at hb
    step hb into bad
    cases bad with
    | true =>
      rw [if_pos rfl, if_pos rfl]
      hoist; intro hbad t'
      simp only [pure_bind]
      have hd := STRING_delete_spec (rel := rel) (h := result) (a := some [])
      rw [OStr_some] at hd
      step hd
      have hd := STRING_delete_spec (rel := rel) (h := tbh) (a := some t')
      rw [OStr_some] at hd
      step hd
      have hd := BUFFER_delete_spec (rel := rel) (h := hash) (a := some none)
      rw [OBuf_some] at hd
      step hd
      refine Triple.pure (entails_ex_r emp (entails_pand_r (Made_fail_sep ?_ ?_) (Or.inl rfl)))
      · rcases hbad with h | h
        · exact Or.inl h
        · right; right
          unfold tokenOf
          simp only [List.length_append, List.length_nil] at *
          have e : (ascii "\n").length = 1 := rfl
          have e2 : (ascii "&se=").length = 4 := rfl
          omega
      · sep_cancel
    | false =>
      rw [if_neg (by simp), if_neg (by simp), List.nil_append]
      refine Triple.bind' (P := (Str tbh (st ++ ascii "\n" ++ ex) ∗ P ∗ CStr (.heap te 0) ex) ∗ Buf hash none ∗ Str result [] ∗ Buf dk (exactly kb))
        ((sign_spec (kb := kb) (ex := ex) ht hs h1 h2).pre ?_) fun r => ?_
      · simp only [sep_assoc]
        sep_cancel
      unfold Done
      hoist; intro c lost hlost
      have hd := STRING_delete_spec (rel := rel) (h := tbh) (a := some (st ++ ascii "\n" ++ ex))
      rw [OStr_some] at hd
      simp only [sep_assoc]
      step hd
      have hd := BUFFER_delete_spec (rel := rel) (h := hash) (a := some c)
      rw [OBuf_some] at hd
      step hd
      refine Triple.pure (entails_ex_r lost (entails_pand_r ?_ hlost))
      sep_cancel

theorem decode_key {key : Ptr} {kt kb : List UInt8} (hd : Decodes kt kb) {P R : HProp} (h : P = (Str key kt ∗ R)) {F : HProp} {c : Ptr → M Ptr}
    {Q : Ptr → HProp} (hc : ∀ r, Triple rel (Made Buf (¬ rel) (fun c => c = exactly kb) r ∗ P ∗ F) (c r) Q) :
    Triple rel (P ∗ F) (STRING_c_str key >>= fun k => Base64_Decoder (.ofPtr k) >>= c) Q := by
  rw [h, ← OStr_some, sep_assoc]
  step (STRING_c_str_spec (h := key) (a := some kt)) into p
  simp only [StrAt, sep_assoc]
  refine Triple.know (know_heap0 (p := p) (by pick)) fun hp => ?_
  rw [ofPtr_ne hp]
  step (Base64_Decoder_wellformed (s := .heap p 0) hd) into r
  refine (hc r).pre ?_
  rw [h, Str]
  simp only [hex_sep, sep_hex]
  refine entails_ex_r p ?_
  simp only [sep_assoc]
  sep_cancel

/-- Access to a string handle (`none`: NULL) through an assertion about all of the caller's memory; the handles may be equal. -/
def Access (P : HProp) (h : Ptr) (a : Option (List UInt8)) : Prop := ∃ R, P = (OStr h a ∗ R)

/-- What a call leaves: NULL for a reason, or a new string with the token; the caller's strings are unchanged. -/
def Created (rel : Prop) (k s n : Option (List UInt8)) (expiry : UInt64) (P : HProp) (r : Ptr) : HProp :=
  ∃∃ lost : HProp, (LostS rel r lost) ⋏
    (Made Str (¬ rel ∨ k = none ∨ s = none ∨ n = none ∨ k = some [] ∨
        ∃ kt kb st nt ex, k = some kt ∧ s = some st ∧ n = some nt ∧ Decodes kt kb ∧ IsDecimal expiry.toNat ex ∧
          maxObj < (tokenOf (sigX kb st ex) st nt ex).length + 1)
      (fun t => ∃ kt kb st nt ex, k = some kt ∧ s = some st ∧ n = some nt ∧ kb ≠ [] ∧ Decodes kt kb ∧ IsDecimal expiry.toNat ex ∧
        t = tokenOf (sigX kb st ex) st nt ex) r ∗
    P ∗ lost)

theorem decodes_nil {kt : List UInt8} (h : Decodes kt []) : kt = [] := by
  cases h; rfl

theorem body_spec {l : Locals} (ht : Sized l.tctx) (hs : Sized l.ctx.shaContext) {te key scope keyName : Ptr}
    {k s n : Option (List UInt8)} {expiry : UInt64} {P : HProp} 
    (hk : Access P key k) (hsc : Access P scope s) (hn : Access P keyName n) (hd : ∀ kt, k = some kt → ∃ kb, Decodes kt kb) :
    Triple rel (te ↦ List.replicate 32 (Val.byte 0) ∗ P) (body l te key scope keyName expiry)
      (fun r => Created rel k s n expiry P r ∗ ∃∃ b : Block, te ↦ b) := by
  obtain ⟨R0, h0⟩ := hk
  obtain ⟨R1, h1⟩ := hsc
  obtain ⟨R2, h2⟩ := hn
  unfold body
  have nullcase : (k = none ∨ s = none ∨ n = none) →
      te ↦ List.replicate 32 (Val.byte 0) ∗ P ⊢ₕ Created rel k s n expiry P 0 ∗ ∃∃ b : Block, te ↦ b := by
    intro h
    rw [sep_comm (te ↦ _)]
    refine sep_mono ?_ (entails_ex_r _ (entails_refl _))
    refine entails_ex_r emp (entails_pand_r (Made_fail_sep ?_ (by sep_cancel)) (Or.inl rfl))
    rcases h with h | h | h <;> simp [h]
  have hnull : ∀ {h : Ptr} {a : Option (List UInt8)} {R : HProp}, P = (OStr h a ∗ R) → ∀ hp, (te ↦ List.replicate 32 (Val.byte 0) ∗ P) hp → (h = 0 ↔ a = none) := by
    intro h a R e
    rw [e]
    cases a with
    | none =>
      rw [show OStr h none = ((h = 0) ⋏ emp) from ORep_none]
      intro hp hP
      obtain ⟨_, _, _, rfl, _, _, _, _, rfl, h1, _⟩ := hP
      exact ⟨fun _ => rfl, fun _ => h1.1⟩
    | some t =>
      rw [OStr_some]
      intro hp hP
      have := know_Str (h := h) (by pick) hp hP
      exact ⟨fun e => (this.1 e).elim, fun e => by simp at e⟩
  refine Triple.know (hnull h0) fun e0 => ?_
  refine Triple.know (hnull h1) fun e1 => ?_
  refine Triple.know (hnull h2) fun e2 => ?_
  refine Triple.ite (fun h => ?_) (fun h => ?_)
  · rw [e0, e1, e2] at h
    exact Triple.pure (nullcase h)
  rw [e0, e1, e2] at h
  cases k with
  | none => simp at h
  | some kt =>
  cases s with
  | none => simp at h
  | some st =>
  cases n with
  | none => simp at h
  | some nt =>
  rw [OStr_some] at h0 h1 h2
  obtain ⟨kb, hdec⟩ := hd kt rfl
  rw [sep_comm (te ↦ _)]
  refine decode_key hdec h0 fun dk => ?_
  by_cases hdk : dk = 0
  · subst hdk
    rw [if_pos rfl, Made_zero]
    hoist; intro hr
    refine Triple.pure ?_
    refine sep_mono ?_ (entails_ex_r _ (entails_refl _))
    exact entails_ex_r emp (entails_pand_r (Made_fail_sep (Or.inl hr) (by sep_cancel)) (Or.inl rfl))
  rw [if_neg hdk, Made_ne hdk]
  hoist; rintro _ rfl
  step (size_tToString_spec (dst := te) (b := List.replicate 32 (Val.byte 0)) (size := 32) (value := expiry) (by simp)) into e
  intro b' hw he
  have hdc := decimal_is expiry.toNat
  have hl := decimal_length_64 expiry.toNat (by have := expiry.toNat_lt; omega)
  generalize decimal expiry.toNat = ex at hdc hl
  obtain ⟨-, rfl, hc⟩ := (he _ hdc).resolve_right (by omega)
  rw [if_neg (by simp)]
  refine Triple.pre (P' := Buf dk (exactly kb) ∗ P ∗ CStr (.heap te 0) ex) ?_ ?_
  · refine Triple.bind' (create_spec ht hs h1 h2) fun r => ?_
    unfold Done
    hoist; intro lost hlost
    have hd := BUFFER_delete_spec (rel := rel) (h := dk) (a := some (exactly kb))
    rw [OBuf_some] at hd
    step hd
    refine Triple.pure ?_
    refine entails_trans (Q := Created rel (some kt) (some st) (some nt) expiry P r ∗ CStr (.heap te 0) ex) ?_ (sep_mono (entails_refl _) ?_)
    · unfold Created
      rw [hex_sep]
      refine entails_ex_r lost ?_
      rw [pand_sep]
      refine entails_pand_r ?_ hlost
      have em : Token rel kb st nt ex r ⊢ₕ _ := Made_mono
        (bad' := ¬ rel ∨ some kt = none ∨ some st = none ∨ some nt = none ∨ some kt = some [] ∨
          ∃ kt' kb st' nt' ex, some kt = some kt' ∧ some st = some st' ∧ some nt = some nt' ∧ Decodes kt' kb ∧ IsDecimal expiry.toNat ex ∧
          maxObj < (tokenOf (sigX kb st' ex) st' nt' ex).length + 1)
        (ok' := fun t => ∃ kt' kb st' nt' ex, some kt = some kt' ∧ some st = some st' ∧ some nt = some nt' ∧ kb ≠ [] ∧ Decodes kt' kb ∧
          IsDecimal expiry.toNat ex ∧ t = tokenOf (sigX kb st' ex) st' nt' ex) (fun hbad => by
          rcases hbad with h | h | h
          · exact Or.inl h
          · subst h
            obtain rfl := decodes_nil hdec
            simp
          · exact Or.inr (Or.inr (Or.inr (Or.inr (Or.inr ⟨kt, kb, st, nt, ex, rfl, rfl, rfl, hdec, hdc, h⟩)))))
        (fun t ht => ⟨kt, kb, st, nt, ex, rfl, rfl, rfl, ht.1, hdec, hdc, ht.2⟩)
      refine entails_trans (sep_mono em (entails_refl _)) ?_
      simp only [sep_assoc]
      sep_cancel
    · rw [CStr_heap0]
      exact entails_ex_l fun vs => entails_pand_l fun _ => entails_ex_r vs (entails_refl _)
  · rw [CStr_heap0, sep_hex, sep_hex]
    refine entails_ex_r b' ?_
    rw [sep_pand, sep_pand]
    exact entails_pand_r (by sep_cancel) hc

/-- The exact result for all sizes of the strings and all ways in which the handles may coincide.  The caller's key is a base64 text. -/
theorem SASToken_Create_spec {l : Locals} (ht : Sized l.tctx) (hs : Sized l.ctx.shaContext) {te key scope keyName : Ptr}
    {k s n : Option (List UInt8)} {expiry : UInt64} {P : HProp} {b : Block} (hb : b.length = 32)
    (hk : Access P key k) (hsc : Access P scope s) (hn : Access P keyName n) (hd : ∀ kt, k = some kt → ∃ kb, Decodes kt kb) :
    Triple rel (P ∗ te ↦ b) (SASToken_Create l te key scope keyName expiry) (Created rel k s n expiry P) := by
  unfold SASToken_Create
  step (storeN_spec' (p := te) (b := b) (off := 0) (vs := List.replicate 32 (.byte 0)) (by simp; omega))
  have hz : patch b 0 (List.replicate 32 (Val.byte 0)) = List.replicate 32 (Val.byte 0) := by
    simp [patch, hb]
  rw [hz]
  refine Triple.bind' (body_spec ht hs hk hsc hn hd) fun r => ?_
  hoist; intro b'
  step (free_spec (p := te) (b := b'))
  exact Triple.pure (by sep_cancel)

end Verif.Sas
