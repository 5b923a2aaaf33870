import Verif.Mb.Calls
/-! # Well-formed responses are read as they are (`httpapi_mbed.cpp`); what is read is determined by the bytes of the stream -/
set_option linter.unusedSimpArgs false
set_option linter.unusedVariables false
namespace Verif.Mb
open Verif.Buffer (Content)
open Verif.Sas (text)

/-! ## Determinism -/

theorem SizeIs.det {t : Text} {n m : Nat} (h1 : SizeIs t n) (h2 : SizeIs t m) : n = m := by
  obtain ⟨z, a, _, c⟩ := h1
  obtain ⟨z', a', _, c'⟩ := h2
  rw [a] at a'; cases a'; rw [← c, ← c']

theorem Heads.det {fin : Bool} {len : Nat} {ch : Bool} {s : Text} {ps ps' : List (Text × Text)} {o o' : Option (Nat × Bool)} {r r' : Text}
    (h : Heads fin len ch s ps o r) (h' : Heads fin len ch s ps' o' r') : ps = ps' ∧ o = o' ∧ r = r' := by
  induction h generalizing ps' o' r' with
  | done h1 h2 =>
    cases h' with
    | done g1 g2 => rw [h1] at g1; cases g1; exact ⟨rfl, rfl, rfl⟩
    | bad g1 => rw [h1] at g1; cases g1
    | badLen g1 g2 g3 => rw [h1] at g1; cases g1; exact absurd h2 g2
    | field g1 g2 g3 g4 => rw [h1] at g1; cases g1; exact absurd h2 g2
  | bad h1 =>
    cases h' with
    | done g1 g2 => rw [h1] at g1; cases g1
    | bad g1 => rw [h1] at g1; cases g1; exact ⟨rfl, rfl, rfl⟩
    | badLen g1 g2 g3 => rw [h1] at g1; cases g1
    | field g1 g2 g3 g4 => rw [h1] at g1; cases g1
  | badLen h1 h2 h3 =>
    cases h' with
    | done g1 g2 => rw [h1] at g1; cases g1; exact absurd g2 h2
    | bad g1 => rw [h1] at g1; cases g1
    | badLen g1 g2 g3 => rw [h1] at g1; cases g1; exact ⟨rfl, rfl, rfl⟩
    | field g1 g2 g3 g4 => rw [h1] at g1; cases g1; rw [h3] at g3; cases g3
  | field h1 h2 h3 h4 ih =>
    cases h' with
    | done g1 g2 => rw [h1] at g1; cases g1; exact absurd g2 h2
    | bad g1 => rw [h1] at g1; cases g1
    | badLen g1 g2 g3 => rw [h1] at g1; cases g1; rw [h3] at g3; cases g3
    | field g1 g2 g3 g4 =>
      rw [h1] at g1; cases g1; rw [h3] at g3; cases g3
      obtain ⟨e1, e2, e3⟩ := ih g4
      exact ⟨by rw [e1], e2, e3⟩

theorem split_eq {d d' : Text} {a b a' b' : UInt8} {r r' : Text} (hl : d.length = d'.length) (h : d ++ a :: b :: r = d' ++ a' :: b' :: r') :
    d = d' ∧ a = a' ∧ b = b' ∧ r = r' := by
  obtain ⟨e1, e2⟩ := List.append_inj h hl
  simp only [List.cons.injEq] at e2
  exact ⟨e1, e2.1, e2.2.1, e2.2.2⟩

theorem Chunks.det {fin : Bool} {cap : Nat} {s : Text} {o o' : Body} (h : Chunks fin cap s o) (h' : Chunks fin cap s o') : o = o' := by
  have scan : ∀ {t n}, SizeIs t n → scanHex (cut t) ≠ none := by
    rintro t n ⟨z, h, _⟩; rw [h]; simp
  induction h generalizing o' with
  | bad h1 =>
    cases h' with
    | bad g1 => rw [h1] at g1; cases g1; rfl
    | notHex g1 | last g1 | lastBad g1 | chunk g1 | chunkBad g1 => rw [h1] at g1; cases g1
  | notHex h1 h2 =>
    cases h' with
    | bad g1 => rw [h1] at g1; cases g1
    | notHex g1 => rw [h1] at g1; cases g1; rfl
    | last g1 g2 | lastBad g1 g2 | chunk g1 g2 | chunkBad g1 g2 => rw [h1] at g1; cases g1; exact absurd h2 (scan g2)
  | last h1 h2 =>
    cases h' with
    | bad g1 => rw [h1] at g1; cases g1
    | notHex g1 g2 => rw [h1] at g1; cases g1; exact absurd g2 (scan h2)
    | last g1 g2 => rw [h1] at g1; cases g1; rfl
    | lastBad g1 g2 g3 => rw [h1] at g1; cases g1; exact absurd ⟨rfl, rfl⟩ g3
    | chunk g1 g2 g3 | chunkBad g1 g2 g3 =>
      rw [h1] at g1; injection g1 with e1 e2; subst e1
      exact absurd (List.eq_nil_of_length_eq_zero (g2.det h2)) g3
  | lastBad h1 h2 h3 =>
    cases h' with
    | bad g1 => rw [h1] at g1; cases g1
    | notHex g1 g2 => rw [h1] at g1; cases g1; exact absurd g2 (scan h2)
    | last g1 g2 => rw [h1] at g1; cases g1; exact absurd ⟨rfl, rfl⟩ h3
    | lastBad g1 g2 g3 => rw [h1] at g1; cases g1; rfl
    | chunk g1 g2 g3 | chunkBad g1 g2 g3 =>
      rw [h1] at g1; injection g1 with e1 e2; subst e1
      exact absurd (List.eq_nil_of_length_eq_zero (g2.det h2)) g3
  | chunk h1 h2 h3 h4 h5 h6 ih =>
    cases h' with
    | bad g1 => rw [h1] at g1; cases g1
    | notHex g1 g2 => rw [h1] at g1; cases g1; exact absurd g2 (scan h2)
    | last g1 g2 | lastBad g1 g2 g3 =>
      rw [h1] at g1; injection g1 with e1 e2; subst e1
      exact absurd (List.eq_nil_of_length_eq_zero (h2.det g2)) h3
    | chunk g1 g2 g3 g4 g5 g6 =>
      rw [h1] at g1; injection g1 with e1 e2; subst e1
      obtain ⟨rfl, _, _, rfl⟩ := split_eq (h2.det g2) e2
      rw [ih g6]
    | chunkBad g1 g2 g3 g4 g5 g6 =>
      rw [h1] at g1; injection g1 with e1 e2; subst e1
      obtain ⟨_, rfl, rfl, _⟩ := split_eq (h2.det g2) e2
      exact absurd ⟨rfl, rfl⟩ g6
  | chunkBad h1 h2 h3 h4 h5 h6 =>
    cases h' with
    | bad g1 => rw [h1] at g1; cases g1
    | notHex g1 g2 => rw [h1] at g1; cases g1; exact absurd g2 (scan h2)
    | last g1 g2 | lastBad g1 g2 g3 =>
      rw [h1] at g1; injection g1 with e1 e2; subst e1
      exact absurd (List.eq_nil_of_length_eq_zero (h2.det g2)) h3
    | chunk g1 g2 g3 g4 g5 g6 =>
      rw [h1] at g1; injection g1 with e1 e2; subst e1
      obtain ⟨_, rfl, rfl, _⟩ := split_eq (h2.det g2) e2
      exact absurd ⟨rfl, rfl⟩ h6
    | chunkBad g1 g2 g3 g4 g5 g6 =>
      rw [h1] at g1; injection g1 with e1 e2; subst e1
      obtain ⟨rfl, _, _, rfl⟩ := split_eq (h2.det g2) e2
      rfl

/-- C89: what is made of a response is determined by the bytes of the stream, however they arrive. -/
theorem Says.det {fin : Bool} {c : Option Content} {s : Text} {y y' : Reply} (h : Says fin c s y) (h' : Says fin c s y') : y = y' := by
  cases h with
  | bad h1 =>
    cases h' with
    | bad g1 => rw [h1] at g1; cases g1; rfl
    | notHttp g1 | headBad g1 | plain g1 | chunked g1 => rw [h1] at g1; cases g1
  | notHttp h1 h2 =>
    cases h' with
    | bad g1 => rw [h1] at g1; cases g1
    | notHttp g1 => rw [h1] at g1; cases g1; rfl
    | headBad g1 g2 | plain g1 g2 | chunked g1 g2 => rw [h1] at g1; cases g1; rw [h2] at g2; cases g2
  | headBad h1 h2 h3 h4 =>
    cases h' with
    | bad g1 => rw [h1] at g1; cases g1
    | notHttp g1 g2 => rw [h1] at g1; cases g1; rw [h2] at g2; cases g2
    | headBad g1 g2 g3 g4 =>
      rw [h1] at g1; cases g1; rw [h2] at g2; cases g2
      obtain ⟨rfl, _, rfl⟩ := h4.det g4; rfl
    | plain g1 g2 g3 g4 | chunked g1 g2 g3 g4 =>
      rw [h1] at g1; cases g1
      have := h4.det g4; cases this.2.1
  | plain h1 h2 h3 h4 h5 h6 =>
    cases h' with
    | bad g1 => rw [h1] at g1; cases g1
    | notHttp g1 g2 => rw [h1] at g1; cases g1; rw [h2] at g2; cases g2
    | headBad g1 g2 g3 g4 =>
      rw [h1] at g1; cases g1
      have := h4.det g4; cases this.2.1
    | plain g1 g2 g3 g4 =>
      rw [h1] at g1; cases g1; rw [h2] at g2; cases g2
      obtain ⟨rfl, e, e2⟩ := h4.det g4
      simp only [Option.some.injEq, Prod.mk.injEq, and_true] at e
      obtain ⟨rfl, rfl⟩ := List.append_inj e2 e
      rfl
    | chunked g1 g2 g3 g4 =>
      rw [h1] at g1; cases g1
      have := h4.det g4; simp at this
  | chunked h1 h2 h3 h4 h5 =>
    cases h' with
    | bad g1 => rw [h1] at g1; cases g1
    | notHttp g1 g2 => rw [h1] at g1; cases g1; rw [h2] at g2; cases g2
    | headBad g1 g2 g3 g4 =>
      rw [h1] at g1; cases g1
      have := h4.det g4; cases this.2.1
    | plain g1 g2 g3 g4 =>
      rw [h1] at g1; cases g1
      have := h4.det g4; simp at this
    | chunked g1 g2 g3 g4 g5 =>
      rw [h1] at g1; cases g1; rw [h2] at g2; cases g2
      obtain ⟨rfl, e, rfl⟩ := h4.det g4
      rw [h5.det g5]

/-! ## Well-formed responses -/

/-- can be a line -/
def GoodLine (t : Text) : Prop := 13 ∉ t ∧ 0 ∉ t ∧ t.length < 4096
/-- decimal digits -/
def Digits (t : Text) : Prop := t ≠ [] ∧ ∀ c ∈ t, isDigit c = true
/-- hexadecimal digits -/
def HexDigits (t : Text) : Prop := t ≠ [] ∧ ∀ c ∈ t, isHex c = true
/-- optional white space -/
def White (t : Text) : Prop := ∀ c ∈ t, c = 32 ∨ c = 9
/-- an equal name, whatever the case -/
def Named (name : String) (t : Text) : Prop := t.map lower = text name

/-- the status line -/
def statusLine (major minor code reason : Text) : Text := text "HTTP/" ++ major ++ [46] ++ minor ++ [32] ++ code ++ reason
/-- a well-formed status line -/
structure StatusOk (major minor code reason : Text) (z : Nat) : Prop where
  okMajor : Digits major
  okMinor : Digits minor
  okCode : Digits code
  okValue : value 10 code = z
  fits : z < 2 ^ 31
  okReason : reason = [] ∨ ∃ r, reason = 32 :: r
  line : GoodLine (statusLine major minor code reason)

/-- a header line -/
def fieldLine (p : Text × Text) : Text := p.1 ++ 58 :: p.2
/-- header lines -/
def fieldLines (ps : List (Text × Text)) : Text := ps.flatMap fun p => fieldLine p ++ crlf
/-- a header that says nothing of the body -/
structure Other (p : Text × Text) : Prop where
  colon : 58 ∉ p.1
  length : ¬ Named "content-length" p.1
  encoding : ¬ Named "transfer-encoding" p.1
  line : GoodLine (fieldLine p)

/-- the header that gives the length of the body -/
structure LengthIs (p : Text × Text) (n : Nat) : Prop where
  name : Named "content-length" p.1
  value : ∃ u d v, p.2 = u ++ d ++ v ∧ White u ∧ Digits d ∧ White v ∧ value 10 d = n
  line : GoodLine (fieldLine p)

/-- the header that says that the body comes in chunks -/
structure IsChunked (p : Text × Text) : Prop where
  name : Named "transfer-encoding" p.1
  value : ∃ u w, p.2 = u ++ w ∧ White u ∧ Named "chunked" w
  line : GoodLine (fieldLine p)

/-- a chunk: the digits of its size, an extension, the bytes -/
structure Chunk where
  size : Text
  ext : Text
  data : Text
/-- the first line of a chunk is well formed -/
structure ChunkOk (k : Chunk) : Prop where
  digits : HexDigits k.size
  value : value 16 k.size = k.data.length
  ext : k.ext = [] ∨ ∃ r, k.ext = 59 :: r
  line : GoodLine (k.size ++ k.ext)
  fits : k.data.length < 2 ^ 31
/-- chunks -/
def chunkText (ks : List Chunk) : Text := ks.flatMap fun k => k.size ++ k.ext ++ crlf ++ k.data ++ crlf

theorem all_bytes {p : UInt8 → Bool} (h : (List.range 256).all (fun n => p (UInt8.ofNat n)) = true) (c : UInt8) : p c = true := by
  have := List.all_eq_true.1 h c.toNat (List.mem_range.2 c.toNat_lt)
  simpa using this

theorem line_good {fin : Bool} {t rest : Text} (h : GoodLine t) : line fin (t ++ crlf ++ rest) = .got t rest := by
  obtain ⟨h1, _, h3⟩ := h
  have e1 : (t ++ crlf ++ rest).takeWhile (· ≠ 13) = t := by
    rw [List.append_assoc, List.takeWhile_append_of_pos (by intro x hx; simp; rintro rfl; exact h1 hx)]
    simp [crlf]
  have e2 : (t ++ crlf ++ rest).dropWhile (· ≠ 13) = crlf ++ rest := by
    rw [List.append_assoc, List.dropWhile_append_of_pos (by intro x hx; simp; rintro rfl; exact h1 hx)]
    simp [crlf]
  unfold line lineN
  rw [e1, e2, if_neg (by omega)]
  rfl

theorem cut_good {t : Text} (h : GoodLine t) : cut t = t := by
  unfold cut
  have := List.takeWhile_append_of_pos (p := fun x : UInt8 => decide (x ≠ 0)) (l₁ := t) (l₂ := []) (by intro x hx; simp; rintro rfl; exact h.2.1 hx)
  simpa using this

theorem field_line {p : Text × Text} (h : 58 ∉ p.1) : field (fieldLine p) = [p] := by
  unfold field fieldLine
  have e1 : (p.1 ++ 58 :: p.2).takeWhile (· ≠ 58) = p.1 := by
    rw [List.takeWhile_append_of_pos (by intro x hx; simp; rintro rfl; exact h hx)]; simp
  have e2 : (p.1 ++ 58 :: p.2).dropWhile (· ≠ 58) = 58 :: p.2 := by
    rw [List.dropWhile_append_of_pos (by intro x hx; simp; rintro rfl; exact h hx)]; simp
  rw [if_pos (by simp), e1, e2]; simp

theorem lower_colon {c : UInt8} : lower c = 58 ↔ c = 58 := by
  unfold lower
  split
  · rename_i h
    constructor
    · intro e
      have h1 := UInt8.le_iff_toNat_le.1 h.1
      have h2 := UInt8.le_iff_toNat_le.1 h.2
      have := congrArg UInt8.toNat e
      rw [UInt8.toNat_add] at this
      simp at this h1 h2
      omega
    · rintro rfl; revert h; decide
  · exact Iff.rfl

theorem startsCI_name {name : Text} {p : Text × Text} (hp : 58 ∉ p.1) (hn : 58 ∉ name) : startsCI (name ++ [58]) (fieldLine p) = true ↔ p.1.map lower = name := by
  unfold startsCI fieldLine
  rw [beq_iff_eq]
  constructor
  · intro h
    have h' : (((p.1 ++ 58 :: p.2).map lower)).take (name ++ [58]).length = name ++ [58] := by rw [← List.map_take]; exact h
    rw [List.map_append, List.map_cons, show lower 58 = 58 from rfl] at h'
    have hp' : (58 : UInt8) ∉ p.1.map lower := by
      intro hm
      obtain ⟨c, hc, e⟩ := List.mem_map.1 hm
      rw [lower_colon.1 e] at hc; exact hp hc
    generalize p.1.map lower = m at h' hp'
    obtain ⟨rest, hr⟩ : ∃ rest, m ++ 58 :: p.2.map lower = name ++ [58] ++ rest :=
      ⟨_, by rw [← h']; exact (List.take_append_drop _ _).symm.trans (by rw [h'])⟩
    rw [List.append_assoc] at hr
    have t1 : (m ++ 58 :: p.2.map lower).takeWhile (· ≠ 58) = m := by
      rw [List.takeWhile_append_of_pos (by intro x hx; simp; rintro rfl; exact hp' hx)]; simp
    have t2 : (name ++ ([58] ++ rest)).takeWhile (· ≠ 58) = name := by
      rw [List.takeWhile_append_of_pos (by intro x hx; simp; rintro rfl; exact hn hx)]; simp
    rw [← t1, hr, t2]
  · intro h
    have hl : p.1.length = name.length := by rw [← h]; simp
    rw [List.length_append, ← hl, List.take_append, List.take_of_length_le (by simp), List.map_append, h]
    simp
    decide

theorem not_mem_lower {name : Text} {t : Text} (h : t.map lower = name) (hn : 58 ∉ name) : 58 ∉ t := by
  intro hm; apply hn; rw [← h]; exact List.mem_map.2 ⟨58, hm, rfl⟩

theorem heads_other {fin : Bool} {len : Nat} {ch : Bool} {s : Text} {ps ps' : List (Text × Text)} {o : Option (Nat × Bool)} {rest : Text}
    (hp : ∀ p ∈ ps, Other p) (h : Heads fin len ch s ps' o rest) : Heads fin len ch (fieldLines ps ++ s) (ps ++ ps') o rest := by
  induction ps with
  | nil => exact h
  | cons p ps ih =>
    have h0 := hp p (by simp)
    have hl := h0.line
    have e : fieldLines (p :: ps) ++ s = fieldLine p ++ crlf ++ (fieldLines ps ++ s) := by unfold fieldLines; simp
    rw [e, show (p :: ps ++ ps' : List (Text × Text)) = [p] ++ (ps ++ ps') from rfl, ← field_line h0.colon]
    have hc := cut_good hl
    have := Heads.field (fin := fin) (len := len) (chunked := ch) (line_good (fin := fin) (rest := fieldLines ps ++ s) hl) (by rw [hc]; unfold fieldLine; simp)
      (len' := len) (chunked' := ch) (by
        rw [hc]; unfold framing
        rw [if_neg (by rw [show text "content-length:" = text "content-length" ++ [58] from by decide, startsCI_name h0.colon (by decide)]; exact h0.length),
          if_neg (by rw [show text "transfer-encoding:" = text "transfer-encoding" ++ [58] from by decide, startsCI_name h0.colon (by decide)]; exact h0.encoding)])
      (ih fun q hq => hp q (by simp [hq]))
    rwa [hc] at this

theorem dropWhile_white {u s : Text} (hu : White u) (hs : ∀ c s', s = c :: s' → isspace c = false) : (u ++ s).dropWhile isspace = s := by
  rw [List.dropWhile_append_of_pos (by intro x hx; rcases hu x hx with rfl | rfl <;> decide)]
  cases s with
  | nil => rfl
  | cons c s' => rw [List.dropWhile_cons_of_neg (by rw [hs c s' rfl]; decide)]

theorem digit_not {c : UInt8} (h : isDigit c = true) : isspace c = false ∧ c ≠ 45 ∧ c ≠ 43 := by
  have := all_bytes (p := fun c => decide (isDigit c = true → isspace c = false ∧ c ≠ 45 ∧ c ≠ 43)) (by decide +kernel) c
  exact of_decide_eq_true this h

theorem scanInt_digits {u d v : Text} (hu : White u) (hd : Digits d) (hv : ∀ c s', v = c :: s' → isDigit c = false) : scanInt (u ++ d ++ v) = some ((value 10 d : Int), v) := by
  obtain ⟨c, d', rfl⟩ := List.exists_cons_of_ne_nil hd.1
  have hc := digit_not (hd.2 c (by simp))
  unfold scanInt
  rw [List.append_assoc, dropWhile_white hu (by intro a b e; simp at e; rw [← e.1]; exact hc.1)]
  have hsg : sign (c :: d' ++ v) = (false, c :: d' ++ v) := by
    unfold sign
    split
    · rename_i s h; simp at h; exact absurd h.1 hc.2.1
    · rename_i s h; simp at h; exact absurd h.1 hc.2.2
    · rfl
  rw [hsg]
  dsimp only
  have e1 : (c :: d' ++ v).takeWhile isDigit = c :: d' := by
    rw [List.takeWhile_append_of_pos hd.2]
    cases v with
    | nil => simp
    | cons a v => rw [List.takeWhile_cons_of_neg (by rw [hv a v rfl]; decide)]; simp
  have e2 : (c :: d' ++ v).dropWhile isDigit = v := by
    rw [List.dropWhile_append_of_pos hd.2]
    cases v with
    | nil => simp
    | cons a v => rw [List.dropWhile_cons_of_neg (by rw [hv a v rfl]; decide)]
  rw [e1, e2]; simp

theorem white_not_digit {v : Text} (h : White v) : ∀ c s', v = c :: s' → isDigit c = false := by
  rintro c s' rfl
  rcases h c (by simp) with rfl | rfl <;> decide

theorem heads_length {fin : Bool} {len n : Nat} {ch : Bool} {s : Text} {p : Text × Text} {ps' : List (Text × Text)} {o : Option (Nat × Bool)} {rest : Text}
    (hp : LengthIs p n) (hn : n < 2 ^ 31) (h : Heads fin n ch s ps' o rest) : Heads fin len ch (fieldLine p ++ crlf ++ s) (p :: ps') o rest := by
  have hcol := not_mem_lower hp.name (by decide)
  have hc := cut_good hp.line
  have := Heads.field (fin := fin) (len := len) (chunked := ch) (line_good (fin := fin) (rest := s) hp.line) (by rw [hc]; unfold fieldLine; simp)
    (len' := n) (chunked' := ch) (by
      rw [hc]; unfold framing
      rw [if_pos (by rw [show text "content-length:" = text "content-length" ++ [58] from by decide, startsCI_name hcol (by decide)]; exact hp.name)]
      have hl : p.1.length = 14 := by have := congrArg List.length hp.name; rw [List.length_map] at this; rw [this]; decide
      obtain ⟨u, d, v, e, h1, h2, h3, h4⟩ := hp.value
      have ed : (fieldLine p).drop 15 = u ++ d ++ v := by
        unfold fieldLine; rw [show (15 : Nat) = p.1.length + 1 by omega, List.drop_append]; simp [e]
      rw [ed, scanInt_digits h1 h2 (white_not_digit h3), h4]
      dsimp only
      rw [if_pos (by unfold fitsInt; omega)]
      congr 1
      omega) h
  rw [hc, field_line hcol] at this
  exact this

theorem lower_space {c : UInt8} (h : isspace c = true) : lower c = c := by
  have := all_bytes (p := fun c => decide (isspace c = true → lower c = c)) (by decide +kernel) c
  exact of_decide_eq_true this h

theorem heads_chunked {fin : Bool} {len : Nat} {ch : Bool} {s : Text} {p : Text × Text} {ps' : List (Text × Text)} {o : Option (Nat × Bool)} {rest : Text}
    (hp : IsChunked p) (h : Heads fin len true s ps' o rest) : Heads fin len ch (fieldLine p ++ crlf ++ s) (p :: ps') o rest := by
  have hcol := not_mem_lower hp.name (by decide)
  have hc := cut_good hp.line
  have := Heads.field (fin := fin) (len := len) (chunked := ch) (line_good (fin := fin) (rest := s) hp.line) (by rw [hc]; unfold fieldLine; simp)
    (len' := len) (chunked' := true) (by
      rw [hc]; unfold framing
      rw [if_neg (by
        rw [show text "content-length:" = text "content-length" ++ [58] from by decide, startsCI_name hcol (by decide)]
        intro e; have := hp.name; unfold Named at this; rw [e] at this; revert this; decide),
        if_pos (by rw [show text "transfer-encoding:" = text "transfer-encoding" ++ [58] from by decide, startsCI_name hcol (by decide)]; exact hp.name)]
      have hl : p.1.length = 17 := by have := congrArg List.length hp.name; rw [List.length_map] at this; rw [this]; decide
      obtain ⟨u, w, e, h1, h2⟩ := hp.value
      have ed : (fieldLine p).drop 18 = u ++ w := by
        unfold fieldLine; rw [show (18 : Nat) = p.1.length + 1 by omega, List.drop_append]; simp [e]
      unfold Named at h2
      rw [ed, dropWhile_white h1, if_pos h2]
      rintro c s' rfl
      rw [List.map_cons] at h2
      have hc99 : lower c = 99 := by
        have := congrArg List.head? h2; simpa [text] using this
      cases hs : isspace c with
      | false => rfl
      | true =>
        have := lower_space hs
        rw [hc99] at this; subst this; revert hs; decide) h
  rw [hc, field_line hcol] at this
  exact this

theorem heads_end {fin : Bool} {len : Nat} {ch : Bool} {rest : Text} : Heads fin len ch (crlf ++ rest) [] (some (len, ch)) rest :=
  .done (t := []) (line_good (t := []) (fin := fin) ⟨by simp, by simp, by simp⟩) rfl

theorem scan_status {major minor code reason : Text} {z : Nat} (h : StatusOk major minor code reason z) : scanStatus (statusLine major minor code reason) = some (z : Int) := by
  unfold scanStatus statusLine
  have e5 : text "HTTP/" ++ major ++ [46] ++ minor ++ [32] ++ code ++ reason = text "HTTP/" ++ ([] ++ major ++ (46 :: ([] ++ minor ++ ([32] ++ code ++ reason)))) := by simp
  rw [e5, show (5 : Nat) = (text "HTTP/").length from by decide, List.take_left' rfl, List.drop_left' rfl, if_neg (by simp),
    scanInt_digits (by intro c hc; simp at hc) h.okMajor (by rintro c s' e; simp at e; rw [← e.1]; decide)]
  simp only
  rw [scanInt_digits (by intro c hc; simp at hc) h.okMinor (by rintro c s' e; simp at e; rw [← e.1]; decide)]
  dsimp only
  rw [scanInt_digits (by intro c hc; simp at hc; exact .inl hc) h.okCode (by
    rintro c s' e
    rcases h.okReason with hr | ⟨r, hr⟩
    · rw [hr] at e; cases e
    · rw [hr] at e; simp at e; rw [← e.1]; decide)]
  simp [h.okValue]

/-- C89: a well-formed response with a `Content-Length` is read as it is: the status, all headers, the body; what follows is left in the stream. -/
theorem plain_read {fin : Bool} {c : Option Content} {major minor code reason : Text} {z : Nat} {hs1 hs2 : List (Text × Text)} {p : Text × Text} {d rest : Text}
    (hz : StatusOk major minor code reason z) (h1 : ∀ q ∈ hs1, Other q) (h2 : ∀ q ∈ hs2, Other q) (hp : LengthIs p d.length) (hd : d.length < 2 ^ 31)
    (hc : c = none ∨ c = some none) :
    Says fin c (statusLine major minor code reason ++ crlf ++ fieldLines (hs1 ++ p :: hs2) ++ crlf ++ d ++ rest)
      ⟨some z, hs1 ++ p :: hs2, ⟨d, .ok, false, rest⟩⟩ := by
  have e : statusLine major minor code reason ++ crlf ++ fieldLines (hs1 ++ p :: hs2) ++ crlf ++ d ++ rest =
    statusLine major minor code reason ++ crlf ++ (fieldLines hs1 ++ (fieldLine p ++ crlf ++ (fieldLines hs2 ++ (crlf ++ (d ++ rest))))) := by
    unfold fieldLines; simp
  rw [e]
  refine .plain (line_good hz.line) (by rw [cut_good hz.line]; exact scan_status hz) ?_ ?_ hd (.inr hc)
  · have := hz.fits; unfold fitsInt; omega
  · refine heads_other h1 (heads_length hp hd ?_)
    have := heads_other (ps' := []) h2 (heads_end (fin := fin) (len := d.length) (ch := false) (rest := d ++ rest))
    rwa [List.append_nil] at this

/-- C89: a response without `Content-Length` and `Transfer-Encoding`: no body is read -/
theorem bare_read {fin : Bool} {c : Option Content} {major minor code reason : Text} {z : Nat} {hs : List (Text × Text)} {rest : Text}
    (hz : StatusOk major minor code reason z) (h1 : ∀ q ∈ hs, Other q) :
    Says fin c (statusLine major minor code reason ++ crlf ++ fieldLines hs ++ crlf ++ rest) ⟨some z, hs, ⟨[], .ok, false, rest⟩⟩ := by
  have e : statusLine major minor code reason ++ crlf ++ fieldLines hs ++ crlf ++ rest = statusLine major minor code reason ++ crlf ++ (fieldLines hs ++ (crlf ++ rest)) := by simp
  rw [e]
  refine .plain (d := []) (line_good hz.line) (by rw [cut_good hz.line]; exact scan_status hz) ?_ ?_ (by simp) (.inl rfl)
  · have := hz.fits; unfold fitsInt; omega
  · have := heads_other (ps' := []) h1 (heads_end (fin := fin) (len := 0) (ch := false) (rest := rest))
    rwa [List.append_nil] at this

theorem hex_not {c : UInt8} (h : isHex c = true) : isspace c = false ∧ c ≠ 45 ∧ c ≠ 43 ∧ c ≠ 120 ∧ c ≠ 88 := by
  have := all_bytes (p := fun c => decide (isHex c = true → isspace c = false ∧ c ≠ 45 ∧ c ≠ 43 ∧ c ≠ 120 ∧ c ≠ 88)) (by decide +kernel) c
  exact of_decide_eq_true this h

theorem scanHex_digits {d v : Text} (hd : HexDigits d) (hv : v = [] ∨ ∃ r, v = 59 :: r) : scanHex (d ++ v) = some (value 16 d : Int) := by
  obtain ⟨c, d', rfl⟩ := List.exists_cons_of_ne_nil hd.1
  have hc := hex_not (hd.2 c (by simp))
  unfold scanHex
  have e0 : (c :: d' ++ v).dropWhile isspace = c :: d' ++ v := by
    rw [List.cons_append, List.dropWhile_cons_of_neg (by rw [hc.1]; decide)]
  have hsg : sign (c :: d' ++ v) = (false, c :: d' ++ v) := by
    unfold sign
    split
    · rename_i s h; simp at h; exact absurd h.1 hc.2.1
    · rename_i s h; simp at h; exact absurd h.1 hc.2.2.1
    · rfl
  have snd : ∀ {a s}, (c :: d' ++ v) = 48 :: a :: s → a ≠ 120 ∧ a ≠ 88 := by
    intro a s h
    cases d' with
    | nil =>
      rcases hv with rfl | ⟨r, rfl⟩
      · simp at h
      · simp at h; rw [← h.2.1]; decide
    | cons b d' =>
      simp at h; rw [← h.2.1]
      exact (hex_not (hd.2 b (by simp))).2.2.2
  have hpx : hexPrefix (c :: d' ++ v) = c :: d' ++ v := by
    unfold hexPrefix
    split
    · rename_i s h; exact absurd rfl (snd h).1
    · rename_i s h; exact absurd rfl (snd h).2
    · rfl
  have e1 : (c :: d' ++ v).takeWhile isHex = c :: d' := by
    rw [List.takeWhile_append_of_pos hd.2]
    rcases hv with rfl | ⟨r, rfl⟩
    · simp
    · rw [List.takeWhile_cons_of_neg (by decide)]; simp
  rw [e0, hsg]; dsimp only; rw [hpx, e1]; simp

theorem ChunkOk.sizeIs {k : Chunk} (h : ChunkOk k) : SizeIs (k.size ++ k.ext) k.data.length := by
  refine ⟨(Mb.value 16 k.size : Int), ?_, ?_, ?_⟩
  · rw [cut_good h.line]; exact scanHex_digits h.digits h.ext
  · have := h.fits; rw [h.value]; unfold fitsHex; omega
  · have := h.fits; rw [h.value]; omega

theorem chunks_read {fin : Bool} {ks : List Chunk} {last : Chunk} {rest : Text} (hk : ∀ k ∈ ks, ChunkOk k ∧ k.data ≠ []) (hl : ChunkOk last) (h0 : last.data = []) :
    ∀ {cap : Nat}, (ks.flatMap Chunk.data).length ≤ cap →
    Chunks fin cap (chunkText ks ++ (last.size ++ last.ext ++ crlf ++ crlf ++ rest)) ⟨ks.flatMap Chunk.data, .ok, false, rest⟩ := by
  induction ks with
  | nil =>
    intro cap _
    have hs := hl.sizeIs
    rw [h0] at hs
    have := line_good (fin := fin) (rest := crlf ++ rest) hl.line
    rw [← List.append_assoc] at this
    exact .last this hs
  | cons k ks ih =>
    intro cap hcap
    have h1 := hk k (by simp)
    have e : chunkText (k :: ks) ++ (last.size ++ last.ext ++ crlf ++ crlf ++ rest) =
      (k.size ++ k.ext) ++ crlf ++ (k.data ++ 13 :: 10 :: (chunkText ks ++ (last.size ++ last.ext ++ crlf ++ crlf ++ rest))) := by
      unfold chunkText; simp [crlf]
    rw [e]
    rw [List.flatMap_cons, List.length_append] at hcap
    have := Chunks.chunk (fin := fin) (cap := cap) (line_good h1.1.line) h1.1.sizeIs h1.2 h1.1.fits (by omega) (ih (fun q hq => hk q (by simp [hq])) (cap := cap - k.data.length) (by omega))
    simpa using this

/-- C89: a well-formed response in chunks is read as it is. -/
theorem chunked_read {fin : Bool} {c : Option Content} {major minor code reason : Text} {z : Nat} {hs1 hs2 : List (Text × Text)} {p : Text × Text} {ks : List Chunk} {last : Chunk}
    {rest : Text} (hz : StatusOk major minor code reason z) (h1 : ∀ q ∈ hs1, Other q) (h2 : ∀ q ∈ hs2, Other q) (hp : IsChunked p)
    (hk : ∀ k ∈ ks, ChunkOk k ∧ k.data ≠ []) (hl : ChunkOk last) (h0 : last.data = []) (hm : ((c.getD none).getD []).length + (ks.flatMap Chunk.data).length ≤ maxObj) :
    Says fin c (statusLine major minor code reason ++ crlf ++ fieldLines (hs1 ++ p :: hs2) ++ crlf ++ chunkText ks ++ last.size ++ last.ext ++ crlf ++ crlf ++ rest)
      ⟨some z, hs1 ++ p :: hs2, ⟨ks.flatMap Chunk.data, .ok, false, rest⟩⟩ := by
  have e : statusLine major minor code reason ++ crlf ++ fieldLines (hs1 ++ p :: hs2) ++ crlf ++ chunkText ks ++ last.size ++ last.ext ++ crlf ++ crlf ++ rest =
    statusLine major minor code reason ++ crlf ++ (fieldLines hs1 ++ (fieldLine p ++ crlf ++ (fieldLines hs2 ++ (crlf ++ (chunkText ks ++ (last.size ++ last.ext ++ crlf ++ crlf ++ rest)))))) := by
    unfold fieldLines; simp
  rw [e]
  refine .chunked (n := 0) (line_good hz.line) (by rw [cut_good hz.line]; exact scan_status hz) ?_ ?_ (chunks_read hk hl h0 (by omega))
  · have := hz.fits; unfold fitsInt; omega
  · refine heads_other h1 (heads_chunked hp ?_)
    have := heads_other (ps' := []) h2 (heads_end (fin := fin) (len := 0) (ch := true) (rest := chunkText ks ++ (last.size ++ last.ext ++ crlf ++ crlf ++ rest)))
    rwa [List.append_nil] at this

end Verif.Mb
