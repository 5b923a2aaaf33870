import Verif.Schan.Model

/-
What a user of the Schannel TLS IO can tell from the events alone.

Logs have the newest event first.  Nothing here looks at the memory of the module.
-/
namespace Verif.Schan
open Verif.Game

/-- Where a TLS IO stands. -/
inductive Phase where
  /-- never opened, or closed -/
  | idle
  /-- opened by the user; the client hello has not been sent -/
  | opening
  /-- the client hello has been sent -/
  | handshake
  /-- the handshake has finished -/
  | live
  /-- the user has asked to close -/
  | shut
  /-- something has failed -/
  | broken
  deriving DecidableEq, Repr

/-- What the events tell about one TLS IO. -/
structure View where
  phase : Phase := .idle
  /-- the callbacks of the last open that was accepted -/
  cbs : Cbs := ⟨0, 0, 0, 0, 0, 0⟩
  /-- the callback of the last close that was accepted -/
  closeFn : Nat := 0
  closeCtx : Nat := 0
  /-- what was made for it -/
  io : Nat := 0
  host : Nat := 0
  logger : Nat := 0
  cred : Option Nat := none
  sec : Option Nat := none
  /-- the block for received bytes, and its size -/
  buf : Nat := 0
  cap : Nat := 0
  /-- how many bytes are waited for before SSPI is asked again (`none`: not decided) -/
  need : Option Nat := none
  /-- the bytes received from the lower IO that SSPI has not used, as the lower IO delivered them -/
  raw : Bytes := []
  /-- the same bytes, as SSPI has left them in their place -/
  pend : Bytes := []
  /-- the last message SSPI was given to decrypt -/
  given : Bytes := []
  /-- SSPI has said of a message that it decrypted it, and put out no data -/
  spoilt : Bool := false
  /-- bytes the lower IO is delivering, for which there may or may not be memory -/
  chunk : Option Bytes := none
  /-- a delivery of the lower IO is in progress -/
  receiving : Bool := false
  deriving DecidableEq, Repr

/-- The TLS IO a function of the module is about; for create, the one it returns. -/
def Call.handle : Call → Int → Nat
  | .create .., r => r.toNat
  | .destroy h, _ | .open h _, _ | .close h _ _, _ | .send h _ _ _ _, _ | .dowork h, _
  | .setoption h _ _, _ | .uOpen h _, _ | .uClose h, _ | .uError h, _ | .uBytes h _, _ => h

/-- The TLS IO an event is about (0: none). -/
def subject : Event → Nat
  | .enter c => c.handle 0
  | .leave c r => c.handle r
  | .call h _ => h
  | .ret h _ _ _ => h

/-- The bytes of the lower IO have come. -/
def View.absorb (v : View) (bs : Bytes) : View :=
  { v with pend := v.pend ++ bs, raw := v.raw ++ bs, need := v.need.map (· - bs.length),
           chunk := none }

/-- The last `n` of the bytes (none if `n` is negative). -/
def lastN (n : Int) (bs : Bytes) : Bytes := bs.drop (bs.length - n.toNat)

/-- SSPI has not used the last `n` bytes. -/
def View.keep (v : View) (n : Int) : View :=
  { v with pend := lastN n v.pend, raw := lastN n v.raw, need := some 1 }

/-- The receive buffer was resized, or could not be. -/
def View.resized (v : View) (site : Site) (m : Nat) (n : Int) : View :=
  if n = 0 then
    match site with
    | .chunk => { v with chunk := none }
    | _ => { v with phase := .broken }
  else
    let v := { v with buf := n.toNat, cap := m }
    match site with
    | .hello | .hsNext => { v with phase := .handshake }
    | .hsDone => { v with phase := .live }
    | .chunk => v.absorb (v.chunk.getD [])
    | .hsMore | .dataMore | .dataNext => v

/-- How an event about a TLS IO changes what is known of it. -/
def View.next (v : View) : Event → View
  -- a new TLS IO
  | .leave (.create ..) _ => { io := v.io, host := v.host, logger := v.logger }
  -- what it is made of
  | .ret _ (.mallocHost _) n _ => { v with host := n.toNat }
  | .ret _ (.xioCreate _ _ lg) n _ => { v with io := n.toNat, logger := lg }
  -- the user opens
  | .enter (.open _ c) => if v.phase = .idle then { v with phase := .opening, cbs := c } else v
  -- the lower IO says that it is open
  | .enter (.uOpen _ _) => if v.phase = .opening then v else { v with phase := .broken }
  | .ret _ .acquire n _ =>
    if n.toNat = 0 then { v with phase := .broken } else { v with cred := some n.toNat }
  | .ret _ .ctxMade n _ => { v with sec := some n.toNat }
  | .ret _ (.xioSend .hello ..) n _ =>
    if n ≠ 0 then { v with phase := .broken }
    else if v.cap < 1 + v.pend.length then { v with need := some 1 }
    else { v with need := some 1, phase := .handshake }
  -- the lower IO delivers
  | .enter (.uBytes _ bs) =>
    if v.pend.length + bs.length ≤ v.cap then { v with receiving := true }.absorb bs
    else { v with receiving := true, chunk := some bs }
  | .leave (.uBytes _ _) _ => { v with receiving := false }
  | .ret _ (.realloc site _ m) n _ => v.resized site m n
  -- the handshake
  | .ret _ (.initNext ..) n _ => if n = untrustedRoot then { v with phase := .broken } else v
  | .ret _ .hsMissing n _ | .ret _ .decMissing n _ =>
    { v with need := some (if n < 0 then 1 else n.toNat) }
  | .ret _ (.hsExtra _) n _ | .ret _ (.decExtra _ _) n _ => v.keep n
  | .ret _ (.xioSend .token ..) n _ => if n = 0 then v else { v with phase := .broken }
  -- a record
  | .ret _ (.decrypt _ bs) _ after => { v with given := bs, pend := after }
  | .ret _ .plain n _ => if n < 0 then { v with phase := .broken, spoilt := true } else v
  -- the lower IO fails
  | .enter (.uError _) => if v.phase = .idle then v else { v with phase := .broken }
  -- the user closes
  | .enter (.close _ fn ctx) =>
    if v.phase = .idle ∨ v.phase = .shut then v
    else { v with phase := .shut, closeFn := fn, closeCtx := ctx }
  | .enter (.uClose _) => if v.phase = .shut then { v with phase := .idle } else v
  -- the end
  | .call _ (.freeBuf _) => { v with buf := 0 }
  | .call _ (.freeCred _) => { v with cred := none }
  | _ => v

/-- What a log tells about the TLS IO `h`. -/
def view (h : Nat) : List Event → View
  | [] => {}
  | e :: l => if subject e = h then (view h l).next e else view h l

/-- The phase of the TLS IO `h` after the log. -/
def phase (h : Nat) (l : List Event) : Phase := (view h l).phase

/-- A function in progress, with the bytes of the user it has had encrypted and sent, and those it
has had encrypted last. -/
structure Fr where
  call : Call
  sent : Bytes := []
  cur : Bytes := []

/-- The functions in progress, the innermost first. -/
def frames : List Event → List Fr
  | [] => []
  | .enter c :: l => ⟨c, [], []⟩ :: frames l
  | .leave _ _ :: l => (frames l).tail
  | .call _ (.encrypt _ _ bs _) :: l =>
    match frames l with
    | [] => []
    | f :: fs => { f with cur := bs } :: fs
  | .ret _ (.xioSend .data _ _ _ _) n _ :: l =>
    match frames l with
    | [] => []
    | f :: fs => (if n = 0 then { f with sent := f.sent ++ f.cur } else f) :: fs
  | _ :: l => frames l

/-- The functions in progress, the innermost first. -/
def running (l : List Event) : List Call := (frames l).map Fr.call

/-- The log before the function entered last. -/
def beforeEnter : List Event → List Event
  | [] => []
  | .enter _ :: l => l
  | _ :: l => beforeEnter l

/-- The TLS IOs that were created and not destroyed. -/
def alives : List Event → List Nat
  | [] => []
  | .leave (.create ..) r :: l => if r = 0 then alives l else r.toNat :: alives l
  | .leave (.destroy h) _ :: l => (alives l).filter (· ≠ h)
  | _ :: l => alives l

/-! ### The stream of received bytes -/

/-- What the lower IO has delivered to the TLS IO `h` since it was created, except what there was no
memory for. -/
def accepted (h : Nat) : List Event → Bytes
  | [] => []
  | .ret h' (.realloc .chunk _ _) n _ :: .call _ _ :: .enter (.uBytes _ bs) :: l =>
    if h' = h ∧ n ≠ 0 then accepted h l ++ bs else accepted h l
  | .enter (.uBytes h' bs) :: l => if h' = h then accepted h l ++ bs else accepted h l
  | .leave (.create ..) r :: l => if r.toNat = h then [] else accepted h l
  | _ :: l => accepted h l

/-- How many of these bytes SSPI has used. -/
def used (h : Nat) : List Event → Nat
  | [] => 0
  | .ret h' (.hsExtra m) n _ :: l => if h' = h then used h l + (m - n.toNat) else used h l
  | .ret h' (.decExtra bs _) n _ :: l =>
    if h' = h then used h l + (bs.length - n.toNat) else used h l
  | .leave (.create ..) r :: l => if r.toNat = h then 0 else used h l
  | _ :: l => used h l

/-! ### Resources -/

/-- Something that has to be released: the memory of an instance, a host name, a buffer for a record,
a block for received bytes, a credential handle, a lower IO. -/
inductive Res where
  | mem (p : Nat)
  | host (p : Nat)
  | out (p : Nat)
  | buf (p : Nat)
  | cred (p : Nat)
  | io (p : Nat)
  deriving DecidableEq

/-- One for the resource, none for another (NULL is not a resource). -/
def one (x : Res) (y : Nat → Res) (n : Int) : Int := if n ≠ 0 ∧ x = y n.toNat then 1 else 0

/-- How an event changes the number of times the resource `x` is held.  A `realloc` that succeeds
gives the new block for the old. -/
def held1 (x : Res) : Event → Int
  | .ret _ (.malloc _) n _ => one x .mem n
  | .ret _ (.mallocHost _) n _ => one x .host n
  | .ret _ (.mallocOut _) n _ => one x .out n
  | .ret _ (.realloc _ p _) n _ => if n = 0 then 0 else one x .buf n.toNat - one x .buf p
  | .ret _ .acquire n _ => one x .cred n.toNat
  | .ret _ (.xioCreate ..) n _ => one x .io n
  | .call _ (.free p) => - one x .mem p
  | .call _ (.freeHost p) => - one x .host p
  | .call _ (.freeOut p) => - one x .out p
  | .call _ (.freeBuf p) => - one x .buf p
  | .call _ (.freeCred p) => - one x .cred p
  | .call _ (.xioDestroy p) => - one x .io p
  | _ => 0

/-- How many times the resource `x` is held after the log. -/
def held (x : Res) : List Event → Int
  | [] => 0
  | e :: l => held1 x e + held x l

/-- What a TLS IO holds, apart from the block for received bytes and the credentials. -/
def own (x : Res) (h : Nat) (v : View) : Int :=
  one x .mem h + one x .host v.host + one x .io v.io

/-! ### What may happen next -/

/-- The function returns `0`, or the one that is in progress returns nothing. -/
def ends (e : Event) : Prop := ∃ c, e = .leave c 0

/-- The function in progress fails. -/
def fails (e : Event) : Prop := ∃ c r, r ≠ 0 ∧ e = .leave c r

/-- Call the function `fn` unless it is NULL; then it is over. -/
def tells (e : Event) (h fn : Nat) (o : Op) : Prop := if fn = 0 then ends e else e = .call h o

/-- The error callback. -/
def tellsError (e : Event) (h : Nat) (v : View) : Prop :=
  tells e h v.cbs.errFn (.onError v.cbs.errFn v.cbs.errCtx)

/-- The callback of the open. -/
def tellsOpen (e : Event) (h : Nat) (v : View) (r : OpenResult) : Prop :=
  tells e h v.cbs.openFn (.onOpen v.cbs.openFn v.cbs.openCtx r)

/-- The callback of the close. -/
def tellsClose (e : Event) (h : Nat) (v : View) : Prop :=
  tells e h v.closeFn (.onClose v.closeFn v.closeCtx)

/-- If there are as many bytes as were waited for, they are given to SSPI. -/
def gives (v : View) (h : Nat) (e : Event) : Prop :=
  if v.need = some 0 ∧ v.phase = .handshake then
    e = .call h (.initNext (v.cred.getD 0) (v.sec.getD 0) v.host v.pend)
  else if v.need = some 0 ∧ v.phase = .live then e = .call h (.decrypt (v.sec.getD 0) v.pend)
  else ends e

/-- There must be room for `n` more bytes. -/
def makesRoom (v : View) (h n : Nat) (site : Site) (e : Event) : Prop :=
  if v.cap < v.pend.length + n then e = .call h (.realloc site v.buf (v.pend.length + n)) else ends e

/-- The next piece of what the user sends. -/
def piece (whole sent : Bytes) : Bytes := (whole.drop sent.length).take 16384

/-- Send the next piece, if there is one. -/
def sendsOn (l : List Event) (h : Nat) (e : Event) : Prop :=
  match frames l with
  | ⟨.send _ null whole _ _, sent, _⟩ :: _ =>
    if sent = whole then ends e
    else if h ≠ 0 ∧ null = false ∧ phase h l = .live then
      e = .call h (.querySizes ((view h l).sec.getD 0))
    else fails e
  | _ => False

/-- The reaction to the newest event. -/
def Reacts : List Event → Event → Prop
  | .enter (.open h _) :: l, e =>
    if h ≠ 0 ∧ phase h l = .idle then e = .call h (.xioOpen (view h l).io h h h)
    else fails e
  | .ret _ (.xioOpen ..) n _ :: _, e => ∃ c r, e = .leave c r ∧ (r = 0 ↔ n = 0)
  | .enter (.close h _ _) :: l, e =>
    if h ≠ 0 ∧ phase h l ≠ .idle ∧ phase h l ≠ .shut then e = .call h (.xioClose (view h l).io h)
    else fails e
  | .ret _ (.xioClose ..) n _ :: _, e => ∃ c r, e = .leave c r ∧ (r = 0 ↔ n = 0)
  -- sending
  | .enter (.send h a b c d) :: l, e => sendsOn (.enter (.send h a b c d) :: l) h e
  | .ret h (.querySizes _) n _ :: _, e => if n = 0 then e = .call h .header else fails e
  | .ret h .header _ _ :: _, e => e = .call h .trailer
  | .ret _ (.mallocOut _) n _ :: _, e => n.toNat = 0 → fails e
  | .ret h (.encrypt ..) n bs :: l, e =>
    if n < 0 then ∃ p, e = .call h (.freeOut p)
    else ∃ fn ctx, e = .call h (.xioSend .data (view h l).io bs fn ctx)
  | .ret h (.xioSend .data ..) _ _ :: _, e => ∃ p, e = .call h (.freeOut p)
  | .ret h (.freeOut p) n bs :: .call a o :: .ret b (.xioSend .data i s f c) r bs' :: l, e =>
    if r = 0 then
      sendsOn (.ret h (.freeOut p) n bs :: .call a o :: .ret b (.xioSend .data i s f c) r bs' :: l) h e
    else fails e
  | .ret _ (.freeOut _) _ _ :: _, e => fails e
  -- the rest of the interface
  | .enter (.dowork h) :: l, e => if h = 0 then ends e else e = .call h (.xioDowork (view h l).io)
  | .ret _ (.xioDowork _) _ _ :: _, e => ends e
  | .enter (.setoption h name value) :: l, e =>
    match name with
    | none => fails e
    | some s => if h = 0 then fails e else e = .call h (.xioSetOption (view h l).io s value)
  | .ret _ (.xioSetOption ..) n _ :: _, e => ∃ c, e = .leave c n
  | .enter (.destroy h) :: _, e => h = 0 → ends e
  | .enter (.create cfg _) :: _, e => if cfg = none then ends e else e = .call 0 (.malloc 168)
  -- the lower IO says that it is open
  | .enter (.uOpen h _) :: l, e =>
    if phase h l = .opening then e = .call h .acquire else tellsError e h (view h l)
  | .ret h .acquire n _ :: l, e =>
    if n.toNat = 0 then tellsError e h (view h l)
    else e = .call h (.initFirst n.toNat (view h l).host)
  | .ret h (.initFirst ..) n _ :: _, e => if n < 0 then ends e else e = .call h .ctxMade
  | .ret h .ctxMade _ _ :: .call _ _ :: .ret _ (.initFirst ..) n bs :: l, e =>
    if goesOn n then e = .call h (.xioSend .hello (view h l).io bs 0 0) else ends e
  | .ret h (.xioSend .hello ..) n _ :: l, e =>
    if n ≠ 0 then tellsError e h (view h l) else makesRoom (view h l) h 1 .hello e
  | .ret h (.realloc .hello _ _) n _ :: l, e => if n = 0 then tellsError e h (view h l) else ends e
  -- it delivers
  | .enter (.uBytes h bs) :: l, e =>
    if (view h l).pend.length + bs.length ≤ (view h l).cap then
      gives (view h (.enter (.uBytes h bs) :: l)) h e
    else e = .call h (.realloc .chunk (view h l).buf ((view h l).pend.length + bs.length))
  | .ret h (.realloc .chunk p m) n bs :: l, e =>
    if n = 0 then ends e else gives (view h (.ret h (.realloc .chunk p m) n bs :: l)) h e
  -- the handshake
  | .ret h (.initNext ..) n bs :: l, e =>
    if n = incomplete then e = .call h .hsMissing
    else if n = 0 then e = .call h (.hsExtra (view h l).pend.length)
    else if goesOn n then
      if bs = [] then e = .call h (.hsExtra (view h l).pend.length)
      else e = .call h (.xioSend .token (view h l).io bs 0 0)
    else if n = untrustedRoot then tellsOpen e h (view h l) .error
    else ends e
  | .ret h .hsMissing n _ :: l, e =>
    makesRoom (view h l) h (if n < 0 then 1 else n.toNat) .hsMore e
  | .ret h (.realloc .hsMore _ _) n _ :: l, e =>
    if n = 0 then tellsOpen e h (view h l) .error else ends e
  | .ret h (.xioSend .token ..) n _ :: l, e =>
    if n = 0 then e = .call h (.hsExtra (view h l).pend.length) else tellsOpen e h (view h l) .error
  | .ret h (.hsExtra _) n _ :: .call _ _ :: .ret _ (.initNext ..) n' _ :: l, e =>
    e = .call h (.realloc (if n' = 0 then .hsDone else .hsNext) (view h l).buf
      (1 + (lastN n (view h l).pend).length))
  | .ret h (.hsExtra _) n _ :: l, e =>
    e = .call h (.realloc .hsNext (view h l).buf (1 + (lastN n (view h l).pend).length))
  | .ret h (.realloc .hsDone _ _) n _ :: l, e =>
    tellsOpen e h (view h l) (if n = 0 then .error else .ok)
  | .ret h (.realloc .hsNext _ _) n _ :: l, e =>
    if n = 0 then tellsOpen e h (view h l) .error else ends e
  -- a record
  | .ret h (.decrypt _ _) n _ :: _, e =>
    if n = incomplete then e = .call h .decMissing
    else if n = 0 then e = .call h .plain
    else ends e
  | .ret h .decMissing n _ :: l, e =>
    makesRoom (view h l) h (if n < 0 then 1 else n.toNat) .dataMore e
  | .ret h (.realloc .dataMore _ _) n _ :: l, e =>
    if n = 0 then tellsError e h (view h l) else ends e
  | .ret h .plain n bs :: l, e =>
    if n < 0 then tellsError e h (view h l)
    else if (view h l).cbs.bytesFn = 0 then e = .call h (.decExtra (view h l).given (view h l).pend)
    else e = .call h (.onBytes (view h l).cbs.bytesFn (view h l).cbs.bytesCtx bs)
  | .ret h (.onBytes ..) _ _ :: l, e =>
    e = .call h (.decExtra (view h l).given (view h l).pend)
  | .ret h (.decExtra _ _) n _ :: l, e =>
    e = .call h (.realloc .dataNext (view h l).buf (1 + (lastN n (view h l).pend).length))
  | .ret h (.realloc .dataNext _ _) n _ :: l, e =>
    if n = 0 then tellsError e h (view h l) else ends e
  -- the lower IO fails, or has closed
  | .enter (.uClose h) :: l, e =>
    if phase h l = .shut then tellsClose e h (view h l) else ends e
  | .enter (.uError h) :: l, e =>
    match phase h l with
    | .opening | .handshake => tellsOpen e h (view h l) .error
    | .shut => tellsClose e h (view h l)
    | .live => tellsError e h (view h l)
    | .idle | .broken => ends e
  -- these callbacks of the user are the last thing a function does
  | .ret _ (.onOpen ..) _ _ :: _, e | .ret _ (.onClose ..) _ _ :: _, e
  | .ret _ (.onError ..) _ _ :: _, e => ends e
  | _, _ => True

/-- The newest event is the answer `n` to a request to resize the receive buffer. -/
def resizing (l : List Event) (h : Nat) (site : Site) (n : Int → Prop) : Prop :=
  ∃ p m r bs l', l = .ret h (.realloc site p m) r bs :: l' ∧ n r

/-- When a call out may be made, and with which arguments. -/
def Calls (l : List Event) (h : Nat) : Op → Prop
  -- success is reported when SSPI has finished the handshake and there is room for a byte
  | .onOpen fn ctx .ok => fn ≠ 0 ∧ fn = (view h l).cbs.openFn ∧ ctx = (view h l).cbs.openCtx ∧
      resizing l h .hsDone (· ≠ 0)
  -- failure is reported when the lower IO fails, SSPI does not trust the peer, a token cannot be
  -- sent, or there is no memory
  | .onOpen fn ctx .error => fn ≠ 0 ∧ fn = (view h l).cbs.openFn ∧ ctx = (view h l).cbs.openCtx ∧
      ((∃ l', l = .enter (.uError h) :: l' ∧ (phase h l' = .opening ∨ phase h l' = .handshake)) ∨
        (∃ c s g bs bs' l', l = .ret h (.initNext c s g bs) untrustedRoot bs' :: l') ∨
        (∃ io bs fn ctx n bs' l', l = .ret h (.xioSend .token io bs fn ctx) n bs' :: l' ∧ n ≠ 0) ∨
        resizing l h .hsMore (· = 0) ∨ resizing l h .hsDone (· = 0) ∨ resizing l h .hsNext (· = 0))
  | .onOpen _ _ .cancelled => False
  | .onClose fn ctx => fn ≠ 0 ∧ fn = (view h l).closeFn ∧ ctx = (view h l).closeCtx ∧
      ∃ l', (l = .enter (.uClose h) :: l' ∨ l = .enter (.uError h) :: l') ∧ phase h l' = .shut
  | .onError fn ctx => fn ≠ 0 ∧ fn = (view h l).cbs.errFn ∧ ctx = (view h l).cbs.errCtx ∧
      ((∃ l', l = .enter (.uError h) :: l' ∧ phase h l' = .live) ∨
        (∃ r l', l = .enter (.uOpen h r) :: l' ∧ phase h l' ≠ .opening) ∨
        (∃ bs l', l = .ret h .acquire 0 bs :: l') ∨
        (∃ io bs fn ctx n bs' l', l = .ret h (.xioSend .hello io bs fn ctx) n bs' :: l' ∧ n ≠ 0) ∨
        (∃ n bs l', l = .ret h .plain n bs :: l' ∧ n < 0) ∨
        resizing l h .hello (· = 0) ∨ resizing l h .dataMore (· = 0) ∨ resizing l h .dataNext (· = 0))
  -- exactly what SSPI has just decrypted
  | .onBytes fn ctx bs => fn ≠ 0 ∧ fn = (view h l).cbs.bytesFn ∧ ctx = (view h l).cbs.bytesCtx ∧
      ∃ l', l = .ret h .plain bs.length bs :: l'
  | .plain => ∃ s bs bs' l', l = .ret h (.decrypt s bs) 0 bs' :: l'
  -- exactly the bytes that were received and not used yet
  | .initNext cred s host bs => (view h l).need = some 0 ∧ phase h l = .handshake ∧
      (view h l).cred = some cred ∧ (view h l).sec = some s ∧ host = (view h l).host ∧
      bs = (view h l).pend ∧ h ∈ alives l ∧ ((view h l).spoilt = false → bs = (view h l).raw)
  | .decrypt s bs => (view h l).need = some 0 ∧ phase h l = .live ∧
      (view h l).sec = some s ∧ bs = (view h l).pend ∧ h ∈ alives l ∧
      ((view h l).spoilt = false → bs = (view h l).raw)
  | .hsExtra m => m = (view h l).pend.length ∧ h ∈ alives l
  | .decExtra before after => before = (view h l).given ∧ after = (view h l).pend ∧
      before.length = after.length ∧ h ∈ alives l
  -- exactly the next piece of what the user has passed
  | .encrypt s hdr bs trl => phase h l = .live ∧ (view h l).sec = some s ∧
      ∃ whole fn ctx sent cur fs, frames l = ⟨.send h false whole fn ctx, sent, cur⟩ :: fs ∧
        sent <+: whole ∧ bs = piece whole sent ∧ bs ≠ [] ∧
        ∃ a b c d e f g i k l', l = .ret h (.mallocOut (hdr + bs.length + trl)) a b :: c ::
          .ret h .trailer d e :: f :: .ret h .header g i :: k :: l' ∧
          a ≠ 0 ∧ d = trl ∧ g = hdr
  -- exactly what SSPI has just put out
  | .xioSend .data io bs fn ctx => io = (view h l).io ∧
      (∃ s hdr m trl n l', l = .ret h (.encrypt s hdr m trl) n bs :: l' ∧ 0 ≤ n) ∧
      ∃ whole fn0 sent cur fs, frames l = ⟨.send h false whole fn0 ctx, sent, cur⟩ :: fs ∧
        fn = if sent ++ cur = whole then fn0 else 0
  | .xioSend .hello io bs fn ctx => io = (view h l).io ∧ fn = 0 ∧ ctx = 0 ∧
      ∃ a b c c' g n l', l = a :: b :: .ret h (.initFirst c g) n bs :: c' :: l' ∧ goesOn n = true
  | .xioSend .token io bs fn ctx => io = (view h l).io ∧ fn = 0 ∧ ctx = 0 ∧ bs ≠ [] ∧
      ∃ c s g i n l', l = .ret h (.initNext c s g i) n bs :: l' ∧ goesOn n = true
  | .querySizes s => (view h l).sec = some s ∧ phase h l = .live
  | .freeOut p => p ≠ 0
  | .realloc site p n => p = (view h l).buf ∧ h ∈ alives l ∧ n ≠ 0 ∧
      (site = .chunk → ∃ bs l', l = .enter (.uBytes h bs) :: l' ∧
        n = (view h l').pend.length + bs.length ∧ (view h l').cap < n) ∧
      (site = .hsDone → ∃ m k bs c cr s g i t l', l = .ret h (.hsExtra m) k bs :: c ::
        .ret h (.initNext cr s g i) 0 t :: l')
  | .freeBuf p => p = (view h l).buf ∧ p ≠ 0 ∧ h ∈ alives l ∧ (running l).head? = some (.destroy h)
  | .freeCred p => (view h l).cred = some p ∧ h ∈ alives l ∧ (running l).head? = some (.destroy h)
  | .acquire => (∃ r l', l = .enter (.uOpen h r) :: l' ∧ phase h l' = .opening) ∧ h ∈ alives l
  | .initFirst cred host => (view h l).cred = some cred ∧ host = (view h l).host ∧
      ∃ n bs l', l = .ret h .acquire n bs :: l'
  | .xioOpen io c1 c2 c3 => ∃ c l', l = .enter (.open h c) :: l' ∧ phase h l' = .idle ∧
      io = (view h l').io ∧ c1 = h ∧ c2 = h ∧ c3 = h
  | .xioClose io c => io = (view h l).io ∧ c = h ∧
      ∃ fn ctx l', l = .enter (.close h fn ctx) :: l' ∧ phase h l' ≠ .idle ∧ phase h l' ≠ .shut
  | .xioDowork io => io = (view h l).io ∧ ∃ l', l = .enter (.dowork h) :: l'
  | .xioSetOption io name value => io = (view h l).io ∧
      ∃ l', l = .enter (.setoption h (some name) value) :: l'
  -- the life of a TLS IO
  | .mallocHost n => h ∉ alives l ∧
      ∃ cfg lg, (running l).head? = some (.create (some cfg) lg) ∧ n = 1 + cfg.text.length
  | .copyHost p text => p = (view h l).host ∧ p ≠ 0 ∧
      ∃ cfg lg, (running l).head? = some (.create (some cfg) lg) ∧ text = cfg.text
  | .xioCreate _ cfg logger => (running l).head? = some (.create (some cfg) logger) ∧ h ∉ alives l
  | .freeHost p => p = (view h l).host
  | .xioDestroy io => io = (view h l).io
  -- never
  | .deleteCtx _ | .freeToken _ => False
  | _ => True

/-- What a function may return, and what it has done. -/
def Leaves (l : List Event) : Call → Int → Prop
  -- a new TLS IO holds what it owns, and no more; a creation that fails holds nothing
  | .create cfg lg, r =>
    if r = 0 then ∀ x, held x l = held x (beforeEnter l)
    else cfg ≠ none ∧ (view r.toNat l).logger = lg ∧ 0 < r ∧ r.toNat ∉ alives l ∧
      (∀ x, held x l = held x (beforeEnter l) + own x r.toNat (view r.toNat l)) ∧
      ∃ text l1 l2, l = l1 ++ .call r.toNat (.copyHost (view r.toNat l).host text) :: l2 ∧
        beforeEnter l2 = beforeEnter l
  | .destroy h, _ => (h = 0 ∨ (h ∈ alives l ∧ (view h l).buf = 0 ∧ (view h l).cred = none)) ∧
      ∀ x, (∀ p, x ≠ .buf p) → (∀ p, x ≠ .cred p) →
        held x l = held x (beforeEnter l) - if h = 0 then 0 else own x h (view h l)
  -- a send succeeds if everything has been sent, and only then
  | .send _ _ whole _ _, r => ∃ c sent cur fs, frames l = ⟨c, sent, cur⟩ :: fs ∧
      sent <+: whole ∧ (r = 0 ↔ sent = whole)
  | _, _ => True

/-- The calls that make what a TLS IO owns. -/
def Op.makes : Op → Bool
  | .mallocHost _ | .xioCreate .. => true
  | _ => false

/-- What SSPI has not used is left alone. -/
def Fair : Op → Int → Bytes → Prop
  | .hsExtra m, n, _ => n ≤ m
  | .decExtra before after, n, _ => n ≤ before.length ∧ (n < 0 ∨ lastN n before = lastN n after)
  | .decrypt _ bs, n, after => after.length = bs.length ∧ (n ≠ 0 → after = bs)
  | _, _, _ => True

/-- Which event may follow a log. -/
def Claim (l : List Event) : Event → Prop
  | .enter _ => True
  | .ret h o n bs => (o.makes = true → h ∉ alives l) ∧
      (∀ site p m, o = .realloc site p m → p = (view h l).buf ∧ h ∈ alives l) ∧
      (o = .acquire → h ∈ alives l) ∧
      (reenters o = false → l.head? = some (.call h o)) ∧ Fair o n bs
  | .call h o => Reacts l (.call h o) ∧ Calls l h o
  | .leave c r => (running l).head? = some c ∧ Reacts l (.leave c r) ∧ Leaves l c r

end Verif.Schan
