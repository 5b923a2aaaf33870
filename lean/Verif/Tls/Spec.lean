import Verif.Tls.Model

/-
What a user of the TLS IO can tell from the events alone.

Logs have the newest event first.  Nothing here looks at the memory of the module.
-/
namespace Verif.Tls
open Verif.Game

/-- Where a TLS IO stands. -/
inductive Phase where
  /-- never opened, or closed again -/
  | idle
  /-- opened by the user; the lower IO is opening -/
  | opening
  /-- the lower IO is open, the handshake is going on -/
  | handshake
  /-- the handshake has finished -/
  | live
  /-- the user has asked to close -/
  | shut
  /-- received bytes could not be passed to OpenSSL -/
  | broken
  deriving DecidableEq, Repr

/-- What the events tell about one TLS IO. -/
structure View where
  phase : Phase := .idle
  /-- the callbacks of the last open that was accepted -/
  cbs : Cbs := ⟨0, 0, 0, 0, 0, 0⟩
  /-- the callback of the last close that was accepted -/
  closeFn : Nat := 0
  closeCtx : Nat := 0
  /-- what was made for it -/
  io : Nat := 0
  ssl : Nat := 0
  ctx : Nat := 0
  inBio : Nat := 0
  outBio : Nat := 0
  logger : Nat := 0
  /-- how many deliveries by the lower IO are being processed -/
  depth : Nat := 0
  /-- while they were, and the handshake had finished, the user closed the TLS IO or it broke -/
  cut : Bool := false
  deriving DecidableEq, Repr

/-- The TLS IO a function of the module is about; for create, the one it returns. -/
def Call.handle : Call → Int → Nat
  | .create .., r => r.toNat
  | .destroy h, _ | .open h _, _ | .close h _ _, _ | .send h _ _ _, _ | .dowork h, _
  | .setoption h _ _, _ | .uOpen h _, _ | .uClose h, _ | .uError h, _ | .uBytes h _, _ => h

/-- The TLS IO an event is about (0: none). -/
def subject : Event → Nat
  | .enter c => c.handle 0
  | .leave c r => c.handle r
  | .call h _ => h
  | .ret h _ _ _ => h

/-- How an event about a TLS IO changes what is known of it. -/
def View.next (v : View) : Event → View
  -- a new TLS IO
  | .leave (.create ..) _ =>
    { v with phase := .idle, cbs := ⟨0, 0, 0, 0, 0, 0⟩, closeFn := 0, closeCtx := 0, depth := 0,
             cut := false }
  -- what it is made of
  | .ret _ .ctxNew n _ => { v with ctx := n.toNat }
  | .ret _ .bioNew n _ => { v with inBio := v.outBio, outBio := n.toNat }
  | .ret _ (.xioCreate _ _ lg) n _ => { v with io := n.toNat, logger := lg }
  | .ret _ (.sslNew _) n _ => { v with ssl := n.toNat }
  -- the user opens
  | .enter (.open _ c) => if v.phase = .idle then { v with phase := .opening, cbs := c } else v
  -- OpenSSL says if the handshake has finished
  | .ret _ (.initFinished _) n _ =>
    if v.phase = .opening ∧ n = 0 then { v with phase := .handshake }
    else if v.phase = .handshake ∧ n ≠ 0 then { v with phase := .live }
    else v
  -- the lower IO fails, or has closed
  | .enter (.uError _) =>
    if v.phase = .opening ∨ v.phase = .handshake then { v with phase := .idle } else v
  | .enter (.uClose _) =>
    if v.phase = .opening ∨ v.phase = .handshake ∨ v.phase = .shut then { v with phase := .idle }
    else v
  -- the user closes
  | .enter (.close _ fn ctx) =>
    if v.phase = .idle ∨ v.phase = .shut then v
    else { v with phase := .shut, closeFn := fn, closeCtx := ctx,
                  cut := v.cut || (v.phase == .live && v.depth != 0) }
  -- OpenSSL did not take the bytes
  | .ret _ (.bioWrite _ bs _) n _ =>
    if toSize n ≠ bs.length then
      { v with phase := .broken, cut := v.cut || (v.phase == .live && v.depth != 0) }
    else v
  -- a delivery by the lower IO begins and ends
  | .enter (.uBytes ..) => { v with depth := v.depth + 1 }
  | .leave (.uBytes ..) _ => { v with depth := v.depth - 1, cut := v.cut && v.depth != 1 }
  | _ => v

/-- What a log tells about the TLS IO `h`. -/
def view (h : Nat) : List Event → View
  | [] => {}
  | e :: l => if subject e = h then (view h l).next e else view h l

/-- The phase of the TLS IO `h` after the log. -/
def phase (h : Nat) (l : List Event) : Phase := (view h l).phase

/-- Bytes may be delivered: the handshake has finished and there was no close and no failure since,
or there was one while the bytes the lower IO has just delivered were being processed. -/
def View.flows (v : View) : Prop := v.phase = .live ∨ v.cut = true

/-- The function entered last. -/
def lastEnter : List Event → Option Call
  | [] => none
  | .enter c :: _ => some c
  | _ :: l => lastEnter l

/-- The log before the function entered last. -/
def beforeEnter : List Event → List Event
  | [] => []
  | .enter _ :: l => l
  | _ :: l => beforeEnter l

/-- The TLS IOs that were created and not destroyed. -/
def alives : List Event → List Nat
  | [] => []
  | .leave (.create ..) r :: l => if r = 0 then alives l else r.toNat :: alives l
  | .leave (.destroy h) _ :: l => (alives l).filter (· ≠ h)
  | _ :: l => alives l

/-! ### Resources -/

/-- Something that has to be released. -/
inductive Res where
  | mem (p : Nat)
  | ctx (p : Nat)
  | bio (p : Nat)
  | ssl (p : Nat)
  | io (p : Nat)
  | cert (p : Nat)
  deriving DecidableEq

/-- One for the resource, none for another (NULL is not a resource). -/
def one (x : Res) (y : Nat → Res) (n : Int) : Int := if n ≠ 0 ∧ x = y n.toNat then 1 else 0

/-- How an event changes the number of times the resource `x` is held.  `SSL_set_bio` passes the
two BIOs to the SSL object, which releases them when it is freed. -/
def held1 (x : Res) : Event → Int
  | .ret _ (.malloc _) n _ => one x .mem n
  | .ret _ .ctxNew n _ => one x .ctx n
  | .ret _ .bioNew n _ => one x .bio n
  | .ret _ (.memBuf ..) n _ => one x .bio n
  | .ret _ (.sslNew _) n _ => one x .ssl n
  | .ret _ (.xioCreate ..) n _ => one x .io n
  | .ret _ (.pemRead _) n _ => one x .cert n
  | .call _ (.free p) => - one x .mem p
  | .call _ (.ctxFree p) => - one x .ctx p
  | .call _ (.bioFree p) => - one x .bio p
  | .call _ (.sslFree p) => - one x .ssl p
  | .call _ (.xioDestroy p) => - one x .io p
  | .call _ (.x509Free p) => - one x .cert p
  | .call _ (.sslSetBio _ b1 b2) => - one x .bio b1 - one x .bio b2
  | _ => 0

/-- How many times the resource `x` is held after the log. -/
def held (x : Res) : List Event → Int
  | [] => 0
  | e :: l => held1 x e + held x l

/-- What a TLS IO holds: its memory, a context, an SSL object (with the two BIOs), a lower IO. -/
def own (x : Res) (h : Nat) (v : View) : Int :=
  one x .mem h + one x .ctx v.ctx + one x .ssl v.ssl + one x .io v.io

/-- The lower IO made since the function entered last (0: none). -/
def newIo : List Event → Int
  | [] => 0
  | .enter _ :: _ => 0
  | .ret _ (.xioCreate ..) n _ :: _ => n
  | _ :: l => newIo l

/-- The certificate made since the function entered last (0: none). -/
def newCert : List Event → Int
  | [] => 0
  | .enter _ :: _ => 0
  | .ret _ (.pemRead _) n _ :: _ => n
  | _ :: l => newCert l

/-! ### What may happen next -/

/-- Call the function `fn` unless it is NULL; then, or else, go on with `c`. -/
def tells (e : Event) (h fn : Nat) (o : Op) (c : Call) : Prop :=
  if fn = 0 then e = .leave c 0 else e = .call h o

/-- A function refuses. -/
def refuses (e : Event) (c : Call) : Prop := ∃ r, r ≠ 0 ∧ e = .leave c r

/-- The reaction to the newest event. -/
def Reacts : List Event → Event → Prop
  | .enter (.open h c) :: l, e =>
    if h ≠ 0 ∧ phase h l = .idle then e = .call h (.xioOpen (view h l).io h h h)
    else refuses e (.open h c)
  | .enter (.close h fn ctx) :: l, e =>
    if h ≠ 0 ∧ phase h l ≠ .idle ∧ phase h l ≠ .shut then e = .call h (.xioClose (view h l).io h)
    else refuses e (.close h fn ctx)
  | .enter (.send h bs fn ctx) :: l, e =>
    if h ≠ 0 ∧ phase h l = .live then e = .call h (.sslWrite (view h l).ssl bs (toInt bs.length))
    else refuses e (.send h bs fn ctx)
  | .enter (.dowork h) :: l, e =>
    if h ≠ 0 ∧ phase h l ≠ .idle ∧ phase h l ≠ .broken then e = .call h (.xioDowork (view h l).io)
    else e = .leave (.dowork h) 0
  | .enter (.setoption h name value) :: l, e =>
    match name with
    | none => refuses e (.setoption h none value)
    | some s =>
      if h = 0 then refuses e (.setoption h (some s) value)
      else if s = trustedCerts then e = .call h (.certStore (view h l).ctx)
      else e = .call h (.xioSetOption (view h l).io s value)
  | .enter (.destroy h) :: l, e =>
    if h = 0 then e = .leave (.destroy h) 0 else e = .call h (.sslFree (view h l).ssl)
  | .enter (.create cfg lg) :: _, e =>
    if cfg = none then e = .leave (.create cfg lg) 0 else e = .call 0 (.malloc 120)
  | .enter (.uOpen h r) :: l, e =>
    if phase h l = .opening then
      if r = .ok then e = .call h (.initFinished (view h l).ssl)
      else tells e h (view h l).cbs.openFn
        (.onOpen (view h l).cbs.openFn (view h l).cbs.openCtx .error) (.uOpen h r)
    else e = .leave (.uOpen h r) 0
  | .enter (.uClose h) :: l, e =>
    if phase h l = .opening ∨ phase h l = .handshake then
      tells e h (view h l).cbs.openFn
        (.onOpen (view h l).cbs.openFn (view h l).cbs.openCtx .error) (.uClose h)
    else if phase h l = .shut then
      tells e h (view h l).closeFn (.onClose (view h l).closeFn (view h l).closeCtx) (.uClose h)
    else e = .leave (.uClose h) 0
  | .enter (.uError h) :: l, e =>
    if phase h l = .opening ∨ phase h l = .handshake then
      tells e h (view h l).cbs.openFn
        (.onOpen (view h l).cbs.openFn (view h l).cbs.openCtx .error) (.uError h)
    else if phase h l = .live then
      tells e h (view h l).cbs.errFn (.onError (view h l).cbs.errFn (view h l).cbs.errCtx) (.uError h)
    else e = .leave (.uError h) 0
  | .enter (.uBytes h bs) :: l, e => e = .call h (.bioWrite (view h l).inBio bs (toInt bs.length))
  | .ret h (.bioWrite _ bs _) n _ :: l, e =>
    if toSize n ≠ bs.length then
      tells e h (view h l).cbs.errFn (.onError (view h l).cbs.errFn (view h l).cbs.errCtx)
        (.uBytes h bs)
    else if phase h l = .handshake then e = .call h (.initFinished (view h l).ssl)
    else if phase h l = .live then e = .call h (.sslRead (view h l).ssl 64)
    else e = .leave (.uBytes h bs) 0
  | .ret h (.initFinished _) n _ :: l, e =>
    if phase h l = .opening ∧ n ≠ 0 then e = .call h (.xioClose (view h l).io h)
    else if phase h l = .handshake ∧ n ≠ 0 ∧ (view h l).cbs.openFn ≠ 0 then
      e = .call h (.onOpen (view h l).cbs.openFn (view h l).cbs.openCtx .ok)
    else True
  | .ret h (.sslRead _ _) n bs :: l, e =>
    if n ≤ 0 then ∃ bs', e = .leave (.uBytes h bs') 0
    else if (view h l).cbs.bytesFn = 0 then e = .call h (.sslRead (view h l).ssl 64)
    else e = .call h (.onBytes (view h l).cbs.bytesFn (view h l).cbs.bytesCtx bs)
  | .ret h (.onBytes ..) _ _ :: l, e => e = .call h (.sslRead (view h l).ssl 64)
  | .ret h (.sslWrite _ bs _) n _ :: l, e =>
    if toSize n ≠ bs.length then ∃ fn ctx, refuses e (.send h bs fn ctx)
    else e = .call h (.pending (view h l).outBio)
  | .ret h (.pending _) n _ :: _, e =>
    if 0 < toInt n.toNat then e = .call h (.malloc (toInt n.toNat).toNat) else True
  | .ret h (.bioRead _ buf num) n bs :: l, e =>
    if n = num then ∃ fn ctx, e = .call h (.xioSend (view h l).io buf bs num.toNat fn ctx)
    else e = .call h (.free buf)
  | .ret h (.xioSend _ buf _ _ _ _) _ _ :: _, e => e = .call h (.free buf)
  | .ret h (.xioOpen ..) n _ :: _, e => ∃ c r, e = .leave (.open h c) r ∧ (r = 0 ↔ n = 0)
  | _, _ => True

/-- When a call out may be made, and with which arguments. -/
def Calls (l : List Event) (h : Nat) : Op → Prop
  -- success is reported when OpenSSL has just said so, for an open that has not ended
  | .onOpen fn ctx .ok => ∃ ssl n bs l', l = .ret h (.initFinished ssl) n bs :: l' ∧
      ssl = (view h l).ssl ∧ n ≠ 0 ∧ phase h l' = .handshake ∧ fn ≠ 0 ∧
      fn = (view h l').cbs.openFn ∧ ctx = (view h l').cbs.openCtx
  -- failure is reported when the lower IO fails or closes, or cannot be closed
  | .onOpen fn ctx .error => fn ≠ 0 ∧ fn = (view h l).cbs.openFn ∧ ctx = (view h l).cbs.openCtx ∧
      ((∃ l', (l = .enter (.uClose h) :: l' ∨ l = .enter (.uError h) :: l') ∧
          (phase h l' = .opening ∨ phase h l' = .handshake)) ∨
        (∃ r l', l = .enter (.uOpen h r) :: l' ∧ r ≠ .ok ∧ phase h l' = .opening) ∨
        (∃ io c n bs l', l = .ret h (.xioClose io c) n bs :: l' ∧ n ≠ 0))
  | .onOpen _ _ .cancelled => False
  | .onClose fn ctx => ∃ l', l = .enter (.uClose h) :: l' ∧ phase h l' = .shut ∧ fn ≠ 0 ∧
      fn = (view h l').closeFn ∧ ctx = (view h l').closeCtx
  | .onError fn ctx => fn ≠ 0 ∧ fn = (view h l).cbs.errFn ∧ ctx = (view h l).cbs.errCtx ∧
      ((∃ l', l = .enter (.uError h) :: l' ∧ phase h l' = .live) ∨
        (∃ bio bs num n bs' l', l = .ret h (.bioWrite bio bs num) n bs' :: l' ∧
          toSize n ≠ bs.length))
  -- exactly what OpenSSL has just decrypted
  | .onBytes fn ctx bs => ∃ ssl n l', l = .ret h (.sslRead ssl 64) n bs :: l' ∧
      ssl = (view h l).ssl ∧ n = bs.length ∧ 0 < n ∧ (view h l').flows ∧ fn ≠ 0 ∧
      fn = (view h l').cbs.bytesFn ∧ ctx = (view h l').cbs.bytesCtx
  | .sslRead ssl num => ssl = (view h l).ssl ∧ num = 64 ∧ (view h l).flows
  -- exactly what the user has just passed
  | .sslWrite ssl bs num => ∃ fn ctx l', l = .enter (.send h bs fn ctx) :: l' ∧
      phase h l' = .live ∧ ssl = (view h l').ssl ∧ num = toInt bs.length
  -- exactly what OpenSSL has just encrypted
  | .xioSend io buf bs size fn ctx => ∃ bio num l',
      l = .ret h (.bioRead bio buf num) num bs :: l' ∧ bio = (view h l).outBio ∧
      io = (view h l).io ∧ 0 < num ∧ num = bs.length ∧ size = bs.length ∧
      ((fn = 0 ∧ ctx = 0 ∧ phase h l = .handshake) ∨
        ∃ bs0, lastEnter l = some (.send h bs0 fn ctx))
  -- into a block of the right size
  | .bioRead bio buf num => ∃ n bs l', l = .ret h (.malloc num.toNat) n bs :: l' ∧
      buf = n.toNat ∧ buf ≠ 0 ∧ 0 < num ∧ bio = (view h l).outBio
  | .bioWrite bio bs num => ∃ l', l = .enter (.uBytes h bs) :: l' ∧ bio = (view h l').inBio ∧
      num = toInt bs.length
  | .pending bio => bio = (view h l).outBio
  | .initFinished ssl => ssl = (view h l).ssl ∧
      (phase h l = .opening ∨ phase h l = .handshake)
  | .doHandshake ssl => ssl = (view h l).ssl ∧ phase h l = .handshake
  | .xioOpen io c1 c2 c3 => ∃ c l', l = .enter (.open h c) :: l' ∧ phase h l' = .idle ∧
      io = (view h l').io ∧ c1 = h ∧ c2 = h ∧ c3 = h
  | .xioClose io c => io = (view h l).io ∧ c = h ∧
      ((∃ fn ctx l', l = .enter (.close h fn ctx) :: l' ∧ phase h l' ≠ .idle ∧ phase h l' ≠ .shut) ∨
        phase h l = .opening ∨ phase h l = .handshake)
  | .xioDowork io => io = (view h l).io ∧ phase h l ≠ .idle ∧ phase h l ≠ .broken ∧
      ∃ l', l = .enter (.dowork h) :: l'
  | .xioSetOption io name value => io = (view h l).io ∧ name ≠ trustedCerts ∧
      ∃ l', l = .enter (.setoption h (some name) value) :: l'
  -- the life of a TLS IO
  | .sslSetBio ssl rbio wbio => ssl = (view h l).ssl ∧ rbio = (view h l).inBio ∧
      wbio = (view h l).outBio
  | .ctxNew | .bioNew => h ∉ alives l
  | .sslNew ctx => ctx = (view h l).ctx ∧ h ∉ alives l
  | .setVerifyPeer ctx | .ctxFree ctx | .certStore ctx | .defaultPaths ctx => ctx = (view h l).ctx
  | .sslSetConnect ssl | .sslFree ssl => ssl = (view h l).ssl
  | .xioDestroy io => io = (view h l).io
  | .addCert .. => ∃ value, lastEnter l = some (.setoption h (some trustedCerts) value)
  | .memBuf value n => n = -1 ∧ lastEnter l = some (.setoption h (some trustedCerts) value)
  | .xioCreate _ cfg logger => lastEnter l = some (.create (some cfg) logger) ∧ h ∉ alives l
  | _ => True

/-- What a send returns: 0 if there was nothing to pass to the lower IO, or it has taken it. -/
def Sent : List Event → Int → Prop
  | .enter _ :: _, r => r ≠ 0
  | .ret _ (.sslWrite ..) _ _ :: _, r => r ≠ 0
  | .ret _ (.pending _) n _ :: _, r => toInt n.toNat ≤ 0 ∧ r = 0
  | .ret _ (.malloc _) n _ :: _, r => n = 0 ∧ r ≠ 0
  | .ret _ (.free _) _ _ :: _ :: .ret _ (.bioRead ..) _ _ :: _, r => r ≠ 0
  | .ret _ (.free _) _ _ :: _ :: .ret _ (.xioSend ..) n _ :: _, r => r = 0 ↔ n = 0
  | _, _ => False

/-- What a function may return, and what it has done. -/
def Leaves (l : List Event) : Call → Int → Prop
  -- a new TLS IO holds what it owns, and no more; a creation that fails holds nothing, except the
  -- lower IO if it was made
  | .create cfg lg, r =>
    if r = 0 then ∀ x, held x l = held x (beforeEnter l) + one x .io (newIo l)
    else cfg ≠ none ∧ (view r.toNat l).logger = lg ∧ 0 < r ∧ r.toNat ∉ alives l ∧
      ∀ x, held x l = held x (beforeEnter l) + own x r.toNat (view r.toNat l)
  | .destroy h, _ => (h = 0 ∨ h ∈ alives l) ∧
      ∀ x, held x l = held x (beforeEnter l) - if h = 0 then 0 else own x h (view h l)
  | .send h bs fn ctx, r => Sent l r ∧ (r = 0 → ∃ l0 ssl bs' l', l = l0 ++
      .ret h (.sslWrite ssl bs bs.length) bs.length bs' :: .call h (.sslWrite ssl bs bs.length) ::
      .enter (.send h bs fn ctx) :: l' ∧ phase h l' = .live ∧ h ≠ 0)
  | .setoption _ (some name) _, r => name = trustedCerts →
      ∀ x, held x l = held x (beforeEnter l) + (if r = 0 then one x .cert (newCert l) else 0)
  | _, _ => True

/-- The calls that make what a TLS IO owns. -/
def Op.makes : Op → Bool
  | .ctxNew | .bioNew | .sslNew _ | .xioCreate .. => true
  | _ => false

/-- Which event may follow a log. -/
def Claim (l : List Event) : Event → Prop
  | .enter _ => True
  | .ret h o _ _ => o.makes = true → h ∉ alives l
  | .call h o => Reacts l (.call h o) ∧ Calls l h o
  | .leave c r => Reacts l (.leave c r) ∧ Leaves l c r

end Verif.Tls
