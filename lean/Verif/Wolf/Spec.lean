import Verif.Wolf.Model

/-
What a user of the wolfSSL TLS IO can tell from the events alone.

Logs have the newest event first.  Nothing here looks at the memory of the module.
-/
namespace Verif.Wolf
open Verif.Game

/-- Where a TLS IO stands. -/
inductive Phase where
  /-- never opened, or the lower IO could not be opened -/
  | idle
  /-- opened by the user; the lower IO is opening -/
  | opening
  /-- the lower IO is open, the handshake is going on -/
  | handshake
  /-- the handshake has finished -/
  | live
  /-- the user has asked to close -/
  | shut
  /-- the lower IO has failed, or there was no memory for received bytes -/
  | broken
  deriving DecidableEq, Repr

/-- What the events tell about one TLS IO. -/
structure View where
  phase : Phase := .idle
  /-- the callbacks of the last open that was accepted -/
  cbs : Cbs := ⟨0, 0, 0, 0, 0, 0⟩
  /-- the callback of the last close that was accepted -/
  closeFn : Nat := 0
  closeCtx : Nat := 0
  /-- the completion callback of the last send that was accepted -/
  sendFn : Nat := 0
  sendCtx : Nat := 0
  /-- what was made for it -/
  io : Nat := 0
  ssl : Nat := 0
  ctx : Nat := 0
  logger : Nat := 0
  /-- the block for received bytes -/
  buf : Nat := 0
  /-- the bytes received from the lower IO that wolfSSL has not fetched -/
  pend : Bytes := []
  /-- bytes the lower IO is delivering, for which there may or may not be memory -/
  chunk : Option Bytes := none
  deriving DecidableEq, Repr

/-- The TLS IO a function of the module is about; for create, the one it returns. -/
def Call.handle : Call → Int → Nat
  | .create .., r => r.toNat
  | .destroy h, _ | .open h _, _ | .close h _ _, _ | .send h _ _ _, _ | .dowork h, _
  | .setoption h _ _ _, _ | .uOpen h _, _ | .uClose h, _ | .uError h, _ | .uBytes h _, _
  | .wRecv h _ _, _ | .wSend h _, _ | .wDone h, _ => h

/-- The TLS IO an event is about (0: none). -/
def subject : Event → Nat
  | .enter c => c.handle 0
  | .leave c r => c.handle r
  | .call h _ => h
  | .ret h _ _ _ => h

/-- How an event about a TLS IO changes what is known of it. -/
def View.next (v : View) : Event → View
  -- a new TLS IO
  | .leave (.create ..) _ =>
    { v with phase := .idle, cbs := ⟨0, 0, 0, 0, 0, 0⟩, closeFn := 0, closeCtx := 0, sendFn := 0,
             sendCtx := 0, buf := 0, pend := [], chunk := none }
  -- what it is made of
  | .ret _ .ctxNew n _ => { v with ctx := n.toNat }
  | .ret _ (.xioCreate _ _ lg) n _ => { v with io := n.toNat, logger := lg }
  | .ret _ (.sslNew _) n _ => { v with ssl := n.toNat }
  -- the user opens
  | .enter (.open _ c) => if v.phase = .idle then { v with phase := .opening, cbs := c } else v
  -- the lower IO could be opened, or could not
  | .ret _ (.xioOpen ..) n _ => { v with phase := if n = 0 then .handshake else .idle }
  | .enter (.uOpen _ r) => { v with phase := if r = .ok then .handshake else .broken }
  -- wolfSSL says that the handshake has finished
  | .enter (.wDone _) => if v.phase = .handshake then { v with phase := .live } else v
  -- the lower IO fails
  | .enter (.uError _) =>
    if v.phase = .opening ∨ v.phase = .handshake ∨ v.phase = .live then { v with phase := .broken }
    else v
  | .ret _ (.xioSend ..) n _ => if n = 0 then v else { v with phase := .broken }
  -- the user closes
  | .enter (.close _ fn ctx) =>
    if v.phase = .idle ∨ v.phase = .shut then v
    else { v with phase := .shut, closeFn := fn, closeCtx := ctx }
  -- the user sends
  | .enter (.send _ _ fn ctx) =>
    if v.phase = .live then { v with sendFn := fn, sendCtx := ctx } else v
  -- the lower IO delivers
  | .enter (.uBytes _ bs) => { v with chunk := some bs }
  | .ret _ (.realloc ..) n _ =>
    match v.chunk with
    | none => if n = 0 then v else { v with buf := n.toNat }
    | some bs =>
      if n = 0 then { v with phase := .broken, chunk := none }
      else { v with buf := n.toNat, pend := v.pend ++ bs, chunk := none }
  -- wolfSSL fetches
  | .call _ (.copyOut _ bs) => { v with pend := v.pend.drop bs.length }
  | .call _ (.freeBuf _) => { v with buf := 0 }
  | _ => v

/-- What a log tells about the TLS IO `h`. -/
def view (h : Nat) : List Event → View
  | [] => {}
  | e :: l => if subject e = h then (view h l).next e else view h l

/-- The phase of the TLS IO `h` after the log. -/
def phase (h : Nat) (l : List Event) : Phase := (view h l).phase

/-- The functions in progress, the innermost first. -/
def running : List Event → List Call
  | [] => []
  | .enter c :: l => c :: running l
  | .leave _ _ :: l => (running l).tail
  | _ :: l => running l

/-- The log before the function entered last. -/
def beforeEnter : List Event → List Event
  | [] => []
  | .enter _ :: l => l
  | _ :: l => beforeEnter l

/-- The TLS IOs that were created and not destroyed. -/
def alives : List Event → List Nat
  | [] => []
  | .leave (.create ..) r :: l => if r = 0 then alives l else r.toNat :: alives l
  | .leave (.destroy h) _ :: l => (alives l).filter (· ≠ h)
  | _ :: l => alives l

/-! ### The stream of received bytes -/

/-- What the lower IO has delivered to the TLS IO `h` since it was created, except what there was no
memory for. -/
def accepted (h : Nat) : List Event → Bytes
  | [] => []
  | .ret h' (.realloc _ _) n _ :: .call _ _ :: .enter (.uBytes _ bs) :: l =>
    if h' = h ∧ n ≠ 0 then accepted h l ++ bs else accepted h l
  | .leave (.create ..) r :: l => if r.toNat = h then [] else accepted h l
  | _ :: l => accepted h l

/-- What wolfSSL has fetched for the TLS IO `h` since it was created. -/
def fetched (h : Nat) : List Event → Bytes
  | [] => []
  | .call h' (.copyOut _ bs) :: l => if h' = h then fetched h l ++ bs else fetched h l
  | .leave (.create ..) r :: l => if r.toNat = h then [] else fetched h l
  | _ :: l => fetched h l

/-! ### Resources -/

/-- Something that has to be released: the memory of an instance, a block for received bytes, a
context, an SSL object, a lower IO. -/
inductive Res where
  | mem (p : Nat)
  | buf (p : Nat)
  | ctx (p : Nat)
  | ssl (p : Nat)
  | io (p : Nat)
  deriving DecidableEq

/-- One for the resource, none for another (NULL is not a resource). -/
def one (x : Res) (y : Nat → Res) (n : Int) : Int := if n ≠ 0 ∧ x = y n.toNat then 1 else 0

/-- How an event changes the number of times the resource `x` is held.  A `realloc` that succeeds
gives the new block for the old. -/
def held1 (x : Res) : Event → Int
  | .ret _ (.malloc _) n _ => one x .mem n
  | .ret _ (.realloc p _) n _ => if n = 0 then 0 else one x .buf n.toNat - one x .buf p
  | .ret _ .ctxNew n _ => one x .ctx n
  | .ret _ (.sslNew _) n _ => one x .ssl n
  | .ret _ (.xioCreate ..) n _ => one x .io n
  | .call _ (.free p) => - one x .mem p
  | .call _ (.freeBuf p) => - one x .buf p
  | .call _ (.ctxFree p) => - one x .ctx p
  | .call _ (.sslFree p) => - one x .ssl p
  | .call _ (.xioDestroy p) => - one x .io p
  | _ => 0

/-- How many times the resource `x` is held after the log. -/
def held (x : Res) : List Event → Int
  | [] => 0
  | e :: l => held1 x e + held x l

/-- What a TLS IO holds, apart from the block for received bytes. -/
def own (x : Res) (h : Nat) (v : View) : Int :=
  one x .mem h + one x .ctx v.ctx + one x .ssl v.ssl + one x .io v.io

/-- The lower IO made since the function entered last (0: none). -/
def newIo : List Event → Int
  | [] => 0
  | .enter _ :: _ => 0
  | .ret _ (.xioCreate ..) n _ :: _ => n
  | _ :: l => newIo l

/-! ### What may happen next -/

/-- Call the function `fn` unless it is NULL; then, or else, return `r` from `c`. -/
def tells (e : Event) (h fn : Nat) (o : Op) (c : Call) (r : Int) : Prop :=
  if fn = 0 then e = .leave c r else e = .call h o

/-- A function refuses. -/
def refuses (e : Event) (c : Call) : Prop := ∃ r, r ≠ 0 ∧ e = .leave c r

/-- How many bytes wolfSSL gets if it asks for `sz` and `bs` are there. -/
def ready (bs : Bytes) (sz : Int) : Int := if toInt bs.length > sz then sz else toInt bs.length

/-- wolfSSL, waiting for at most `sz` bytes at `buf`, gets what there is; if there is nothing, it is
told to come back later. -/
def fetches (v : View) (h buf : Nat) (sz : Int) (e : Event) : Prop :=
  if 0 < ready v.pend sz then e = .call h (.copyOut buf (v.pend.take (ready v.pend sz).toNat))
  else e = .leave (.wRecv h buf sz)
    (if ready v.pend sz = 0 ∧ v.phase = .live then -2 else ready v.pend sz)

/-- The reaction to the newest event. -/
def Reacts : List Event → Event → Prop
  | .enter (.open h c) :: l, e =>
    if h ≠ 0 ∧ phase h l = .idle then e = .call h (.xioOpen (view h l).io h h h)
    else refuses e (.open h c)
  | .ret h (.xioOpen ..) n _ :: l, e =>
    if n = 0 then e = .call h (.connect (view h l).ssl) else ∃ c, refuses e (.open h c)
  | .ret h (.connect _) n _ :: l, e =>
    match running l with
    | .open h' c :: _ => ∃ r, e = .leave (.open h' c) r ∧ (r = 0 ↔ n = 1)
    | .uOpen h' r :: _ =>
      if n = 1 then e = .leave (.uOpen h' r) 0
      else tells e h (view h l).cbs.openFn
        (.onOpen (view h l).cbs.openFn (view h l).cbs.openCtx .error) (.uOpen h' r) 0
    | _ => False
  | .enter (.close h fn ctx) :: l, e =>
    if h ≠ 0 ∧ phase h l ≠ .idle ∧ phase h l ≠ .shut then e = .call h (.xioClose (view h l).io h)
    else refuses e (.close h fn ctx)
  | .ret h (.xioClose ..) n _ :: _, e => ∃ fn ctx r, e = .leave (.close h fn ctx) r ∧ (r = 0 ↔ n = 0)
  | .enter (.send h bs fn ctx) :: l, e =>
    if h ≠ 0 ∧ phase h l = .live then e = .call h (.sslWrite (view h l).ssl bs (toInt bs.length))
    else refuses e (.send h bs fn ctx)
  | .ret h (.sslWrite _ bs _) n _ :: _, e =>
    ∃ fn ctx r, e = .leave (.send h bs fn ctx) r ∧ (r = 0 ↔ toSize n = bs.length)
  | .enter (.dowork h) :: l, e =>
    if h ≠ 0 ∧ phase h l ≠ .idle ∧ phase h l ≠ .broken then e = .call h (.sslRead (view h l).ssl 64)
    else e = .leave (.dowork h) 0
  | .ret h (.sslRead _ _) n bs :: l, e =>
    if n ≤ 0 then e = .call h (.xioDowork (view h l).io)
    else if (view h l).cbs.bytesFn = 0 then e = .call h (.sslRead (view h l).ssl 64)
    else e = .call h (.onBytes (view h l).cbs.bytesFn (view h l).cbs.bytesCtx bs)
  | .ret h (.onBytes ..) _ _ :: l, e => e = .call h (.sslRead (view h l).ssl 64)
  | .ret h (.xioDowork _) _ _ :: l, e =>
    match running l with
    | .dowork h' :: _ => e = .leave (.dowork h') 0
    | .wRecv h' buf sz :: _ =>
      if (view h l).pend = [] ∧ phase h l ≠ .live then e = .call h (.xioDowork (view h l).io)
      else fetches (view h l) h' buf sz e
    | _ => False
  | .enter (.wRecv h buf sz) :: l, e =>
    if (view h l).pend = [] then e = .call h (.xioDowork (view h l).io)
    else fetches (view h l) h buf sz e
  | .ret h (.copyOut ..) _ _ :: l, e =>
    if (view h l).pend = [] then e = .call h (.freeBuf (view h l).buf)
    else e = .call h (.realloc (view h l).buf (view h l).pend.length)
  | .enter (.wSend h bs) :: l, e =>
    e = .call h (.xioSend (view h l).io bs bs.length (view h l).sendFn (view h l).sendCtx)
  | .ret h (.xioSend _ bs _ _ _) n _ :: l, e =>
    if n = 0 then e = .leave (.wSend h bs) bs.length
    else tells e h (view h l).cbs.errFn (.onError (view h l).cbs.errFn (view h l).cbs.errCtx)
      (.wSend h bs) 0
  | .enter (.wDone h) :: l, e =>
    if phase h l = .handshake then
      tells e h (view h l).cbs.openFn
        (.onOpen (view h l).cbs.openFn (view h l).cbs.openCtx .ok) (.wDone h) 0
    else e = .leave (.wDone h) 0
  | .enter (.setoption h name value text) :: l, e =>
    match name with
    | none => refuses e (.setoption h none value text)
    | some s =>
      if h = 0 then refuses e (.setoption h (some s) value text)
      else if s = trustedCerts then e = .call h (.loadVerify (view h l).ctx value (text.length + 1))
      else e = .call h (.xioSetOption (view h l).io s value)
  | .ret h (.loadVerify _ value _) n _ :: _, e =>
    ∃ text r, e = .leave (.setoption h (some trustedCerts) value text) r ∧ (r = 0 ↔ n = 1)
  | .ret h (.xioSetOption _ name value) n _ :: _, e =>
    ∃ text, e = .leave (.setoption h (some name) value text) n
  | .enter (.destroy h) :: l, e =>
    if h = 0 then e = .leave (.destroy h) 0 else e = .call h (.sslFree (view h l).ssl)
  | .enter (.create cfg lg) :: _, e =>
    if cfg = none then e = .leave (.create cfg lg) 0 else e = .call 0 (.malloc 136)
  | .enter (.uOpen h r) :: l, e =>
    if r = .ok then e = .call h (.connect (view h l).ssl)
    else tells e h (view h l).cbs.openFn
      (.onOpen (view h l).cbs.openFn (view h l).cbs.openCtx .error) (.uOpen h r) 0
  | .enter (.uClose h) :: l, e =>
    if phase h l = .shut then
      tells e h (view h l).closeFn (.onClose (view h l).closeFn (view h l).closeCtx) (.uClose h) 0
    else e = .leave (.uClose h) 0
  | .enter (.uError h) :: l, e =>
    if phase h l = .opening ∨ phase h l = .handshake then
      tells e h (view h l).cbs.openFn
        (.onOpen (view h l).cbs.openFn (view h l).cbs.openCtx .error) (.uError h) 0
    else if phase h l = .live then
      tells e h (view h l).cbs.errFn (.onError (view h l).cbs.errFn (view h l).cbs.errCtx)
        (.uError h) 0
    else e = .leave (.uError h) 0
  | .enter (.uBytes h bs) :: l, e =>
    e = .call h (.realloc (view h l).buf ((view h l).pend.length + bs.length))
  | .ret h (.realloc ..) n _ :: l, e =>
    match running l with
    | .uBytes h' bs :: _ =>
      if n = 0 then tells e h (view h l).cbs.errFn
        (.onError (view h l).cbs.errFn (view h l).cbs.errCtx) (.uBytes h' bs) 0
      else e = .leave (.uBytes h' bs) 0
    | .wRecv h' buf sz :: _ => ∃ r, e = .leave (.wRecv h' buf sz) r
    | _ => False
  -- the callbacks of the user are the last thing a function does
  | .ret _ (.onOpen ..) _ _ :: l, e | .ret _ (.onClose ..) _ _ :: l, e
  | .ret _ (.onError ..) _ _ :: l, e => ∃ c, (running l).head? = some c ∧ e = .leave c 0
  | _, _ => True

/-- When a call out may be made, and with which arguments. -/
def Calls (l : List Event) (h : Nat) : Op → Prop
  -- success is reported when wolfSSL has just said that the handshake has finished
  | .onOpen fn ctx .ok => ∃ l', l = .enter (.wDone h) :: l' ∧ phase h l' = .handshake ∧ fn ≠ 0 ∧
      fn = (view h l').cbs.openFn ∧ ctx = (view h l').cbs.openCtx
  -- failure is reported when the lower IO or wolfSSL fails
  | .onOpen fn ctx .error => fn ≠ 0 ∧ fn = (view h l).cbs.openFn ∧ ctx = (view h l).cbs.openCtx ∧
      ((∃ l', l = .enter (.uError h) :: l' ∧ (phase h l' = .opening ∨ phase h l' = .handshake)) ∨
        (∃ r l', l = .enter (.uOpen h r) :: l' ∧ r ≠ .ok) ∨
        (∃ ssl n bs l', l = .ret h (.connect ssl) n bs :: l' ∧ n ≠ 1))
  | .onOpen _ _ .cancelled => False
  | .onClose fn ctx => ∃ l', l = .enter (.uClose h) :: l' ∧ phase h l' = .shut ∧ fn ≠ 0 ∧
      fn = (view h l').closeFn ∧ ctx = (view h l').closeCtx
  | .onError fn ctx => fn ≠ 0 ∧ fn = (view h l).cbs.errFn ∧ ctx = (view h l).cbs.errCtx ∧
      ((∃ l', l = .enter (.uError h) :: l' ∧ phase h l' = .live) ∨
        (∃ p m bs bs' l', l = .ret h (.realloc p m) 0 bs :: l' ∧
          (running l').head? = some (.uBytes h bs')) ∨
        (∃ io bs size fn ctx n bs' l', l = .ret h (.xioSend io bs size fn ctx) n bs' :: l' ∧ n ≠ 0))
  -- exactly what wolfSSL has just decrypted
  | .onBytes fn ctx bs => ∃ ssl n l', l = .ret h (.sslRead ssl 64) n bs :: l' ∧
      n = bs.length ∧ 0 < n ∧ (running l).head? = some (.dowork h) ∧ fn ≠ 0 ∧
      fn = (view h l').cbs.bytesFn ∧ ctx = (view h l').cbs.bytesCtx
  | .sslRead ssl num => ssl = (view h l).ssl ∧ num = 64 ∧ (running l).head? = some (.dowork h) ∧
      ((∃ l', l = .enter (.dowork h) :: l' ∧ phase h l' ≠ .idle ∧ phase h l' ≠ .broken) ∨
        (∃ ssl n bs l', l = .ret h (.sslRead ssl 64) n bs :: l' ∧ 0 < n) ∨
        (∃ fn ctx bs n bs' l', l = .ret h (.onBytes fn ctx bs) n bs' :: l'))
  -- exactly what the user has just passed
  | .sslWrite ssl bs num => ∃ fn ctx l', l = .enter (.send h bs fn ctx) :: l' ∧
      phase h l' = .live ∧ ssl = (view h l').ssl ∧ num = toInt bs.length
  -- exactly what wolfSSL has just encrypted
  | .xioSend io bs size fn ctx => ∃ l', l = .enter (.wSend h bs) :: l' ∧ io = (view h l').io ∧
      size = bs.length ∧ fn = (view h l').sendFn ∧ ctx = (view h l').sendCtx
  -- the oldest bytes that were received and not fetched yet
  | .copyOut buf bs => ∃ sz, (running l).head? = some (.wRecv h buf sz) ∧
      bs <+: (view h l).pend ∧ bs ≠ [] ∧ bs.length ≤ sz ∧ h ∈ alives l
  | .realloc p n => p = (view h l).buf ∧ h ∈ alives l ∧ (p = 0 ∨ n ≠ 0) ∧
      ((∃ bs l', l = .enter (.uBytes h bs) :: l' ∧ n = (view h l').pend.length + bs.length) ∨
        ((view h l).chunk = none ∧ n = (view h l).pend.length ∧
          ∃ buf sz, (running l).head? = some (.wRecv h buf sz)))
  | .freeBuf p => p = (view h l).buf ∧ p ≠ 0 ∧ h ∈ alives l ∧
      ((view h l).pend = [] ∨ (running l).head? = some (.destroy h))
  | .connect ssl => ssl = (view h l).ssl ∧ phase h l = .handshake ∧
      ((∃ l', l = .enter (.uOpen h .ok) :: l') ∨
        (∃ io c1 c2 c3 bs l', l = .ret h (.xioOpen io c1 c2 c3) 0 bs :: l'))
  | .xioOpen io c1 c2 c3 => ∃ c l', l = .enter (.open h c) :: l' ∧ phase h l' = .idle ∧
      io = (view h l').io ∧ c1 = h ∧ c2 = h ∧ c3 = h
  | .xioClose io c => io = (view h l).io ∧ c = h ∧
      ∃ fn ctx l', l = .enter (.close h fn ctx) :: l' ∧ phase h l' ≠ .idle ∧ phase h l' ≠ .shut
  | .xioDowork io => io = (view h l).io ∧
      ((running l).head? = some (.dowork h) ∨
        ∃ buf sz, (running l).head? = some (.wRecv h buf sz) ∧ (view h l).pend = [])
  | .xioSetOption io name value => io = (view h l).io ∧ name ≠ trustedCerts ∧
      ∃ text l', l = .enter (.setoption h (some name) value text) :: l'
  | .loadVerify ctx value size => ctx = (view h l).ctx ∧
      ∃ text l', l = .enter (.setoption h (some trustedCerts) value text) :: l' ∧
        size = text.length + 1
  -- the life of a TLS IO
  | .ctxNew => h ∉ alives l
  | .sslNew ctx => ctx = (view h l).ctx ∧ h ∉ alives l
  | .xioCreate _ cfg logger => (running l).head? = some (.create (some cfg) logger) ∧ h ∉ alives l
  | .setIoSend ctx | .setIoRecv ctx | .ctxFree ctx => ctx = (view h l).ctx
  | .setNonblock ssl | .sslFree ssl => ssl = (view h l).ssl
  | .setHsDone ssl c | .setWriteCtx ssl c | .setReadCtx ssl c => ssl = (view h l).ssl ∧ c = h
  | .xioDestroy io => io = (view h l).io
  | _ => True

/-- What wolfSSL gets is what was copied. -/
def Recv : List Event → Int → Prop
  | .ret _ (.realloc _ _) _ _ :: .call _ _ :: .ret _ (.copyOut _ bs) _ _ :: _, r => r = bs.length
  | .ret _ (.freeBuf _) _ _ :: .call _ _ :: .ret _ (.copyOut _ bs) _ _ :: _, r => r = bs.length
  | _, r => r ≤ 0

/-- What a function may return, and what it has done. -/
def Leaves (l : List Event) : Call → Int → Prop
  -- a new TLS IO holds what it owns, and no more; a creation that fails holds nothing, except the
  -- lower IO if it was made
  | .create cfg lg, r =>
    if r = 0 then ∀ x, held x l = held x (beforeEnter l) + one x .io (newIo l)
    else cfg ≠ none ∧ (view r.toNat l).logger = lg ∧ 0 < r ∧ r.toNat ∉ alives l ∧
      (∀ x, held x l = held x (beforeEnter l) + own x r.toNat (view r.toNat l)) ∧
      ∀ c ∈ [Op.setNonblock (view r.toNat l).ssl, .setIoSend (view r.toNat l).ctx,
        .setIoRecv (view r.toNat l).ctx, .setHsDone (view r.toNat l).ssl r.toNat,
        .setWriteCtx (view r.toNat l).ssl r.toNat, .setReadCtx (view r.toNat l).ssl r.toNat],
        ∃ l1 l2, l = l1 ++ .call r.toNat c :: l2 ∧ beforeEnter l2 = beforeEnter l
  | .destroy h, _ => (h = 0 ∨ (h ∈ alives l ∧ (view h l).buf = 0)) ∧
      ∀ x, (∀ p, x ≠ .buf p) →
        held x l = held x (beforeEnter l) - if h = 0 then 0 else own x h (view h l)
  | .wRecv _ _ sz, r => Recv l r ∧ r ≤ max sz 0
  | _, _ => True

/-- The calls that make what a TLS IO owns. -/
def Op.makes : Op → Bool
  | .ctxNew | .sslNew _ | .xioCreate .. => true
  | _ => false

/-- Which event may follow a log. -/
def Claim (l : List Event) : Event → Prop
  | .enter _ => True
  | .ret h o _ _ => (o.makes = true → h ∉ alives l) ∧
      (∀ p n, o = .realloc p n → p = (view h l).buf ∧ h ∈ alives l) ∧
      (reenters o = false → l.head? = some (.call h o))
  | .call h o => Reacts l (.call h o) ∧ Calls l h o
  | .leave c r => (running l).head? = some c ∧ Reacts l (.leave c r) ∧ Leaves l c r

end Verif.Wolf
