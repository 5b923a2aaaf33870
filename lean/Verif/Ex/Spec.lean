import Verif.Ex.Model
import Verif.Crt.Props
import Verif.Buffer.Props
import Verif.Headers.Props
import Verif.World
/-! # What the calls of `httpapiex.h` do, and what is assumed of `httpapi.h` -/
namespace Verif.Ex
open Verif.Headers (Hdrs HdrR OHdr stored isLWS)
open Verif.Buffer (Content Buf OBuf clen)
open Verif.Sas (text)

abbrev Text := List UInt8

/-- a request as the transport sees it -/
structure Req where
  type : Nat
  path : Text
  hdrs : Hdrs
  content : Content
  deriving DecidableEq, Repr

/-- the objects a response is written to: status code, headers, content -/
structure Resp where
  status : Val
  hdrs : Hdrs
  content : Content
  deriving DecidableEq, Repr

/-- Calls received by the transport. -/
inductive Ev where
  | init (r : Res)
  | deinit
  | create (host : Text) (c : Nat)
  | close (c : Nat)
  /-- the option `name` with the value `b` was set on the connection `c` -/
  | setOption (c : Nat) (name : Text) (b : Block) (r : Res)
  /-- a copy of the value `b` of the option `name` was asked for; `copy` is the copy -/
  | clone (name : Text) (b : Block) (r : Res) (copy : Block)
  /-- `q` was sent on `c`; `g` and `g'`: the response objects before and after -/
  | execute (c : Nat) (q : Req) (g : Resp) (r : Res) (g' : Resp)
  deriving DecidableEq, Repr

/-- a pointer to content, as given by `BUFFER_u_char` -/
def Body (p : Ptr) : Content → HProp
  | none => (p = 0) ⋏ emp
  | some b => p ↦ b

/-- Contract of the transport.  `Net tr`: its memory after exactly the calls `tr`.  `Sess` is the right given by a successful
`HTTPAPI_Init` and given up to `HTTPAPI_Deinit`; `Conn c` is an open connection, obtained from `HTTPAPI_CreateConnection` and given up
to `HTTPAPI_CloseConnection`.  A cloned option value is a block of its own, released by `free`.  Requests and arguments are only read;
the response objects are written. -/
structure Honours (rel : Prop) (api : Http) (Net : List Ev → HProp) (Sess : HProp) (Conn : Nat → HProp) : Prop where
  init : ∀ tr, Triple rel (Net tr) api.init (fun r => Net (tr ++ [.init r]) ∗ if r = .ok then Sess else emp)
  deinit : ∀ tr, Triple rel (Net tr ∗ Sess) api.deinit (fun _ => Net (tr ++ [.deinit]))
  create : ∀ s h tr, Triple rel (Net tr ∗ Sess ∗ CStr s h) (api.createConnection s)
    (fun c => Net (tr ++ [.create h c]) ∗ Sess ∗ CStr s h ∗ if c = 0 then emp else Conn c)
  close : ∀ c tr, Triple rel (Net tr ∗ Sess ∗ Conn c) (api.closeConnection c) (fun _ => Net (tr ++ [.close c]) ∗ Sess)
  execute : ∀ c q g s hq pq st hr br tr,
    Triple rel (Net tr ∗ Sess ∗ Conn c ∗ CStr s q.path ∗ HdrR hq q.hdrs ∗ Body pq q.content ∗ st ↦ [g.status] ∗ HdrR hr g.hdrs ∗ Buf br g.content)
      (api.executeRequest c q.type s hq pq (clen q.content) st hr br)
      (fun r => ∃∃ g' : Resp, Net (tr ++ [.execute c q g r g']) ∗ Sess ∗ Conn c ∗ CStr s q.path ∗ HdrR hq q.hdrs ∗ Body pq q.content ∗
        st ↦ [g'.status] ∗ HdrR hr g'.hdrs ∗ Buf br g'.content)
  setOption : ∀ c s n v b tr, Triple rel (Net tr ∗ Sess ∗ Conn c ∗ CStr s n ∗ v ↦ b) (api.setOption c s v)
    (fun r => Net (tr ++ [.setOption c n b r]) ∗ Sess ∗ Conn c ∗ CStr s n ∗ v ↦ b)
  clone : ∀ s n v b tr, Triple rel (Net tr ∗ CStr s n ∗ v ↦ b) (api.cloneOption s v)
    (fun x => ∃∃ copy : Block, Net (tr ++ [.clone n b x.1 copy]) ∗ CStr s n ∗ v ↦ b ∗ if x.1 = .ok then x.2 ↦ copy else emp)

/-- What a handle stands for: the host name, the open connection if there is one, and the saved options in the order in which
they were first set. -/
structure Obj where
  host : Text
  conn : Option Nat
  opts : List (Text × Block)
  deriving DecidableEq, Repr

/-- `HTTPAPIEX_Create` -/
def CreateE (oom : Prop) (host : Option Text) (ok : Bool) (a' : Option Obj) : Prop :=
  match host with
  | none => ok = false ∧ a' = none
  | some h => (ok = false ∧ a' = none ∧ oom) ∨ (ok = true ∧ a' = some ⟨h, none, []⟩)

/-- `HTTPAPIEX_Destroy` -/
def DestroyE (a : Option Obj) (evs : List Ev) : Prop :=
  evs = match a.bind Obj.conn with
    | none => []
    | some c => [.close c, .deinit]

/-! ## Options -/

/-- the value of a saved option is replaced, or the option is added at the end -/
def putOpt (l : List (Text × Block)) (n : Text) (b : Block) : List (Text × Block) :=
  if n ∈ l.map Prod.fst then l.map fun p => if p.1 = n then (n, b) else p else l ++ [(n, b)]

/-- the result of setting an option on an open connection -/
def optResult : Res → Result
  | .ok => .ok
  | .invalidArg => .invalidArg
  | .other => .error

/-- `HTTPAPIEX_SetOption` of the option `n` to the value `b` (`none`: `NULL`).  The value is copied by the transport; the copy is
saved, and the value is set on the open connection if there is one. -/
def SetE (oom : Prop) (n : Option Text) (b : Option Block) (a : Option Obj) (r : Result) (a' : Option Obj) (evs : List Ev) : Prop :=
  match a, n, b with
  | some o, some n, some b =>
    -- no copy
    (∃ copy, r = .invalidArg ∧ a' = a ∧ evs = [.clone n b .invalidArg copy]) ∨
    (∃ copy, r = .error ∧ a' = a ∧ evs = [.clone n b .other copy]) ∨
    -- no memory to save a new option
    (∃ copy, r = .error ∧ (oom ∨ maxObj < 16 * (o.opts.length + 1)) ∧ n ∉ o.opts.map Prod.fst ∧ a' = a ∧ evs = [.clone n b .ok copy]) ∨
    -- saved
    (∃ copy, a' = some { o with opts := putOpt o.opts n copy } ∧
      match o.conn with
      | none => r = .ok ∧ evs = [.clone n b .ok copy]
      | some c => ∃ s, r = optResult s ∧ evs = [.clone n b .ok copy, .setOption c n b s])
  | _, _, _ => r = .invalidArg ∧ a' = a ∧ evs = []

/-! ## Requests -/

/-- every saved option is set on the connection `c`, once and in order; failures are ignored -/
def Applied (c : Nat) (opts : List (Text × Block)) (evs : List Ev) : Prop :=
  ∃ rs : List Res, rs.length = opts.length ∧ evs = List.zipWith (fun p r => Ev.setOption c p.1 p.2 r) opts rs

/-- What happens from the beginning, without a connection: response objects before, the calls made, success, the connection
left open, the response objects after.  Nothing is tried twice. -/
inductive Fresh (o : Obj) (q : Req) : Resp → List Ev → Bool → Option Nat → Resp → Prop
  | noInit {g r} : r ≠ .ok → Fresh o q g [.init r] false none g
  | noConnection {g} : Fresh o q g [.init .ok, .create o.host 0, .deinit] false none g
  | failed {g c opt r g'} : c ≠ 0 → Applied c o.opts opt → r ≠ .ok →
      Fresh o q g ([.init .ok, .create o.host c] ++ opt ++ [.execute c q g r g', .close c, .deinit]) false none g'
  | done {g c opt g'} : c ≠ 0 → Applied c o.opts opt →
      Fresh o q g ([.init .ok, .create o.host c] ++ opt ++ [.execute c q g .ok g']) true (some c) g'

/-- What happens with the open connection `c`: if the request fails, a new connection is tried, and if that fails too,
everything is tried from the beginning. -/
inductive Retry (o : Obj) (q : Req) (c : Nat) : Resp → List Ev → Bool → Option Nat → Resp → Prop
  | done {g g'} : Retry o q c g [.execute c q g .ok g'] true (some c) g'
  | noConnection {g r g1 evs ok c' g'} : r ≠ .ok → Fresh o q g1 evs ok c' g' →
      Retry o q c g ([.execute c q g r g1, .close c, .create o.host 0, .deinit] ++ evs) ok c' g'
  | again {g r g1 d opt g'} : r ≠ .ok → d ≠ 0 → Applied d o.opts opt →
      Retry o q c g ([.execute c q g r g1, .close c, .create o.host d] ++ opt ++ [.execute d q g1 .ok g']) true (some d) g'
  | failed {g r g1 d opt r2 g2 evs ok c' g'} : r ≠ .ok → d ≠ 0 → Applied d o.opts opt → r2 ≠ .ok → Fresh o q g2 evs ok c' g' →
      Retry o q c g ([.execute c q g r g1, .close c, .create o.host d] ++ opt ++ [.execute d q g1 r2 g2, .close d, .deinit] ++ evs) ok c' g'

def Attempts (o : Obj) (q : Req) (g : Resp) (evs : List Ev) (ok : Bool) (c' : Option Nat) (g' : Resp) : Prop :=
  match o.conn with
  | none => Fresh o q g evs ok c' g'
  | some c => Retry o q c g evs ok c' g'

/-- the headers with `Host` (without white space in front) -/
def withHost (o : Obj) (hs : Hdrs) : Hdrs := stored true hs (text "Host") (o.host.dropWhile isLWS)
/-- … and with `Content-Length` -/
def withLength (n : Nat) (hs : Hdrs) : Hdrs := stored true hs (text "Content-Length") (Crt.decimal n)

/-- the caller's arguments: the objects behind the pointers, `none` for `NULL` -/
structure Args where
  type : Nat
  path : Option Text
  hdrs : Option Hdrs
  content : Option Content
  status : Option Val
  rhdrs : Option Hdrs
  rcontent : Option Content
  deriving DecidableEq, Repr

def Args.reqHdrs (a : Args) (o : Obj) : Hdrs := withLength (clen (a.content.getD none)) (withHost o (a.hdrs.getD []))

/-- the request: what is `NULL` is empty -/
def Args.req (a : Args) (o : Obj) : Req := ⟨a.type, a.path.getD [], a.reqHdrs o, a.content.getD none⟩

/-- the response objects: what is `NULL` is empty, the status is written to `dummy` instead -/
def Args.resp (a : Args) (dummy : Val) : Resp := ⟨a.status.getD dummy, a.rhdrs.getD [], a.rcontent.getD none⟩

/-- the caller's objects after a request: the headers are those sent, the response objects are those written -/
def Args.after (a : Args) (o : Obj) (g : Resp) : Args :=
  { a with hdrs := a.hdrs.map fun _ => a.reqHdrs o, status := a.status.map fun _ => g.status, rhdrs := a.rhdrs.map fun _ => g.hdrs,
           rcontent := a.rcontent.map fun _ => g.content }

/-- a storing call can be refused -/
def NoRoom (oom : Prop) (hs : Hdrs) (n v : Text) : Prop :=
  oom ∨ maxObj < 8 * (hs.length + 1) ∨ ∃ old, Headers.find hs n = some old ∧ maxObj ≤ old.length + 2 + v.length

/-- `HTTPAPIEX_ExecuteRequest`: handle and caller's objects before, result, handle, caller's objects and `dummy` after, calls made -/
def ExecE (oom : Prop) (a : Option Obj) (x : Args) (dummy : Val) (r : Result) (a' : Option Obj) (x' : Args) (dummy' : Val) (evs : List Ev) : Prop :=
  match a with
  | none => r = .invalidArg ∧ a' = none ∧ x' = x ∧ dummy' = dummy ∧ evs = []
  | some o =>
    if 5 ≤ x.type then r = .invalidArg ∧ a' = a ∧ x' = x ∧ dummy' = dummy ∧ evs = []
    else
      -- the request could not be prepared: of the caller's objects only the request headers may have changed
      (r = .error ∧ a' = a ∧ dummy' = dummy ∧ evs = [] ∧
        ((x' = x ∧ NoRoom oom (x.hdrs.getD []) (text "Host") o.host) ∨
         (x' = { x with hdrs := x.hdrs.map (withHost o) } ∧
            NoRoom oom (withHost o (x.hdrs.getD [])) (text "Content-Length") (Crt.decimal (clen (x.content.getD none)))) ∨
         (x' = { x with hdrs := x.hdrs.map fun _ => x.reqHdrs o } ∧ oom))) ∨
      (∃ ok c' g', Attempts o (x.req o) (x.resp dummy) evs ok c' g' ∧ r = (if ok then .ok else .recoveryFailed) ∧
        a' = some { o with conn := c' } ∧ x' = x.after o g' ∧ dummy' = if x.status = none then g'.status else dummy)

end Verif.Ex
