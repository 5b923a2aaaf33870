import Verif.Vec.Model
import Verif.Headers.Model
import Verif.Buffer.Model
import Verif.Strings.Model
import Verif.Crt.Model
import Verif.Sock.Model
import Verif.Sas.Model
/-!
# Model of `/repo/src/httpapiex.c`

The functions of `httpapi.h` are parameters (`Http`); a connection handle is an address, `0` is `NULL`.  `strings.c`, `buffer.c`,
`httpheaders.c`, `crt_abstractions.c` and `vector.c` are their models.  Addresses of `HTTPAPIEX_SAVED_OPTION` elements are positions
in the storage of the vector; an element is two slots of 8 bytes.

Simplifications: an option value is a pointer to the beginning of a block; results of `HTTPAPI_*` are `HTTPAPI_OK`,
`HTTPAPI_INVALID_ARG` or another value; `LogError` is left out.  The automatic array `temp` of 22 bytes and the static
`dummyStatusCode` are given by their addresses.  Out-parameters of the `static` functions are returned as results.
-/
namespace Verif.Ex
open Verif.Vec Verif.Headers Verif.Buffer Verif.Strings Verif.Crt Verif.Sock
open Verif.Sas (text)

/-- `HTTPAPI_RESULT`, inc/azure_c_shared_utility/httpapi.h:31-54 -/
inductive Res | ok | invalidArg | other
  deriving DecidableEq, Repr

/-- `HTTPAPIEX_RESULT`, inc/azure_c_shared_utility/httpapiex.h:31-40 -/
inductive Result | ok | error | invalidArg | recoveryFailed
  deriving DecidableEq, Repr

/-- External functions, inc/azure_c_shared_utility/httpapi.h:68-190. -/
structure Http where
  init : M Res
  deinit : M Unit
  createConnection : (host : CharPtr) → M Nat
  closeConnection : (h : Nat) → M Unit
  executeRequest : (h type : Nat) → (path : CharPtr) → (hdrs content : Ptr) → (len : Nat) → (status rhdrs rcontent : Ptr) → M Res
  setOption : (h : Nat) → (name : CharPtr) → (value : Ptr) → M Res
  cloneOption : (name : CharPtr) → (value : Ptr) → M (Res × Ptr)

/-! Fields of `HTTPAPIEX_HANDLE_DATA` (22-28) and of `HTTPAPIEX_SAVED_OPTION` (16-20) -/
abbrev fHost : Nat := 0
abbrev fK : Nat := 1
abbrev fHttp : Nat := 2
abbrev fOpts : Nat := 3
abbrev gName : Nat := 0
abbrev gValue : Nat := 1
/-- `sizeof(HTTPAPIEX_SAVED_OPTION)` -/
abbrev optSize : Nat := 16

/-- a field of a saved option -/
def loadOpt (e : VPtr) (f : Nat) : M Ptr :=
  match e with
  | .at p off => loadPtr p (off / 8 + f)
  | _ => ub "dereference of NULL"

def storeOpt (e : VPtr) (f : Nat) (v : Ptr) : M Unit :=
  match e with
  | .at p off => store p (off / 8 + f) (.ptr v)
  | _ => ub "dereference of NULL"

/-- httpapiex.c:34-82 -/
def HTTPAPIEX_Create (hostName : CharPtr) : M Ptr := do
  if hostName = .null then pure 0 else do
  let handleData ← mallocS 4
  if handleData = 0 then pure 0 else do
  let s ← STRING_construct hostName
  store handleData fHost (.ptr s)
  let s ← loadPtr handleData fHost
  if s = 0 then do
    free handleData
    pure 0
  else do
  let v ← VECTOR_create optSize
  store handleData fOpts (.ptr v)
  let v ← loadPtr handleData fOpts
  if v = 0 then do
    let s ← loadPtr handleData fHost
    STRING_delete s
    free handleData
    pure 0
  else do
  store handleData fK (intV (-1))
  store handleData fHttp (.ptr 0)
  pure handleData

/-- "if (isOriginal… == false) BUFFER_delete(…)", httpapiex.c:223-226, 258-261, 276-279, 479-482, 487-490 -/
def dropBuffer (own : Bool) (b : Ptr) : M Unit := if own = false then BUFFER_delete b else pure ()
/-- "if (isOriginal… == false) HTTPHeaders_Free(…)", httpapiex.c:130-133, 262-265, 280-287, 483-486, 491-494 -/
def dropHeaders (own : Bool) (h : Ptr) : M Unit := if own = false then HTTPHeaders_Free h else pure ()

/-- httpapiex.c:125-128: the condition -/
def setRequestHeaders (handleData toBeUsed temp : Ptr) : M Bool := do
  let hn ← loadPtr handleData fHost
  let s ← STRING_c_str hn
  let r ← HTTPHeaders_ReplaceHeaderNameValuePair toBeUsed (.str (text "Host")) (.ofPtr s)
  if r = .ok then do
    let r ← HTTPHeaders_ReplaceHeaderNameValuePair toBeUsed (.str (text "Content-Length")) (.heap temp 0)
    pure (decide (r = .ok))
  else pure false

/-- httpapiex.c:87-143: the result, `*isOriginalRequestHttpHeadersHandle` and `*toBeUsedRequestHttpHeadersHandle` -/
def buildRequestHttpHeadersHandle (handleData requestContent original temp : Ptr) : M (Nat × Bool × Ptr) := do
  let (isOriginal, toBeUsed) ← if original ≠ 0 then pure (true, original)
    else do
      let h ← HTTPHeaders_Alloc
      pure (false, h)
  if toBeUsed = 0 then pure (108, isOriginal, 0) else do
  let len ← BUFFER_length requestContent
  let _ ← size_tToString temp 22 (UInt64.ofNat len)
  let good ← setRequestHeaders handleData toBeUsed temp
  if good = false then do
    dropHeaders isOriginal toBeUsed
    pure (135, isOriginal, 0)
  else pure (0, isOriginal, toBeUsed)

/-- httpapiex.c:145-167 -/
def buildResponseHttpHeadersHandle (original : Ptr) : M (Nat × Bool × Ptr) := do
  if original = 0 then do
    let h ← HTTPHeaders_Alloc
    if h = 0 then pure (152, true, 0) else pure (0, false, h)
  else pure (0, true, original)

/-- httpapiex.c:170-193 -/
def buildBufferIfNotExist (original : Ptr) : M (Nat × Bool × Ptr) := do
  if original = 0 then do
    let b ← BUFFER_new
    if b = 0 then pure (178, true, 0) else pure (0, false, b)
  else pure (0, true, original)

/-- the out-parameters of `buildAllRequests` -/
structure Used where
  path : CharPtr
  hdrs : Ptr
  hdrsOwn : Bool
  content : Ptr
  contentOwn : Bool
  status : Ptr
  rhdrs : Ptr
  rhdrsOwn : Bool
  rcontent : Ptr
  rcontentOwn : Bool

/-- httpapiex.c:197-298; `none` is a result other than 0 -/
def buildAllRequests (handle : Ptr) (relativePath : CharPtr) (requestHttpHeaders requestContent statusCode responseHttpHeaders responseContent temp dummyStatusCode : Ptr) :
    M (Option Used) := do
  let (e, contentOwn, content) ← buildBufferIfNotExist requestContent
  if e ≠ 0 then pure none else do
  let (e, hdrsOwn, hdrs) ← buildRequestHttpHeadersHandle handle content requestHttpHeaders temp
  if e ≠ 0 then do
    dropBuffer contentOwn content
    pure none
  else do
  let path := if relativePath = .null then .str [] else relativePath
  let status := if statusCode = 0 then dummyStatusCode else statusCode
  let (e, rhdrsOwn, rhdrs) ← buildResponseHttpHeadersHandle responseHttpHeaders
  if e ≠ 0 then do
    dropBuffer contentOwn content
    dropHeaders hdrsOwn hdrs
    pure none
  else do
  let (e, rcontentOwn, rcontent) ← buildBufferIfNotExist responseContent
  if e ≠ 0 then do
    dropBuffer contentOwn content
    dropHeaders hdrsOwn hdrs
    dropHeaders rhdrsOwn rhdrs
    pure none
  else pure (some ⟨path, hdrs, hdrsOwn, content, contentOwn, status, rhdrs, rhdrsOwn, rcontent, rcontentOwn⟩)

section
variable (api : Http)

/-- httpapiex.c:394-404: saved options `i`, …, `i + n - 1` are set on the new connection; failures are ignored -/
def applyLoop (handleData : Ptr) : (n i : Nat) → M Unit
  | 0, _ => pure ()
  | n + 1, i => do
    let v ← loadPtr handleData fOpts
    let option ← VECTOR_element v i
    let h ← loadPtr handleData fHttp
    let name ← loadOpt option gName
    let value ← loadOpt option gValue
    let _ ← api.setOption h (.ofPtr name) value
    applyLoop handleData n (i + 1)

/-- httpapiex.c:372-428: the step number `k`; the result is `goOn` -/
def attempt (handleData : Ptr) (requestType : Nat) (u : Used) (k : Int) : M Bool := do
  if k = 0 then do
    let r ← api.init
    pure (decide (r = .ok))
  else if k = 1 then do
    let hn ← loadPtr handleData fHost
    let s ← STRING_c_str hn
    let c ← api.createConnection (.ofPtr s)
    store handleData fHttp (.ptr c)
    let c ← loadPtr handleData fHttp
    if c = 0 then pure false
    else do
      let v ← loadPtr handleData fOpts
      let vectorSize ← VECTOR_size v
      applyLoop api handleData vectorSize 0
      pure true
  else if k = 2 then do
    let c ← loadPtr handleData fHttp
    let p ← BUFFER_u_char u.content
    let len ← BUFFER_length u.content
    let r ← api.executeRequest c requestType u.path u.hdrs p len u.status u.rhdrs u.rcontent
    pure (decide (r = .ok))
  else pure false

/-- httpapiex.c:356-473: the loop; `st` are the three flags -/
def loop (handleData : Ptr) (requestType : Nat) (u : Used) (st : List Bool) : M Result := do
  let k ← loadI handleData fK
  if k > 2 then pure .recoveryFailed
  else if k < 0 then ub "index out of bounds"
  else do
  let goOn ← if st[k.toNat]? = some true then pure false else attempt api handleData requestType u k
  if goOn = true then do
    let k ← loadI handleData fK
    if k = 2 then pure .ok
    else do
      store handleData fK (intV (k + 1))
      let st := (st.set k.toNat true).set (k + 1).toNat false
      let k ← loadI handleData fK
      if k ≥ 0 then loop handleData requestType u st else pure .recoveryFailed
  else do
    let st := st.set k.toNat false
    store handleData fK (intV (k - 1))
    let k ← loadI handleData fK
    if k = 0 then api.deinit
    else if k = 1 then do
      let c ← loadPtr handleData fHttp
      api.closeConnection c
      store handleData fHttp (.ptr 0)
    else pure ()
    let k ← loadI handleData fK
    if k ≥ 0 then loop handleData requestType u st else pure .recoveryFailed
partial_fixpoint

/-- httpapiex.c:300-499 -/
def HTTPAPIEX_ExecuteRequest (handle : Ptr) (requestType : Nat) (relativePath : CharPtr)
    (requestHttpHeaders requestContent statusCode responseHttpHeaders responseContent temp dummyStatusCode : Ptr) : M Result := do
  if handle = 0 then pure .invalidArg
  else if requestType ≥ 5 then pure .invalidArg
  else do
  let b ← buildAllRequests handle relativePath requestHttpHeaders requestContent statusCode responseHttpHeaders responseContent temp dummyStatusCode
  match b with
  | none => pure .error
  | some u => do
    let k ← loadI handle fK
    if k = -1 then store handle fK (intV 0) else pure ()
    let result ← loop api handle requestType u [false, false, false]
    dropBuffer u.contentOwn u.content
    dropHeaders u.hdrsOwn u.hdrs
    dropBuffer u.rcontentOwn u.rcontent
    dropHeaders u.rhdrsOwn u.rhdrs
    pure result

/-- httpapiex.c:519-524 -/
def freeLoop (v : Ptr) : (n i : Nat) → M Unit
  | 0, _ => pure ()
  | n + 1, i => do
    let savedOption ← VECTOR_element v i
    let name ← loadOpt savedOption gName
    free name
    let value ← loadOpt savedOption gValue
    free value
    freeLoop v n (i + 1)

/-- httpapiex.c:502-533 -/
def HTTPAPIEX_Destroy (handle : Ptr) : M Unit := do
  if handle ≠ 0 then do
    let k ← loadI handle fK
    if k = 2 then do
      let c ← loadPtr handle fHttp
      api.closeConnection c
      api.deinit
    else pure ()
    let hn ← loadPtr handle fHost
    STRING_delete hn
    let v ← loadPtr handle fOpts
    let vectorSize ← VECTOR_size v
    freeLoop v vectorSize 0
    VECTOR_destroy v
    free handle
  else pure ()

/-- httpapiex.c:535-538 -/
def sameName (value : CharPtr) (element : VPtr) : M Bool := do
  let n ← loadOpt element gName
  let c ← strcmp (.ofPtr n) value
  pure (decide (c = 0))

/-- `VECTOR_push_back(vec, &newOption, 1)`, vector.c:61-88, for an element that is a structure of two pointers (two slots) -/
def pushOption (handle name value : Ptr) : M Nat := do
  if handle = 0 then pure 66
  else
    let es ← loadInt handle Vec.fSize
    let count ← loadInt handle fCount
    let curSize := (es * count) % szMod
    let appendSize := (es * 1) % szMod
    let storage ← loadPtr handle fStorage
    let temp ← reallocS storage ((curSize + appendSize) % szMod / 8)
    if temp = 0 then pure 77
    else
      storeN temp (curSize / 8) ([Val.ptr name, Val.ptr value].take (appendSize / 8))
      store handle fStorage (.ptr temp)
      store handle fCount (.int ((count + 1) % szMod))
      pure 0

/-- httpapiex.c:542-581 -/
def createOrUpdateOption (handleData : Ptr) (optionName : CharPtr) (value : Ptr) : M Nat := do
  let v ← loadPtr handleData fOpts
  let whereIsIt ← VECTOR_find_if v (some (sameName optionName)) (decide (optionName = .null))
  if whereIsIt ≠ .null then do
    let old ← loadOpt whereIsIt gValue
    free old
    storeOpt whereIsIt gValue value
    pure 0
  else do
    let r ← mallocAndStrcpy optionName
    if r.1 ≠ 0 then do
      free value
      pure 561
    else do
      let v ← loadPtr handleData fOpts
      let e ← pushOption v r.2 value
      if e ≠ 0 then do
        free r.2
        free value
        pure 571
      else pure 0

/-- httpapiex.c:583-658 -/
def HTTPAPIEX_SetOption (handle : Ptr) (optionName : CharPtr) (value : Ptr) : M Result := do
  if handle = 0 ∨ optionName = .null ∨ value = 0 then pure .invalidArg
  else do
  let (saveOptionResult, savedOption) ← api.cloneOption optionName value
  if saveOptionResult = .invalidArg then pure .invalidArg
  else if saveOptionResult ≠ .ok then pure .error
  else do
  let e ← createOrUpdateOption handle optionName savedOption
  if e ≠ 0 then pure .error
  else do
  let c ← loadPtr handle fHttp
  if c ≠ 0 then do
    let c ← loadPtr handle fHttp
    let r ← api.setOption c optionName value
    if r = .ok then pure .ok
    else if r = .invalidArg then pure .invalidArg
    else pure .error
  else pure .ok

end
end Verif.Ex
