import Verif.Ex.Model
import Verif.Sas.Model
import Verif.Tick.Model
/-!
# Model of `/repo/src/httpapiexsas.c`

`get_time` (adapters/agenttime.c) is a parameter; `time_t` and `double` are as in `Verif.Tick.Model`; `size_t` has 64 bits.  `strings.c`,
`httpheaders.c`, `sastoken.c` and `httpapiex.c` are their models.  `LogError` is left out.

The automatic array of `SASToken_Create` is given by its address `te`; the model of that function releases it at its end.  On the paths on
which `SASToken_Create` is not called, the address is released by `noCall`.
-/
namespace Verif.Exs
open Verif.Ex Verif.Strings Verif.Headers
open Verif.Sas (text SASToken_Create)

/-! Fields of `HTTPAPIEX_SAS_STATE`, httpapiexsas.c:22-27 -/
abbrev fKey : Nat := 0
abbrev fUri : Nat := 1
abbrev fName : Nat := 2

/-- "if (state->f) STRING_delete(state->f)", httpapiexsas.c:80-91 -/
def deleteField (state : Ptr) (f : Nat) : M Unit := do
  let s ← loadPtr state f
  if s ≠ 0 then do
    let s ← loadPtr state f
    STRING_delete s
  else pure ()

/-- httpapiexsas.c:73-95 -/
def HTTPAPIEX_SAS_Destroy (handle : Ptr) : M Unit := do
  if handle ≠ 0 then do
    deleteField handle fKey
    deleteField handle fUri
    deleteField handle fName
    free handle
  else pure ()

/-- "(state->f = STRING_clone(s)) == NULL", httpapiexsas.c:57-59 -/
def cloneFails (state : Ptr) (f : Nat) (s : Ptr) : M Bool := do
  let c ← STRING_clone s
  store state f (.ptr c)
  pure (decide (c = 0))

/-- httpapiexsas.c:57-59: the condition -/
def clonesFail (state key uriResource keyName : Ptr) : M Bool :=
  Sas.orElse (cloneFails state fKey key) <|
  Sas.orElse (cloneFails state fUri uriResource) <|
  cloneFails state fName keyName

/-- httpapiexsas.c:30-71 -/
def HTTPAPIEX_SAS_Create (key uriResource keyName : Ptr) : M Ptr := do
  if key = 0 then pure 0
  else if uriResource = 0 then pure 0
  else if keyName = 0 then pure 0
  else do
  let state ← mallocS 3
  if state ≠ 0 then do
    store state fKey (.ptr 0)
    store state fUri (.ptr 0)
    store state fName (.ptr 0)
    let bad ← clonesFail state key uriResource keyName
    if bad then do
      HTTPAPIEX_SAS_Destroy state
      pure 0
    else pure state
  else pure 0

/-- not in the code: see the head of the file -/
def noCall (te : Ptr) : M Unit := free te

section
variable (api : Http) (get_time : M Int)

/-- httpapiexsas.c:121-136 -/
def useToken (requestHttpHeadersHandle newSASToken : Ptr) : M Unit := do
  if newSASToken ≠ 0 then do
    let s ← STRING_c_str newSASToken
    let _ ← HTTPHeaders_ReplaceHeaderNameValuePair requestHttpHeadersHandle (.str (text "Authorization")) (.ofPtr s)
    STRING_delete newSASToken
  else pure ()

/-- httpapiexsas.c:100-140 -/
def refresh (l : Hmac.Locals) (te sasHandle requestHttpHeadersHandle : Ptr) : M Unit := do
  if sasHandle ≠ 0 then
    if requestHttpHeadersHandle ≠ 0 then do
      let v ← HTTPHeaders_FindHeaderValue requestHttpHeadersHandle (.str (text "Authorization"))
      if v ≠ 0 then do
        let currentTime ← get_time
        if currentTime = -1 then noCall te
        else do
          let expiry ← Tick.toUint64 (Tick.toDouble (Tick.difftime currentTime 0 + 3600))
          let key ← loadPtr sasHandle fKey
          let uriResource ← loadPtr sasHandle fUri
          let keyName ← loadPtr sasHandle fName
          let newSASToken ← SASToken_Create l te key uriResource keyName (UInt64.ofNat expiry)
          useToken requestHttpHeadersHandle newSASToken
      else noCall te
    else noCall te
  else noCall te

/-- httpapiexsas.c:97-144 -/
def HTTPAPIEX_SAS_ExecuteRequest (l : Hmac.Locals) (te sasHandle handle : Ptr) (requestType : Nat) (relativePath : CharPtr)
    (requestHttpHeaders requestContent statusCode responseHeaders responseContent temp dummyStatusCode : Ptr) : M Result := do
  refresh get_time l te sasHandle requestHttpHeaders
  HTTPAPIEX_ExecuteRequest api handle requestType relativePath requestHttpHeaders requestContent statusCode responseHeaders responseContent
    temp dummyStatusCode

end
end Verif.Exs
