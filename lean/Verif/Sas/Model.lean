import Verif.Hmac.Model
import Verif.Base64.Model
import Verif.Url.Model
import Verif.Crt.Model
import Verif.Strings.Model
/-!
# Model of `/repo/src/sastoken.c`

`||` chains are evaluated from left to right up to the first
operand that is true; each is a function that returns whether the condition holds.
-/
namespace Verif.Sas
open Verif.Hmac Verif.Buffer Verif.Strings Verif.Base64 Verif.Url Verif.Crt

/-- `a || b` -/
def orElse (a b : M Bool) : M Bool := do
  let x ← a
  if x then pure true else b

/-- `f(…) != 0` -/
def failed (x : M Nat) : M Bool := do
  let e ← x
  pure (e != 0)

/-- The literals of the file, as bytes without the terminator. -/
def text (s : String) : List UInt8 := s.toList.map fun c => UInt8.ofNat c.toNat

/-- sastoken.c:68-70 -/
def buildToBeHashed (toBeHashed scope te : Ptr) : M Bool :=
  orElse (failed (STRING_concat_with_STRING toBeHashed scope)) <|
  orElse (failed (STRING_concat toBeHashed (.str (text "\n")))) <|
  failed (STRING_concat toBeHashed (.heap te 0))

/-- sastoken.c:96-103: the operands that append to the result -/
def buildResult (result scope urlEncodedSignature te keyName : Ptr) : M Bool :=
  orElse (failed (STRING_copy result (.str (text "SharedAccessSignature sr=")))) <|
  orElse (failed (STRING_concat_with_STRING result scope)) <|
  orElse (failed (STRING_concat result (.str (text "&sig=")))) <|
  orElse (failed (STRING_concat_with_STRING result urlEncodedSignature)) <|
  orElse (failed (STRING_concat result (.str (text "&se=")))) <|
  orElse (failed (STRING_concat result (.heap te 0))) <|
  orElse (failed (STRING_concat result (.str (text "&skn=")))) <|
  failed (STRING_concat_with_STRING result keyName)

/-- sastoken.c:93: the arguments are evaluated, in one of the orders the language allows (they only read), and the hash computed -/
def computeHash (l : Locals) (decodedKey toBeHashed hash : Ptr) : M HMACSHA256_RESULT := do
  let kl ← BUFFER_length decodedKey
  let ml ← STRING_length toBeHashed
  let k ← BUFFER_u_char decodedKey
  let m ← STRING_c_str toBeHashed
  HMACSHA256_ComputeHash l (.ofPtr k) kl (.ofPtr m) ml hash

/-- sastoken.c:78-103: the condition of the innermost `if`, and the values of `base64Signature` and `urlEncodedSignature` after it -/
def attempt (l : Locals) (te decodedKey toBeHashed hash result scope keyName : Ptr) : M (Bool × Ptr × Ptr) := do
  let r ← computeHash l decodedKey toBeHashed hash
  if r ≠ .OK then pure (true, 0, 0)
  else
    let base64Signature ← Base64_Encode hash
    if base64Signature = 0 then pure (true, 0, 0)
    else
      let urlEncodedSignature ← URL_Encode base64Signature
      if urlEncodedSignature = 0 then pure (true, base64Signature, 0)
      else
        let bad ← buildResult result scope urlEncodedSignature te keyName
        pure (bad, base64Signature, urlEncodedSignature)

/-- sastoken.c:78-115: the innermost block; the result is the new value of `result` -/
def sign (l : Locals) (te decodedKey toBeHashed hash result scope keyName : Ptr) : M Ptr := do
  let x ← attempt l te decodedKey toBeHashed hash result scope keyName
  let result ← if x.1 then do
      STRING_delete result
      pure 0
    else pure result
  STRING_delete x.2.1
  STRING_delete x.2.2
  pure result

/-- sastoken.c:55-59: `(hash = BUFFER_new()) == NULL || (toBeHashed = STRING_new()) == NULL || (result = STRING_new()) == NULL`;
the variables were NULL before -/
def prepare : M (Bool × Ptr × Ptr × Ptr) := do
  let hash ← BUFFER_new
  if hash = 0 then pure (true, 0, 0, 0)
  else
    let toBeHashed ← STRING_new
    if toBeHashed = 0 then pure (true, hash, 0, 0)
    else
      let result ← STRING_new
      if result = 0 then pure (true, hash, toBeHashed, 0)
      else pure (false, hash, toBeHashed, result)

/-- sastoken.c:54-119 -/
def create (l : Locals) (te decodedKey scope keyName : Ptr) : M Ptr := do
  let x ← prepare
  let hash := x.2.1
  let toBeHashed := x.2.2.1
  let result := x.2.2.2
  let result ←
    if x.1 then pure result
    else do
      let bad ← buildToBeHashed toBeHashed scope te
      if bad then do
        STRING_delete result
        pure 0
      else sign l te decodedKey toBeHashed hash result scope keyName
  STRING_delete toBeHashed
  BUFFER_delete hash
  pure result

/-- sastoken.c:27-124, after the declarations -/
def body (l : Locals) (te key scope keyName : Ptr) (expiry : UInt64) : M Ptr := do
  if key = 0 ∨ scope = 0 ∨ keyName = 0 then pure 0
  else
    let k ← STRING_c_str key
    let decodedKey ← Base64_Decoder (.ofPtr k)
    if decodedKey = 0 then pure 0
    else
      let e ← size_tToString te 32 expiry
      let result ← if e ≠ 0 then pure 0 else create l te decodedKey scope keyName
      BUFFER_delete decodedKey
      pure result

/-- sastoken.c:23-125.  `l` is the uninitialised storage used by `hmac`; `te` is the address of the automatic array `tokenExpirationTime`
(32 bytes), which is initialised on entry and ceases to exist on return. -/
def SASToken_Create (l : Locals) (te key scope keyName : Ptr) (expiry : UInt64) : M Ptr := do
  storeN te 0 (List.replicate 32 (.byte 0))
  let result ← body l te key scope keyName expiry
  free te
  pure result

end Verif.Sas
