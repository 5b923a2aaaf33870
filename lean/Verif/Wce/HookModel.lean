import Verif.Mb.Model
/-!
# Model of `SSLValidateCertHook`, `adapters/httpapi_wince.c:47-121`

The function that decides, for Windows CE, whether the certificate of a server is accepted.  The CryptoAPI is a parameter (`Crypto`).  `pvArg`, `dwChainLen` and `dwFlags`
are not used by the code.
-/
namespace Verif.Wce
open Verif.Sas (text)

abbrev Text := List UInt8

/-- `CryptoAPI` -/
structure Crypto where
  /-- `CertCreateCertificateContext(X509_ASN_ENCODING, data, size)` -/
  create : CharPtr → Nat → M Ptr
  /-- `CertOpenSystemStore(NULL, name)` -/
  openStore : Text → M Ptr
  /-- `CertFindCertificateInStore(store, X509_ASN_ENCODING, 0, CERT_FIND_ISSUER_NAME, &cert->pCertInfo->Issuer, prev)` -/
  find : (store cert prev : Ptr) → M Ptr
  /-- `CertCompareCertificate(X509_ASN_ENCODING, a->pCertInfo, b->pCertInfo)` -/
  compare : (a b : Ptr) → M Bool
  /-- `CertCloseStore(store, 0)` -/
  close : Ptr → M Unit
  /-- `CertFreeCertificateContext` -/
  free : Ptr → M Unit

/-- what the function returns: SSL_ERR_OKAY, SSL_ERR_NO_CERT, SSL_ERR_CERT_UNKNOWN, SSL_ERR_FAILED -/
inductive Verdict | okay | noCert | certUnknown | failed
  deriving DecidableEq, Repr

/-- SSL_CERT_X509 of schnlsp.h -/
abbrev SSL_CERT_X509 : Nat := 1
/-- adapters/httpapi_wince.c:36-38 -/
abbrev SSL_OPT_NO_CHECK : Nat := 0
abbrev SSL_OPT_ISSUER_CHECK : Nat := 1
abbrev SSL_OPT_STRICT_CHECK : Nat := 2
/-- adapters/httpapi_wince.c:40 -/
abbrev SSL_OPT_DEFAULT : Nat := SSL_OPT_STRICT_CHECK

section
variable (api : Crypto)

/-- adapters/httpapi_wince.c:81-107; `g`: the address of `g_SslOptions`; the result: whether `retcode` is set to SSL_ERR_OKAY, and `pCertInStore` -/
def hookFind (g hCertStore pCertPassed pPrevCertContext : Ptr) : M (Bool × Ptr) := do
  let pCertInStore ← api.find hCertStore pCertPassed pPrevCertContext
  if pCertInStore ≠ 0 then do
    let o ← loadInt g 0
    if o = SSL_OPT_ISSUER_CHECK then pure (true, pCertInStore) else
    if o = SSL_OPT_STRICT_CHECK then do
      let b ← api.compare pCertInStore pCertPassed
      if b then pure (true, pCertInStore) else hookFind g hCertStore pCertPassed pCertInStore
    else hookFind g hCertStore pCertPassed pCertInStore
  else pure (false, pCertInStore)
partial_fixpoint

/-- adapters/httpapi_wince.c:71-113; `names`: the stores that are left; `pCertInStore` is NULL when a store was searched to its end -/
def hookStores (g pCertPassed : Ptr) : List Text → (pCertInStore : Ptr) → M (Bool × Ptr)
  | [], pCertInStore => pure (false, pCertInStore)
  | name :: names, pCertInStore => do
    let hCertStore ← api.openStore name
    if hCertStore = 0 then hookStores g pCertPassed names pCertInStore else do
    let x ← hookFind api g hCertStore pCertPassed 0
    api.close hCertStore
    if x.1 then pure x else hookStores g pCertPassed names x.2

/-- adapters/httpapi_wince.c:52 -/
def systemStores : List Text := [text "CA", text "ROOT", text "MY"]

/-- adapters/httpapi_wince.c:47-121; `pCertChain`: a BLOB, `cbSize` and `pBlobData` -/
def SSLValidateCertHook (g : Ptr) (dwType : Nat) (pCertChain : Ptr) : M Verdict := do
  if dwType ≠ SSL_CERT_X509 then pure .certUnknown else do
  let o ← loadInt g 0
  if o = SSL_OPT_NO_CHECK then pure .okay else do
  let d ← loadPtr pCertChain 1
  let n ← loadInt pCertChain 0
  let pCertPassed ← api.create (.ofPtr d) n
  if pCertPassed = 0 then pure .failed else do
  let x ← hookStores api g pCertPassed systemStores 0
  if x.2 ≠ 0 then do
    api.free x.2
    api.free pCertPassed
    pure (if x.1 then .okay else .noCert)
  else do
    api.free pCertPassed
    pure (if x.1 then .okay else .noCert)
end
end Verif.Wce
