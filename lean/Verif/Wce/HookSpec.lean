import Verif.Wce.HookModel
import Verif.Mb.Spec
/-! # When the certificate of a server is accepted (`SSLValidateCertHook`), and what is assumed of the CryptoAPI -/
namespace Verif.Wce
open Verif.Sas (text)
open Verif.Mb (Bytes)

/-- a certificate: issuer, serial number, and all the rest (key, names, dates, signature) -/
structure Cert where
  issuer : Text
  serial : Text
  rest : Text
  deriving DecidableEq, Repr

/-- calls of the CryptoAPI, with what they returned -/
inductive CEv where
  | create (p : Nat)
  /-- a store is opened (`h ≠ 0`); its certificates -/
  | openStore (name : Text) (h : Nat) (l : List Cert)
  | find (h q prev p : Nat)
  | compare (p q : Nat)
  | close (h : Nat)
  | free (p : Nat)
  deriving DecidableEq, Repr

/-- what is held: contexts of certificates, open stores -/
inductive Item where
  | ctx (p : Nat)
  | store (h : Nat)
  deriving DecidableEq, Repr

/-- What is held after a call, given what is held before (`none`: it uses or releases something that is not held). -/
def hold (l : List Item) : CEv → Option (List Item)
  | .create p => some (if p = 0 then l else .ctx p :: l)
  | .openStore _ h _ => some (if h = 0 then l else .store h :: l)
  | .find h q prev p => if .store h ∈ l ∧ .ctx q ∈ l ∧ (prev = 0 ∨ .ctx prev ∈ l) then
      let l' := if prev = 0 then l else l.erase (.ctx prev)
      some (if p = 0 then l' else .ctx p :: l')
    else none
  | .compare p q => if .ctx p ∈ l ∧ .ctx q ∈ l then some l else none
  | .close h => if .store h ∈ l then some (l.erase (.store h)) else none
  | .free p => if .ctx p ∈ l then some (l.erase (.ctx p)) else none

/-- what is held after calls -/
def holdAll (l : List Item) : List CEv → Option (List Item)
  | [] => some l
  | e :: es => (hold l e).bind fun l' => holdAll l' es

/-- the stores that were tried, in order -/
def tried (evs : List CEv) : List Text := evs.filterMap fun
  | .openStore n _ _ => some n
  | _ => none
/-- the certificates of the stores that were opened -/
def known (evs : List CEv) : List Cert := evs.flatMap fun
  | .openStore _ h l => if h = 0 then [] else l
  | _ => []

/-- `d` vouches for `c`, with the options `opt`: same issuer; for the strict check, and same serial number -/
def Vouches (opt : Nat) (c d : Cert) : Prop := (opt = 1 ∧ d.issuer = c.issuer) ∨ (opt = 2 ∧ d.issuer = c.issuer ∧ d.serial = c.serial)

/-- The verdict, and the calls made. -/
def HookE (rel : Prop) (Decodes : Text → Cert → Prop) (opt type : Nat) (bs : Text) (r : Verdict) (evs : List CEv) : Prop :=
  if type ≠ 1 then r = .certUnknown ∧ evs = []
  else if opt = 0 then r = .okay ∧ evs = []
  else (r = .failed ∧ evs = [.create 0] ∧ (rel → ∀ c, ¬ Decodes bs c)) ∨
    ∃ c, Decodes bs c ∧ holdAll [] evs = some [] ∧ tried evs <+: [text "CA", text "ROOT", text "MY"] ∧
      ((r = .okay ∧ ∃ d ∈ known evs, Vouches opt c d) ∨
       (r = .noCert ∧ tried evs = [text "CA", text "ROOT", text "MY"] ∧ (rel → ∀ d ∈ known evs, ¬ Vouches opt c d)))

/-- what the CryptoAPI gives -/
structure CReps where
  /-- its own memory, after exactly these calls -/
  Net : List CEv → HProp
  /-- a context of a certificate; the store in which it was found, and the certificates after it there -/
  Ctx : Nat → Cert → Option (Nat × List Cert) → HProp
  /-- an open store -/
  Store : Nat → List Cert → HProp

/-- `CertFindCertificateInStore`: the certificates `l` of the store are those still to be searched -/
def Found (rel : Prop) (R : CReps) (h q prev : Nat) (c : Cert) (all l : List Cert) (o : Option (Nat × List Cert)) (tr : List CEv) (p : Ptr) : HProp :=
  if p = 0 then (rel → ∀ d ∈ l, d.issuer ≠ c.issuer) ⋏ R.Net (tr ++ [.find h q prev 0]) ∗ R.Store h all ∗ R.Ctx q c o
  else ∃∃ (d : Cert) (l1 l2 : List Cert), (l = l1 ++ d :: l2 ∧ d.issuer = c.issuer ∧ ∀ e ∈ l1, e.issuer ≠ c.issuer) ⋏
    R.Net (tr ++ [.find h q prev p]) ∗ R.Store h all ∗ R.Ctx q c o ∗ R.Ctx p d (some (h, l2))

/-- Contract of the CryptoAPI.  `CertFindCertificateInStore` goes on from the context it is passed, and releases it; the contexts it finds are valid until they are released, also if the store is closed
before.  `CertCompareCertificate` compares issuers and serial numbers, as its documentation says. `Decodes bs c`: the encoding of `c` is `bs`. -/
structure CHonours (rel : Prop) (api : Crypto) (R : CReps) (Decodes : Text → Cert → Prop) : Prop where
  create : ∀ V s bs tr, Bytes V s bs → Triple rel (R.Net tr ∗ V) (api.create s bs.length) (fun p =>
    if p = 0 then (rel → ∀ c, ¬ Decodes bs c) ⋏ R.Net (tr ++ [.create 0]) ∗ V
    else ∃∃ c : Cert, (Decodes bs c) ⋏ R.Net (tr ++ [.create p]) ∗ R.Ctx p c none ∗ V)
  openStore : ∀ name tr, Triple rel (R.Net tr) (api.openStore name) (fun h =>
    if h = 0 then R.Net (tr ++ [.openStore name 0 []]) else ∃∃ l : List Cert, R.Net (tr ++ [.openStore name h l]) ∗ R.Store h l)
  first : ∀ h l q c o tr, Triple rel (R.Net tr ∗ R.Store h l ∗ R.Ctx q c o) (api.find h q 0) (Found rel R h q 0 c l l o tr)
  next : ∀ h all q c o p d l tr, p ≠ 0 → Triple rel (R.Net tr ∗ R.Store h all ∗ R.Ctx q c o ∗ R.Ctx p d (some (h, l))) (api.find h q p)
    (Found rel R h q p c all l o tr)
  compare : ∀ p d o q c o' tr, Triple rel (R.Net tr ∗ R.Ctx p d o ∗ R.Ctx q c o') (api.compare p q) (fun b =>
    (b = (d.issuer = c.issuer ∧ d.serial = c.serial)) ⋏ R.Net (tr ++ [.compare p q]) ∗ R.Ctx p d o ∗ R.Ctx q c o')
  close : ∀ h l tr, Triple rel (R.Net tr ∗ R.Store h l) (api.close h) (fun _ => R.Net (tr ++ [.close h]))
  free : ∀ p d o tr, Triple rel (R.Net tr ∗ R.Ctx p d o) (api.free p) (fun _ => R.Net (tr ++ [.free p]))

end Verif.Wce
