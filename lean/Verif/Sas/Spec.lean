import Verif.Hmac.Spec
import Verif.Base64.Spec
import Verif.Url.Spec
import Verif.Crt.Spec
/-!
# Specification: the shared access signature token
-/
namespace Verif.Sas
open Verif.Sha Verif.Hmac Verif.Base64 Verif.Url

def ascii (s : String) : List UInt8 := s.toList.map fun c => UInt8.ofNat c.toNat

/-- The signature: HMAC-SHA256, under the decoded key, of the scope, a line feed and the expiry; in base64, percent-encoded. -/
def signature (key scope expiry : List UInt8) : List UInt8 :=
  encode (rfc4648 (rfc2104 Fips.SHA256 key (scope ++ ascii "\n" ++ expiry)))

/-- `SharedAccessSignature sr=<scope>&sig=<signature>&se=<expiry>&skn=<keyName>` -/
def token (key scope keyName expiry : List UInt8) : List UInt8 :=
  ascii "SharedAccessSignature sr=" ++ scope ++ ascii "&sig=" ++ signature key scope expiry ++ ascii "&se=" ++ expiry ++ ascii "&skn=" ++ keyName

end Verif.Sas
