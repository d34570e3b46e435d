import Verif.Cred.Delegated
import Verif.Server.CertManager

/-!
# C88: the client's choice of a certificate

Model of `fizz/client/CertManager.cpp` and
`fizz/extensions/delegatedcred/DelegatedCredentialClientCertManager.cpp`.  A certificate is what the
manager sees of a `SelfCert`; `std::map` is a partial function.
-/

namespace Fizz.ClientCert
open Fizz.Codec Fizz.CertManager

/-- `client::CertManager::certs_` (`fizz/client/CertManager.h:52`). -/
abbrev Mgr := UInt16 → Option Cert

/-- The loop of `addCert` (`fizz/client/CertManager.cpp:53-61`). -/
def addSchemes (cert : Cert) (over : Bool) : List UInt16 → Mgr → Mgr
  | [], m => m
  | s :: ss, m =>
    addSchemes cert over ss (if m s = none ∨ over = true then upd m s (some cert) else m)

/-- `addCert(cert, overrideExistingEntry)` (`fizz/client/CertManager.cpp:46-62`); `none` is a null
pointer. -/
def addCert (m : Mgr) (cert : Option Cert) (over : Bool) : Mgr :=
  match cert with
  | none => m
  | some c => addSchemes c over c.sigSchemes m

/-- `getCert` (`fizz/client/CertManager.cpp:17-36`); the match type is always `Default`. -/
def getCert (m : Mgr) : List UInt16 → List UInt16 → Option (Cert × UInt16)
  | [], _ => none
  | s :: ss, peer =>
    match m s with
    | none => getCert m ss peer
    | some c => if s ∈ peer then some (c, s) else getCert m ss peer

/-- `hasCerts` (`fizz/client/CertManager.cpp:64-66`). -/
def hasCerts (m : Mgr) : Prop := ∃ s, m s ≠ none

/-- `DelegatedCredentialClientCertManager`: its own map and `dcMgr_`
(`DelegatedCredentialClientCertManager.h:56-58`). -/
structure DcMgr where
  base : Mgr := fun _ => none
  dc : Mgr := fun _ => none

/-- `DelegatedCredentialClientCertManager::getCert`
(`DelegatedCredentialClientCertManager.cpp:15-45`). -/
def DcMgr.getCert (m : DcMgr) (supported peer : List UInt16) (exts : List Extension) :
    Res (Option (Cert × UInt16)) :=
  match Fizz.Cred.getDelegatedCredentialSupport exts with
  | .error f => .error f
  | .ok none => .ok (ClientCert.getCert m.base supported peer)
  | .ok (some algs) =>
    match ClientCert.getCert m.dc supported algs with
    | some r => .ok (some r)
    | none => .ok (ClientCert.getCert m.base supported peer)

/-- One call on the plain manager: `addCert` or `addCertAndOverride`. -/
structure Add where
  cert : Option Cert
  override : Bool

/-- One call on the delegated credential manager: into the plain map, or
`addDelegatedCredential(AndOverride)` (`DelegatedCredentialClientCertManager.cpp:47-57`). -/
inductive DcAdd where
  | plain (a : Add)
  | delegated (a : Add)

/-- The manager after a history of calls. -/
def run (m : Mgr) (ops : List Add) : Mgr := ops.foldl (fun m a => addCert m a.cert a.override) m

def DcMgr.add (m : DcMgr) : DcAdd → DcMgr
  | .plain a => { m with base := addCert m.base a.cert a.override }
  | .delegated a => { m with dc := addCert m.dc a.cert a.override }

def DcMgr.run (m : DcMgr) (ops : List DcAdd) : DcMgr := ops.foldl DcMgr.add m

end Fizz.ClientCert
