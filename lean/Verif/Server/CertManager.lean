import Verif.Base

/-!
# Certificate selection — model of `fizz/server/DefaultCertManager.{h,cpp}`

Strings are byte strings.  `std::map`/`std::unordered_map` are partial functions.  A `SelfCert` is
an opaque identifier with the three attributes the manager asks for.
-/

namespace Fizz.CertManager

/-- A `SelfCert` as seen by the manager: `getIdentity`, `getAltIdentities`, `getSigSchemes`
(`fizz/protocol/Certificate.h`). -/
structure Cert where
  uid : Nat
  identity : Bytes
  altIdentities : List Bytes
  sigSchemes : List UInt16
  deriving DecidableEq

/-- `MatchType` (`fizz/protocol/CertMatch.h`). -/
inductive MatchType where
  | direct | default
  deriving DecidableEq

/-- `DefaultCertManager` data members (`fizz/server/DefaultCertManager.h:58-60`). -/
structure Manager where
  certs : Bytes → Option (UInt16 → Option Cert) := fun _ => none
  identMap : Bytes → Option Cert := fun _ => none
  default_ : Bytes := []

/-- `folly::toLowerAscii` on one byte. -/
def lower (b : UInt8) : UInt8 := if 65 ≤ b ∧ b ≤ 90 then b + 32 else b

/-- `'*'` -/
def star : UInt8 := 42
/-- `'.'` -/
def dot : UInt8 := 46

/-- `getKeyFromIdent` (`fizz/server/DefaultCertManager.cpp:94-108`). -/
def getKeyFromIdent (ident : Bytes) : Res Bytes :=
  match ident with
  | [] => .error (Failure.rt "empty identity")
  | c :: rest => .ok (if c = star then rest.map lower else (c :: rest).map lower)

/-- Function update: `map[key] = value`. -/
def upd {α β : Type} [DecidableEq α] (f : α → β) (a : α) (b : β) : α → β :=
  fun x => if x = a then b else f x

/-- The loop over the signature schemes (`fizz/server/DefaultCertManager.cpp:121-127`): a scheme
already present is left alone. -/
def addSchemes (cert : Cert) (m : UInt16 → Option Cert) : List UInt16 → (UInt16 → Option Cert)
  | [] => m
  | s :: ss => addSchemes cert (match m s with | some _ => m | none => upd m s (some cert)) ss

/-- `addCertIdentity` (`fizz/server/DefaultCertManager.cpp:110-128`). -/
def addCertIdentity (mgr : Manager) (cert : Cert) (ident : Bytes) : Res Manager :=
  match getKeyFromIdent ident with
  | .error f => .error f
  | .ok key =>
    if key = [] ∨ key = [dot] ∨ star ∈ key then .error (Failure.rt "invalid identity")
    else
      let schemeMap := (mgr.certs key).getD (fun _ => none)
      .ok { mgr with certs := upd mgr.certs key (some (addSchemes cert schemeMap cert.sigSchemes)) }

/-- Adds a list of identities; on an exception the ones already added stay
(`fizz/server/DefaultCertManager.cpp:141-149`). -/
def addIdents (mgr : Manager) (cert : Cert) : List Bytes → Manager × Res Unit
  | [] => (mgr, .ok ())
  | i :: is =>
    match addCertIdentity mgr cert i with
    | .error f => (mgr, .error f)
    | .ok mgr' => addIdents mgr' cert is

/-- `addCert(cert, defaultCert)` (`fizz/server/DefaultCertManager.cpp:138-158`); returns the state
left behind even when it throws. -/
def addCert (mgr : Manager) (cert : Cert) (defaultCert : Bool) : Manager × Res Unit :=
  match addIdents mgr cert (cert.identity :: cert.altIdentities.filter (· ≠ cert.identity)) with
  | (mgr', .error f) => (mgr', .error f)
  | (mgr', .ok ()) =>
    match (if defaultCert then getKeyFromIdent cert.identity else .ok mgr'.default_) with
    | .error f => (mgr', .error f)
    | .ok d =>
      ({ mgr' with
          default_ := d
          identMap := match mgr'.identMap cert.identity with
            | some _ => mgr'.identMap
            | none => upd mgr'.identMap cert.identity (some cert) }, .ok ())

/-- `findCert` (`fizz/server/DefaultCertManager.cpp:20-39`). -/
def findCert (mgr : Manager) (key : Bytes) (supported peer : List UInt16) : Option (Cert × UInt16) :=
  match mgr.certs key with
  | none => none
  | some m =>
    match supported.find? (fun s => (m s).isSome && decide (s ∈ peer)) with
    | none => none
    | some s => (m s).map (·, s)

/-- `getCert(sni, supportedSigSchemes, peerSigSchemes)`
(`fizz/server/DefaultCertManager.cpp:41-83`). -/
def getCert (mgr : Manager) (sni : Option Bytes) (supported peer : List UInt16) :
    Option (Cert × UInt16 × MatchType) :=
  let direct : Option (Cert × UInt16) :=
    match sni with
    | none => none
    | some name =>
      let key := name.map lower
      match findCert mgr key supported peer with
      | some r => some r
      | none =>
        if dot ∈ key then findCert mgr (key.dropWhile (· ≠ dot)) supported peer else none
  match direct with
  | some (c, s) => some (c, s, .direct)
  | none =>
    match findCert mgr mgr.default_ supported peer with
    | some (c, s) => some (c, s, .default)
    | none => none

/-- `getCert(identity)` (`fizz/server/DefaultCertManager.cpp:85-92`). -/
def getCertByIdentity (mgr : Manager) (identity : Bytes) : Option Cert := mgr.identMap identity

/-- A sequence of `addCert`/`addCertAndSetDefault` calls, some of which may throw. -/
def build (calls : List (Cert × Bool)) : Manager :=
  calls.foldl (fun m c => (addCert m c.1 c.2).1) {}

end Fizz.CertManager
