import Verif.Access.Model

/-! # What a 0-RTT client says about the connection: specification -/

namespace Fizz.Access.Spec
open Fizz Fizz.ClientSM

/-- The application has been told that it may send early data. -/
def EarlyTold (seen : List Action) : Prop := ∃ n, .reportEarlyHandshakeSuccess n ∈ seen

/-- The handshake has succeeded. -/
def Succeeded (seen : List Action) : Prop := ∃ b, .reportHandshakeSuccess b ∈ seen

/-- The accessors give this certificate of the server, this certificate of ours, and this protocol. -/
def Says (k : Sock) (server client : Option Cert) (alpn : Option Bytes) : Prop :=
  getPeerCertificate k = .ok server ∧ getSelfCertificate k = .ok client ∧
  getApplicationProtocol k = .ok (alpn.getD [])

/-- The connection is like the session: the version (or TLS 1.3 itself in place of its last draft), cipher suite,
application protocol, and the identities of both ends. -/
structure Like (e : Setup) (psk : Psk) (s : St) : Prop where
  version : s.version = some psk.version ∨ (s.version = some 0x0304 ∧ psk.version = 0xfb1a)
  cipher : s.cipher = some psk.cipher
  alpn : s.alpn = psk.alpn
  server : s.serverCert.map e.identity = psk.serverCert.map e.identity
  client : s.clientCert.map e.identity = psk.clientCert.map e.identity

end Fizz.Access.Spec
