import Verif.Util.Text
import Verif.Server.Machine
import Verif.ClientSM.Machine

/-!
# C101: secrets handed to the application and the trace point

Model of the `SecretAvailable` action of `fizz/server/AsyncFizzServer-inl.h:407-418` and
`fizz/client/AsyncFizzClient-inl.h:700-712`, and of `AsyncFizzBase::secretAvailable` with its
`SecretVisitor` (`fizz/protocol/AsyncFizzBase.cpp:525-616`).
-/

namespace Fizz.KeyLog
open Fizz Fizz.KS Fizz.Text Fizz.Codec

/-- The functions of `AsyncFizzBase::SecretCallback` (`fizz/protocol/AsyncFizzBase.h:52-78`). -/
inductive Callback
  | externalPskBinderAvailable | resumptionPskBinderAvailable | clientEarlyTrafficSecretAvailable
  | earlyExporterSecretAvailable | clientHandshakeTrafficSecretAvailable
  | serverHandshakeTrafficSecretAvailable | exporterMasterSecretAvailable
  | resumptionMasterSecretAvailable | clientAppTrafficSecretAvailable | serverAppTrafficSecretAvailable
  deriving DecidableEq, Repr

/-- `SecretVisitor` (`fizz/protocol/AsyncFizzBase.cpp:525-607`): the function of the callback that gets
the secret. -/
def visit : SecretType → Option Callback
  | .early .externalPskBinder => some .externalPskBinderAvailable
  | .early .resumptionPskBinder => some .resumptionPskBinderAvailable
  | .early .clientEarlyTraffic => some .clientEarlyTrafficSecretAvailable
  | .early .earlyExporter => some .earlyExporterSecretAvailable
  | .early .echAcceptConfirmation => none
  | .early .hrrEchAcceptConfirmation => none
  | .handshake .clientHandshakeTraffic => some .clientHandshakeTrafficSecretAvailable
  | .handshake .serverHandshakeTraffic => some .serverHandshakeTrafficSecretAvailable
  | .handshake .echAcceptConfirmation => none
  | .master .exporterMaster => some .exporterMasterSecretAvailable
  | .master .resumptionMaster => some .resumptionMasterSecretAvailable
  | .app .clientAppTraffic => some .clientAppTrafficSecretAvailable
  | .app .serverAppTraffic => some .serverAppTrafficSecretAvailable

/-- `AsyncFizzBase::secretAvailable` (`fizz/protocol/AsyncFizzBase.cpp:609-615`): nothing without a
callback. -/
def secretAvailable (hasCallback : Bool) (t : SecretType) (secret : Bytes) : List (Callback × Bytes) :=
  if hasCallback then
    match visit t with
    | some c => [(c, secret)]
    | none => []
  else []

/-- What one `SecretAvailable` action does: the arguments of the trace point
`fizz_probe_secret_available` and the calls of the application's callback. -/
structure Seen where
  /-- the bytes of the client random; `none`: an empty `Optional` would be dereferenced -/
  clientRandom : Option Random
  label : Label
  secret : Bytes
  calls : List (Callback × Bytes)

/-- The action (`AsyncFizzServer-inl.h:407-418`, `AsyncFizzClient-inl.h:700-712,771-773`). -/
def onSecret (hasCallback : Bool) (random : Option Random) (t : SecretType) (secret : Bytes) : Seen :=
  ⟨random, probeLabel t, secret, secretAvailable hasCallback t secret⟩

end Fizz.KeyLog

namespace Fizz.Server
open Fizz.KS Fizz.Text

/-- The type of the secret (`fizz/server/ServerProtocol.cpp`, the arguments of `SecretAvailable`). -/
def SecretKind.type : SecretKind → SecretType
  | .clientEarlyTraffic => .early .clientEarlyTraffic
  | .clientHandshakeTraffic => .handshake .clientHandshakeTraffic
  | .serverHandshakeTraffic => .handshake .serverHandshakeTraffic
  | .clientAppTraffic => .app .clientAppTraffic
  | .serverAppTraffic => .app .serverAppTraffic

/-- `ActionMoveVisitor::operator()(SecretAvailable&)` for every such action of a list, which the visitor
executes one by one (`fizz/server/AsyncFizzServer-inl.h:296-298,383-386,407-418`); `getClientRandom` reads the
state as the actions before have left it. -/
def logged (hasCallback : Bool) : St → List Action → List KeyLog.Seen
  | _, [] => []
  | s, .secretAvailable k b :: as =>
    KeyLog.onSecret hasCallback s.clientRandom k.type b :: logged hasCallback s as
  | s, .mutate f :: as => logged hasCallback (f s) as
  | s, _ :: as => logged hasCallback s as

end Fizz.Server

namespace Fizz.ClientSM
open Fizz.KS Fizz.Text

/-- The type of the secret (`fizz/client/ClientProtocol.cpp`, the arguments of `SecretAvailable`). -/
def SecretKind.type : SecretKind → SecretType
  | .clientEarlyTraffic => .early .clientEarlyTraffic
  | .earlyExporter => .early .earlyExporter
  | .clientHandshakeTraffic => .handshake .clientHandshakeTraffic
  | .serverHandshakeTraffic => .handshake .serverHandshakeTraffic
  | .exporterMaster => .master .exporterMaster
  | .resumptionMaster => .master .resumptionMaster
  | .clientAppTraffic => .app .clientAppTraffic
  | .serverAppTraffic => .app .serverAppTraffic

/-- The same for the client (`fizz/client/AsyncFizzClient-inl.h:700-712,771-773`). -/
def logged (hasCallback : Bool) : St → List Action → List KeyLog.Seen
  | _, [] => []
  | s, .secretAvailable k b :: as =>
    KeyLog.onSecret hasCallback s.clientRandom k.type b :: logged hasCallback s as
  | s, .mutate f :: as => logged hasCallback (f s) as
  | s, _ :: as => logged hasCallback s as

end Fizz.ClientSM
