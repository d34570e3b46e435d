import Verif.KeyLog.Props
import Verif.Agree.World

/-! # C101: examples — the key logs of whole connections -/

namespace Fizz.KeyLog.Example
open Fizz Fizz.Text Fizz.Agree.World

/-- The first byte of the client random (to tell the two ClientHellos apart), label and number of calls of the callback. -/
abbrev Line := Option UInt8 × Label × Nat

def line (e : Seen) : Line := (e.clientRandom.bind (·.val.head?), e.label, e.calls.length)

def clientLog (w : W) : List Line := w.hC.reverse.flatMap fun y => (ClientSM.logged true y.pre y.acts).map line
def serverLog (w : W) : List Line := w.hS.reverse.flatMap fun y => (Server.logged true y.pre y.acts).map line

/-- ECH and early data. -/
def setup5 : Setup := { setup2 true with
  cfgC := { (setup2 true).cfgC with hasEchConfigs := true }
  cfgS := { (setup2 true).cfgS with hasEchDecrypter := true } }

/-- A full handshake and two key updates: both ends use one client random.  (The client also announces the exporter secret and the
resumption master secret, which has no label of its own: `Label` 0.) -/
theorem full_logs :
    clientLog (play setup full) =
      [(some 0, .serverHandshakeTraffic, 1), (some 0, .clientHandshakeTraffic, 1), (some 0, .serverTraffic0, 1),
       (some 0, .clientTraffic0, 1), (some 0, .exporter, 1), (some 0, .rsa, 1), (some 0, .clientTraffic0, 1),
       (some 0, .serverTraffic0, 1)] ∧
    serverLog (play setup full) =
      [(some 0, .clientHandshakeTraffic, 1), (some 0, .serverHandshakeTraffic, 1), (some 0, .serverTraffic0, 1),
       (some 0, .clientTraffic0, 1), (some 0, .serverTraffic0, 1), (some 0, .clientTraffic0, 1)] := by
  decide +kernel

/-- ECH accepted: both ends use the inner random (0); rejected: the outer one (2). -/
theorem ech_logs :
    (∀ l ∈ clientLog (play (setup4 true) ech), l.1 = some 0) ∧ (∀ l ∈ serverLog (play (setup4 true) ech), l.1 = some 0) ∧
    (∀ l ∈ clientLog (play (setup4 false) ech), l.1 = some 2) ∧ (∀ l ∈ serverLog (play (setup4 false) ech), l.1 = some 2) ∧
    (clientLog (play (setup4 true) ech)).length = 6 ∧ (serverLog (play (setup4 false) ech)).length = 4 := by
  decide +kernel

/-- ECH accepted and early data (`C101_early`): the client announces the early secrets with the outer random, the server with the
inner one. -/
theorem early_logs :
    clientLog (play setup5 early) =
      [(some 2, .clientEarlyTraffic, 1), (some 2, .earlyExporter, 1),
       (some 0, .serverHandshakeTraffic, 1), (some 0, .clientHandshakeTraffic, 1), (some 0, .serverTraffic0, 1),
       (some 0, .clientTraffic0, 1), (some 0, .exporter, 1), (some 0, .rsa, 1)] ∧
    serverLog (play setup5 early) =
      [(some 0, .clientEarlyTraffic, 1), (some 0, .clientHandshakeTraffic, 1), (some 0, .serverHandshakeTraffic, 1),
       (some 0, .serverTraffic0, 1), (some 0, .clientTraffic0, 1)] ∧
    (play setup5 early).sS.echStatus = .accepted := by
  decide +kernel

/-- The histories are those of two runs. -/
example : Agree.World.Ok setup5 (play setup5 early) := play_ok _ _

end Fizz.KeyLog.Example
