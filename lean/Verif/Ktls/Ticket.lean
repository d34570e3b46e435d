import Verif.Ktls.Read
import Verif.ClientSM.Machine

/-!
# Kernel TLS: tickets of the converted client

Model of `fizz/experimental/ktls/AsyncFizzBaseKTLS.cpp` and `FizzKTLSCallback.cpp`, and C85 about it.
-/

namespace Fizz.Ktls

open Fizz.Codec Fizz.Record Fizz.Crypto
open Fizz.Server (deref derefPtr ksSecret PeerCert)
open Fizz.ClientSM (Cfg Inp St Action ticketEarly)
open Fizz.Client (CachedPsk PskType)

/-- What the handler keeps of the client's state (`AsyncFizzBaseKTLS.cpp:60-74`).  Certificates, group and
ALPN are kept with the state itself. -/
structure Kept where
  rms : Bytes
  version : UInt16
  cipher : UInt16
  time : Int
  state : St

/-- `makeTicketHandler`, the captures (`AsyncFizzBaseKTLS.cpp:60-74`). -/
def keep (s : St) : Res Kept := do
  let rms ← deref s.resumptionSecret
  let version ← deref s.version
  let cipher ← deref s.cipher
  let time ← deref s.handshakeTime
  pure ⟨rms, version, cipher, time, s⟩

/-- The handler itself (`AsyncFizzBaseKTLS.cpp:75-95`, with `setPskAndSecret`, `27-45`, and
`getMaxEarlyDataSize`, `47-58`, which is the state machine's): what it puts into the cache.  `h` is the hash of
the copy of the key scheduler (`AsyncFizzBaseKTLS.h:121`); `now`, `now2` are the two
readings of the clock. -/
def Kept.handle (k : Kept) (h : HashAlg) (now now2 : Int) (m : NewSessionTicket) : Res ClientSM.Psk := do
  let nonce ← derefPtr m.ticket_nonce
  let secret ← ksSecret (KS.getResumptionSecret h k.rms nonce)
  let expires ← Fizz.Time.checked (now2 + m.ticket_lifetime.toNat * 1000000000)
  let early ← ticketEarly m.extensions
  pure ⟨m.ticket, secret, .resumption, k.version, k.cipher, k.state.group, k.state.serverCert,
    k.state.clientCert, early, k.state.alpn, m.ticket_age_add, now, expires, k.time⟩

/-- The callback of the new socket (`FizzKTLSCallback.cpp:13-21`): without a handler (no PSK identity or no
cache, `AsyncFizzBaseKTLS.h:46-63`) tickets are ignored. -/
def Kept.callback (k : Option Kept) (h : HashAlg) (now now2 : Int) : Handler := fun m =>
  match k with
  | none => none
  | some k =>
    match k.handle h now now2 m with
    | .ok _ => none
    | .error f => some f

/-- C85: what a converted client stores for a ticket is what the unconverted one would have stored: same
secret, same session, same times, same limits; and where the one fails, so does the other. -/
theorem C85_same_psk (cfg : Cfg) (inp : Inp) (s : St) (k : Kept) (hk : keep s = .ok k)
    (h : HashAlg) (hh : ∀ c, s.cipher = some c → cfg.hashOf c = .ok h) (hks : s.ks ≠ none)
    (m : NewSessionTicket) :
    ClientSM.onNewSessionTicket cfg inp s m =
      (k.handle h inp.now inp.now2 m).map fun psk => [.newCachedPsk psk] := by
  unfold keep at hk
  simp only [Res.bind_eq_ok] at hk
  obtain ⟨rms, h1, v, h2, c, h3, t, h4, hk⟩ := hk
  cases Except.ok.inj hk
  obtain ⟨ks, hks⟩ := Option.ne_none_iff_exists'.1 hks
  have hc : s.cipher = some c := by
    cases hc : s.cipher with
    | none => rw [hc] at h3; cases h3
    | some c' => rw [hc] at h3; cases h3; rfl
  unfold ClientSM.onNewSessionTicket Kept.handle
  rw [hks, h1, h2, h3, h4]
  simp only [show derefPtr (some ks) = .ok ks from rfl, Res.ok_bind, hh c hc]
  cases derefPtr m.ticket_nonce with
  | error f => rfl
  | ok nonce =>
    simp only [Res.ok_bind]
    cases ksSecret (KS.getResumptionSecret h rms nonce) with
    | error f => rfl
    | ok secret =>
      simp only [Res.ok_bind]
      cases Fizz.Time.checked (inp.now2 + m.ticket_lifetime.toNat * 1000000000) with
      | error f => rfl
      | ok e =>
        simp only [Res.ok_bind]
        cases ticketEarly m.extensions <;> rfl

/-- C85 (what goes wrong): a ticket the handler fails on, for example one whose early_data extension does not
parse, makes the exception leave the read instead of ending the connection with an error, as it does on an
unconverted client. -/
theorem C85_throws (k : Kept) (h : HashAlg) (now now2 : Int) (m : NewSessionTicket) (f : Failure)
    (hf : k.handle h now now2 m = .error f) {c : Conn} (ho : c.over = none)
    (hcb : c.sock.callback = some (Kept.callback (some k) h now now2)) {wire b : Bytes}
    (hw : Framed wire (.newSessionTicket m)) (hl : wire.length ≤ 4 + 128 * 1024)
    (hb : c.sock.unparsed.getD [] ++ b = wire) :
    (c.step (.bytes (some (true, 22)) b)).over = some (.thrown f) := by
  rw [step_handshake ho hcb]
  have hdec := decode_whole hw hl []
  rw [List.append_nil] at hdec
  have hm : Kept.callback (some k) h now now2 m = some f := by simp only [Kept.callback, hf]
  unfold processHandshake
  cases hu : c.sock.unparsed with
  | none =>
    rw [hu] at hb
    simp only [Option.getD_none, List.nil_append] at hb
    simp only [hb, hdec, processMessage, hm]
    rfl
  | some u =>
    rw [hu] at hb
    simp only [Option.getD_some] at hb
    simp only [hb, hdec, processMessage, hm]
    rfl

end Fizz.Ktls
