import Verif.Agree.World
import Verif.Ech.AcceptProps
import Verif.Ech.DecryptProps
import Verif.Ech.PadProps

/-!
# A connection with the real ECH functions

The two state machines of `Verif.Agree.World`, with the model of ECH plugged in: HPKE with a toy key exchange and a
toy AEAD, the decrypter, and the acceptance confirmation.
-/

namespace Fizz.Ech.World
open Fizz Fizz.Codec Fizz.Crypto Fizz.Hpke Fizz.Kex
open Fizz.Agree.World (Setup Op play cfgC inpC cfgS inpS trace Seen)

/-- A toy AEAD with a tag of 16 bytes. -/
def cipher : Cipher where
  keyLength := 3
  ivLength := 9
  enc := fun k n a m => .ok (m.map (fun b => b ^^^ (k.headD 0) ^^^ (n.getLastD 0)) ++ List.replicate 16 (UInt8.ofNat a.length))
  dec := fun k n a c =>
    if c.drop (c.length - 16) = List.replicate 16 (UInt8.ofNat a.length) then
      some ((c.take (c.length - 16)).map (fun b => b ^^^ (k.headD 0) ^^^ (n.getLastD 0)))
    else none

theorem cipher_good : Spec.GoodAead cipher := by
  intro k n a m ct h
  have := Except.ok.inj h
  subst this
  refine ⟨?_, by simp⟩
  have hx : ∀ b x y : UInt8, b ^^^ x ^^^ y ^^^ x ^^^ y = b := by
    intro b x y
    rw [UInt8.xor_assoc (b ^^^ x) y x, UInt8.xor_comm y x, ← UInt8.xor_assoc (b ^^^ x), UInt8.xor_assoc b,
      UInt8.xor_self, UInt8.xor_zero, UInt8.xor_assoc, UInt8.xor_self, UInt8.xor_zero]
  show (if List.drop _ _ = _ then _ else _) = _
  rw [List.length_append, List.length_map, List.length_replicate, Nat.add_sub_cancel,
    List.drop_left' (by simp), if_pos rfl, List.take_left' (by simp), List.map_map]
  congr 1
  rw [← List.map_id m]
  simp only [List.map_map]
  apply List.map_congr_left
  intro b _
  simp [hx]

def prims : Prims := ⟨fun _ => .ok toyHash, fun _ => .ok cipher⟩

theorem prims_good : ∀ s C, prims.cipher s = .ok C → Spec.GoodAead C := by
  intro s C h
  rw [← Except.ok.inj h]
  exact cipher_good

/-- The server's configuration, with its key, and another one. -/
def config : ConfigContent := ⟨⟨7, 0x20, [5 * 9], [⟨1, 1⟩]⟩, 30, [112], []⟩
def params : List (DecParam toyKex) := [⟨{ config with key := { config.key with configId := 6 } }, some 3⟩, ⟨config, some 9⟩]
/-- What the client negotiated. -/
def negotiated : Negotiated := ⟨config, 7, 30, ⟨1, 1⟩⟩
def rnd (x : UInt8) : toyKex.Rand := x
def sender : Res (Bytes × Context) := setupSender (K := toyKex) prims none (rnd 4) (rnd 0) negotiated

def encOf : Bytes := match sender with | .ok p => p.1 | .error _ => []
def ctxOf : Context := match sender with
  | .ok p => p.2
  | .error _ => ⟨0, cipher, [], [], [], .v1 toyHash, [], .sender⟩

/-- The extension the client does not repeat in the inner hello: key_share. -/
def outerTypes : List UInt16 := [51]

/-- The second hello is the one with a share for group 23. -/
def isSecond (i : ClientHello) : Bool :=
  match getClientKeyShare i.extensions with
  | .ok (some k) => k.client_shares.any (·.group == 23)
  | _ => false

def setup : Setup where
  cfgC := { cfgC with hasEchConfigs := true }
  inpC := { inpC with
    echEncrypt := fun i o g =>
      if isSecond i then body (encryptRetry negotiated { ctxOf with seq := 1 } outerTypes i o g)
      else body (encryptFirst negotiated encOf ctxOf outerTypes i o g)
    echAccepted := checkAccepted toyHash
    echAcceptedHrr := checkAcceptedHrr toyHash }
  cfgS := { cfgS with
    hasEchDecrypter := true
    getOuterEch := fun es => (getExtension tyEch readOuterEch es).map
      (Option.map fun e => ⟨⟨e.suite.kdf, e.suite.aead⟩, e.configId, e.enc⟩)
    getInnerEch := getExtension tyEch readInnerEch }
  inpS := { inpS with
    echDecrypt := fun m => (decryptHello prims params (rnd 0) m).map
      (Option.map fun d => (d.opened.chlo, d.opened.encoding, 0))
    echDecryptHrr := fun m _ => (decryptHelloHrr prims params (rnd 0) m
      (some { ctxOf with role := .receiver, seq := 1 }) none).map fun r => (r.chlo, r.encoding)
    echConfirm := setConfirmation toyHash
    echConfirmHrr := setConfirmationHrr toyHash }

def setupRetry : Setup := { setup with cfgS := { setup.cfgS with supportedGroups := [23] } }

/-- ECH is accepted: the client checks the confirmation (C69) of the hello the server has opened (C65, C70). -/
theorem ech_trace : trace (play setup Agree.World.ech).hC =
    [[.wrote [(.plaintext, 22)]], [.secret .serverHandshakeTraffic, .secret .clientHandshakeTraffic], [], [], [], [],
     [.secret .serverAppTraffic, .secret .clientAppTraffic, .secret .exporterMaster, .secret .resumptionMaster,
      .wrote [(.handshake, 22)], .success false], [.ticket]] ∧
    (play setup Agree.World.ech).sS.echStatus = .accepted := by
  decide +kernel

/-- The same after a HelloRetryRequest. -/
theorem retry_trace : trace (play setupRetry Agree.World.retried).hC =
    [[.wrote [(.plaintext, 22)]], [.wrote [(.plaintext, 22)]],
     [.secret .serverHandshakeTraffic, .secret .clientHandshakeTraffic], [], [], [], [],
     [.secret .serverAppTraffic, .secret .clientAppTraffic, .secret .exporterMaster, .secret .resumptionMaster,
      .wrote [(.handshake, 22)], .success false], [.ticket]] ∧
    (play setupRetry Agree.World.retried).sS.echStatus = .accepted := by
  decide +kernel

/-! ## The hypotheses of C65, C66, C67 and C70 -/

/-- An inner hello. -/
def inner (name : Option Bytes) : ClientHello where
  random := Server.Example.zeros
  legacy_session_id := [1, 2, 3]
  cipher_suites := [0x1301]
  legacy_compression_methods := [0]
  extensions := Spec.withName [⟨43, [2, 3, 4]⟩, ⟨51, [0, 2, 9, 9]⟩] [⟨13, [0, 2, 4, 3]⟩, ⟨0xfe0d, [1]⟩] name

def greased : Option ClientPresharedKey := some ⟨[⟨[4, 4], 7⟩], [⟨[5, 5, 5]⟩]⟩

/-- The outer hello for it. -/
def outer (name : Option Bytes) : Res ClientHello :=
  ClientSM.encryptHello setup.inpC true (inner name) Agree.World.twos [112] greased

theorem sender_ok : setupSender (K := toyKex) prims none (rnd 4) (rnd 0) negotiated = .ok (encOf, ctxOf) := by
  have h : ∃ p, sender = .ok p := by
    unfold sender setupSender getSetupParam
    exact ⟨_, rfl⟩
  obtain ⟨p, hp⟩ := h
  show sender = _
  unfold encOf ctxOf
  rw [hp]

/-- The hypotheses of `C65_first` about the hello hold. -/
theorem inner_compressible : Spec.Compressible outerTypes (inner (some [97, 98])) := by
  refine ⟨by decide +kernel, by decide +kernel, ⟨[⟨43, [2, 3, 4]⟩], [⟨51, [0, 2, 9, 9]⟩], _, rfl, ?_, ?_, ?_⟩, by decide +kernel⟩ <;>
    decide +kernel

/-- And so does all of `C65_first` and `C70_accept`: the hello is sent, and opened. -/
example : (outer (some [97, 98])).toOption.isSome = true ∧
    params.find? (fun p => negotiated.configId == p.config.key.configId) = some ⟨config, some (9 : UInt8)⟩ ∧
    (match outer (some [97, 98]) with
     | .ok o => (decryptHello prims params (rnd 0) o).map (Option.map fun (d : Decrypted) => (d.opened.chlo, d.configId))
     | .error f => .error f) = .ok (some (inner (some [97, 98]), 7)) := by
  refine ⟨by decide +kernel, rfl, by decide +kernel⟩

/-- The payload does not show which of these names is meant, or that there is none (C67). -/
example : ([some [97, 98], some (List.replicate 30 99), none].map fun n =>
    ((encodeInner (inner n) 30 outerTypes).map List.length).toOption) = [some 128, some 128, some 128] := by
  decide +kernel

/-- With another byte in the outer hello the payload is not opened by an AEAD that has sealed only this hello
(the hypothesis of C66). -/
def onceCipher (a ct pt : Bytes) : Cipher where
  keyLength := 3
  ivLength := 9
  enc := fun _ _ _ _ => .ok ct
  dec := fun _ _ a' ct' => if a' = a ∧ ct' = ct then some pt else none

/-- A hello that the context below has sealed. -/
def once : ClientHello :=
  { inner none with extensions := [⟨10, [0, 2, 0, 29]⟩, Spec.outerEchWire ⟨⟨1, 1⟩, 7, [], [1, 2, 3, 4]⟩] }

def onceAad : Bytes := match outerAad once with | .ok a => a | .error _ => []
def oncePlain : Bytes :=
  match encodeClientHello { inner none with legacy_session_id := [] } with | .ok b => b | .error _ => []
def onceCtx : Context := ⟨1, onceCipher onceAad [1, 2, 3, 4] oncePlain, [1], List.replicate 9 0, [], .v1 toyHash, [], .receiver⟩

example : Spec.Aad once ⟨⟨1, 1⟩, 7, [], [1, 2, 3, 4]⟩ [] onceAad ∧
    (∀ nonce a' ct pt, Record.createIV onceCtx.seq onceCtx.cipher.ivLength onceCtx.iv = .ok nonce →
      onceCtx.cipher.dec onceCtx.key nonce a' ct = some pt → a' = onceAad ∧ ct = [1, 2, 3, 4]) ∧
    ((decryptWith once [1, 2, 3, 4] onceCtx).map (·.chlo) = .ok (inner none)) ∧
    (decryptWith { once with random := Agree.World.eights } [1, 2, 3, 4] onceCtx).toOption.isNone = true := by
  refine ⟨?_, ?_, by decide +kernel, by decide +kernel⟩
  · have h : outerAad once = .ok onceAad := by decide +kernel
    obtain ⟨e, t, he⟩ := outerAad_eq_ok.1 h
    obtain ⟨f1, f2⟩ := aad_ext he
    have g1 : findExtension once.extensions tyEch = some (Spec.outerEchWire ⟨⟨1, 1⟩, 7, [], [1, 2, 3, 4]⟩) := by decide +kernel
    have g2 : readOuterEch (Spec.outerEchWire ⟨⟨1, 1⟩, 7, [], [1, 2, 3, 4]⟩).extension_data =
        .ok (⟨⟨1, 1⟩, 7, [], [1, 2, 3, 4]⟩, []) := by decide +kernel
    rw [g1] at f1
    have f3 := congrArg Extension.extension_data (Option.some.inj f1)
    simp only at f3
    rw [← f3, g2] at f2
    have := Except.ok.inj f2
    simp only [Prod.mk.injEq] at this
    obtain ⟨rfl, rfl⟩ := this
    exact he
  · intro nonce a' ct pt _ h
    simp only [onceCtx, onceCipher] at h
    split at h
    · next hc => exact hc
    · cases h

end Fizz.Ech.World
