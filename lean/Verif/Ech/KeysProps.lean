import Verif.Ech.KeysSpec
import Verif.Ech.World

/-!
# C65, continued: the keys that protect the inner hello are the draft's
-/

namespace Fizz.Ech
open Fizz Fizz.Codec Fizz.Crypto Fizz.Kex Fizz.Hpke

/-- The KDF identifiers (RFC 9180 table 3). -/
def Spec.kdfHash (kdf : UInt16) : Option HashFn :=
  match kdf.toNat with | 1 => some .sha256 | 2 => some .sha384 | 3 => some .sha512 | _ => none

/-- The AEAD identifiers (RFC 9180 table 5), as TLS cipher suites. -/
def Spec.aeadSuite (aead : UInt16) : Option UInt16 :=
  match aead.toNat with | 1 => some 0x1301 | 2 => some 0x1302 | 3 => some 0x1303 | _ => none

theorem infoParam_eq_ok {c bs} : infoParam c = .ok bs → bs = Spec.info c := by
  intro h
  simp only [infoParam, Res.bind_eq_ok, encodeConfigContent_eq_ok, writeConfig, writeU16, writeBuf_eq_ok, Res.pure_eq,
    Except.ok.injEq] at h
  obtain ⟨_, ⟨-, rfl⟩, _, ⟨_, rfl, _, ⟨-, rfl⟩, rfl⟩, rfl⟩ := h
  rfl

theorem hashFunction_eq_ok {k f} (h : hashFunction k = .ok f) :
    Spec.kdfHash k = some f ∧ kdfId f = k := by
  unfold hashFunction at h
  split at h
  · rename_i hk; subst hk; cases h; exact ⟨rfl, rfl⟩
  split at h
  · rename_i hk; subst hk; cases h; exact ⟨rfl, rfl⟩
  split at h
  · rename_i hk; subst hk; cases h; exact ⟨rfl, rfl⟩
  cases h

theorem cipherSuite_eq_ok {k cs} (h : cipherSuite k = .ok cs) :
    Spec.aeadSuite k = some cs ∧ aeadId cs = .ok k := by
  unfold cipherSuite at h
  split at h
  · rename_i hk; subst hk; cases h; exact ⟨rfl, rfl⟩
  split at h
  · rename_i hk; subst hk; cases h; exact ⟨rfl, rfl⟩
  split at h
  · rename_i hk; subst hk; cases h; exact ⟨rfl, rfl⟩
  cases h

theorem kexGroup_eq_ok {k g} (h : kexGroup k = .ok g) : dhkemId g = .ok k := by
  unfold kexGroup at h
  split at h
  · rename_i hk; subst hk; cases h; rfl
  split at h
  · rename_i hk; subst hk; cases h; rfl
  split at h
  · rename_i hk; subst hk; cases h; rfl
  split at h
  · rename_i hk; subst hk; cases h; rfl
  cases h

theorem hpkeSuiteId_eq_ok {kem g s f cs id} (h1 : kexGroup kem = .ok g) (h2 : hashFunction s.kdf = .ok f)
    (h3 : cipherSuite s.aead = .ok cs) (h : hpkeSuiteId g f cs = .ok id) : id = Spec.hpkeSuite kem s := by
  unfold hpkeSuiteId at h
  rw [kexGroup_eq_ok h1, (cipherSuite_eq_ok h3).2, (hashFunction_eq_ok h2).2] at h
  exact (Except.ok.inj h).symm

variable {K : Kex}

/-- The primitives of the factory: real hash functions, and AEADs with keys and nonces of at most 255
bytes. -/
structure Spec.GoodPrims (P : Prims) : Prop where
  hash : ∀ f H, P.hash f = .ok H → H.Ok
  cipher : ∀ s C, P.cipher s = .ok C → C.keyLength ≤ 255 ∧ C.ivLength ≤ 255

/-- The context has the keys of RFC 9180 for the inputs. -/
structure Spec.Keyed (ctx : Context) (H : HashAlg) (C : Cipher) (i : Hpke.Spec.Inputs) : Prop where
  cipher : ctx.cipher = C
  key : ctx.key = Hpke.Spec.key H.spec i C.keyLength
  nonce : ctx.iv = Hpke.Spec.baseNonce H.spec i C.ivLength
  exporter : ctx.exporterSecret = Hpke.Spec.exporterSecret H.spec i

theorem keySchedule_keyed {P : Prims} (g : Spec.GoodPrims P) {p : Params} {H C f cs ctx} (hH : P.hash f = .ok H)
    (hC : P.cipher cs = .ok C) (h1 : p.hkdf = .v1 H) (h2 : p.cipher = C) (h : keySchedule p = .ok ctx) :
    Spec.Keyed ctx H C p.inputs ∧ ctx.seq = p.seq ∧ ctx.role = p.role := by
  have ok := g.hash _ _ hH
  obtain ⟨c1, c2⟩ := g.cipher _ _ hC
  have hpos := ok.pos
  subst h2
  obtain ⟨c, e, a1, a2, -, a3, a4, a5, a6, -, -⟩ := C35_schedule p H ok h1 (by omega) (by omega) (by omega) (by omega)
  rw [h] at e
  cases e
  exact ⟨⟨a6, a1, a2, a3⟩, a4, a5⟩

/-- C65: the client's context has the keys that RFC 9180 gives for mode base, the config's KEM, the chosen suite,
the ephemeral key and the info string of the draft; its first message has sequence number 0. -/
theorem C65_sender (P : Prims) (g : Spec.GoodPrims P) (kex : K.State) (gen use : K.Rand) (n : Negotiated)
    (enc : Bytes) (c : Context) (hs : setupSender P kex gen use n = .ok (enc, c)) :
    ∃ f H cs C s dh s', Spec.kdfHash n.suite.kdf = some f ∧ P.hash f = .ok H ∧
      Spec.aeadSuite n.suite.aead = some cs ∧ P.cipher cs = .ok C ∧
      K.generateKeyPair kex gen = .ok s ∧ K.generateSharedSecret s use n.config.key.publicKey = .ok (dh, s') ∧
      K.getKeyShare s' = .ok enc ∧
      Spec.Keyed c H C (Spec.inputs H.spec n.config n.suite dh enc) ∧ c.seq = 0 ∧ c.role = .sender := by
  simp only [setupSender, getSetupParam, Res.bind_eq_ok, Res.pure_eq, Except.ok.injEq] at hs
  obtain ⟨f, h1, H, h2, grp, h3, info, h4, p, ⟨grp', h3', f', h1', cs, h5, id, h6, H', h2', C, h7, rfl⟩, hs⟩ := hs
  rw [h3] at h3'; cases h3'
  rw [h1] at h1'; cases h1'
  rw [h2] at h2'; cases h2'
  simp only [setupWithEncap, encapMode, Res.bind_eq_ok, Res.pure_eq, Except.ok.injEq, Prod.exists, Prod.mk.injEq] at hs
  obtain ⟨ss, e, k1, c', k2, rfl, rfl⟩ := hs
  obtain ⟨kid, s, dh, s', m1, m2, m3, m4, rfl⟩ :=
    (C35_kem ⟨kex, none, grp, .v1 H⟩ H (g.hash _ _ h2) rfl [] []).2 gen use _ _ _ k1
  have m1 : dhkemId grp = .ok kid := m1
  rw [kexGroup_eq_ok h3] at m1
  cases m1
  obtain ⟨q1, q2, q3⟩ := keySchedule_keyed g h2 h7 rfl rfl k2
  refine ⟨f, H, cs, C, s, dh, s', (hashFunction_eq_ok h1).1, h2, (cipherSuite_eq_ok h5).1, h7, m2, m3, m4, ?_, q2, q3⟩
  have hid := hpkeSuiteId_eq_ok h3 h1 h5 h6
  have hin := infoParam_eq_ok h4
  rw [hid, hin] at q1
  exact q1

/-- C65: and the server's, for the encapsulated key it received and the private key of the config; the sequence
number is the one it is given (1 after a HelloRetryRequest). -/
theorem C65_receiver (P : Prims) (g : Spec.GoodPrims P) (kex : K.State) (use : K.Rand) (cfg : ConfigContent)
    (su : Suite) (enc : Bytes) (seq : UInt64) (c : Context)
    (hkey : ∀ dh s', K.generateSharedSecret kex use enc = .ok (dh, s') → K.getKeyShare s' = .ok cfg.key.publicKey)
    (hs : setupReceiver P kex use cfg su enc seq = .ok c) :
    ∃ f H cs C dh s', Spec.kdfHash su.kdf = some f ∧ P.hash f = .ok H ∧
      Spec.aeadSuite su.aead = some cs ∧ P.cipher cs = .ok C ∧
      K.generateSharedSecret kex use enc = .ok (dh, s') ∧
      Spec.Keyed c H C (Spec.inputs H.spec cfg su dh enc) ∧ c.seq = seq ∧ c.role = .receiver := by
  simp only [setupReceiver, Res.bind_eq_ok] at hs
  obtain ⟨grp, h3, f, h1, H, h2, cs, h5, id, h6, C, h7, H', h2', info, h4, hs⟩ := hs
  rw [h2] at h2'; cases h2'
  simp only [setupWithDecap, decapMode, decap, Res.bind_eq_ok, Prod.exists] at hs
  obtain ⟨ss, ⟨dh, s', k1, pk, k2, k3⟩, k4⟩ := hs
  rw [hkey _ _ k1] at k2
  cases k2
  rw [(C35_kem ⟨kex, none, grp, .v1 H⟩ H (g.hash _ _ h2) rfl _ _).1 _ (kexGroup_eq_ok h3)] at k3
  cases k3
  obtain ⟨q1, q2, q3⟩ := keySchedule_keyed g h2 h7 rfl rfl k4
  refine ⟨f, H, cs, C, dh, s', (hashFunction_eq_ok h1).1, h2, (cipherSuite_eq_ok h5).1, h7, k1, ?_, q2, q3⟩
  have hid := hpkeSuiteId_eq_ok h3 h1 h5 h6
  have hin := infoParam_eq_ok h4
  rw [hid, hin] at q1
  exact q1

/-- The primitives of the example are such; its sender is set up, and so is the receiver with the config's key. -/
example : Spec.GoodPrims World.prims ∧
    setupSender (K := toyKex) World.prims none (World.rnd 4) (World.rnd 0) World.negotiated =
      .ok (World.encOf, World.ctxOf) ∧
    toyKex.getKeyShare (some (9 : UInt8) : Option UInt8) = .ok World.config.key.publicKey :=
  ⟨⟨fun _ _ h => by cases h; exact toyHash_ok, fun _ _ h => by cases h; decide⟩, World.sender_ok, rfl⟩

end Fizz.Ech
