import Verif.Hpke.Model
import Verif.Hpke.Spec
import Verif.Crypto.HkdfProps
import Verif.Record.WriteProps

/-! # C35: HPKE -/

namespace Fizz.Hpke
open Fizz Fizz.Crypto Fizz.Kex

/-! ## Conformance -/

theorem labeledExtract_eq {H : HashAlg} (ok : H.Ok) (salt : Bytes) (label : String) (ikm suite : Bytes) :
    (Hkdf.v1 H).labeledExtract salt label ikm suite = .ok (Spec.LabeledExtract H.spec suite salt label ikm) :=
  extract_eq ok _ _

theorem labeledExpand_eq {H : HashAlg} (ok : H.Ok) (prk : Bytes) (label : String) (info : Bytes) (L : Nat) (suite : Bytes)
    (hk : prk.length = H.hashLen) (hl : L ≤ 255 * H.hashLen) (hL : L < 2 ^ 16) :
    (Hkdf.v1 H).labeledExpand prk label info L suite = .ok (Spec.LabeledExpand H.spec suite prk label info L) := by
  unfold Hkdf.labeledExpand
  rw [if_neg (by omega)]
  exact expand_eq ok _ _ _ hk hl

theorem labeledExtract_len {H : HashAlg} (ok : H.Ok) (suite salt : Bytes) (label : String) (ikm : Bytes) :
    (Spec.LabeledExtract H.spec suite salt label ikm).length = H.hashLen := HMAC_length ok _ _

/-- The inputs of the key schedule as the RFC names them. -/
def Params.inputs (p : Params) : Spec.Inputs :=
  { mode := p.mode.byte, shared := p.sharedSecret, info := p.info,
    psk := (p.psk.map (·.psk)).getD [], pskId := (p.psk.map (·.id)).getD [], suite := p.suiteId }

/-- C35: the key schedule is that of RFC 9180. -/
theorem C35_schedule (p : Params) (H : HashAlg) (ok : H.Ok) (hh : p.hkdf = .v1 H)
    (hk : p.cipher.keyLength ≤ 255 * H.hashLen) (hk' : p.cipher.keyLength < 2 ^ 16)
    (hn : p.cipher.ivLength ≤ 255 * H.hashLen) (hn' : p.cipher.ivLength < 2 ^ 16) :
    ∃ c, keySchedule p = .ok c ∧ c.key = Spec.key H.spec p.inputs p.cipher.keyLength ∧
      c.iv = Spec.baseNonce H.spec p.inputs p.cipher.ivLength ∧ c.iv.length = p.cipher.ivLength ∧
      c.exporterSecret = Spec.exporterSecret H.spec p.inputs ∧ c.seq = p.seq ∧ c.role = p.role ∧
      c.cipher = p.cipher ∧ c.hkdf = p.hkdf ∧ c.suiteId = p.suiteId := by
  have hpos := ok.pos
  have hle := ok.le
  have hmax := ok.max
  unfold keySchedule
  rw [hh]
  simp only [labeledExtract_eq ok, Res.ok_bind]
  have hs := labeledExtract_len ok p.suiteId p.sharedSecret "secret" ((p.psk.map (·.psk)).getD [])
  rw [labeledExpand_eq ok _ _ _ _ _ hs hk hk', labeledExpand_eq ok _ _ _ _ _ hs hn hn',
    labeledExpand_eq ok _ _ _ (Hkdf.v1 H).H.hashLen _ hs (show H.hashLen ≤ 255 * H.hashLen by omega)
      (show H.hashLen < 2 ^ 16 by omega)]
  exact ⟨_, rfl, rfl, rfl, Expand_length ok _ _ _, rfl, rfl, rfl, rfl, rfl, rfl⟩

/-- C35: the shared secret of the KEM is the RFC's, over the Diffie-Hellman value and `concat(enc, pkRm)`. -/
theorem C35_kem {K : Kex} (d : Dhkem K) (H : HashAlg) (ok : H.Ok) (hh : d.hkdf = .v1 H) (dh ctx : Bytes) :
    (∀ id, dhkemId d.group = .ok id → extractAndExpand d dh ctx = .ok (Spec.ExtractAndExpand H.spec id.toNat dh ctx)) ∧
    (∀ gen use pkR ss enc, encap d gen use pkR = .ok (ss, enc) → ∃ id s dh s', dhkemId d.group = .ok id ∧
      K.generateKeyPair d.kex gen = .ok s ∧ K.generateSharedSecret s use pkR = .ok (dh, s') ∧
      K.getKeyShare s' = .ok enc ∧ ss = Spec.ExtractAndExpand H.spec id.toNat dh (enc ++ pkR)) := by
  have hpos := ok.pos
  have hle := ok.le
  have hmax := ok.max
  have key : ∀ dh ctx id, dhkemId d.group = .ok id →
      extractAndExpand d dh ctx = .ok (Spec.ExtractAndExpand H.spec id.toNat dh ctx) := by
    intro dh ctx id hid
    unfold extractAndExpand kemSuiteId
    rw [hid, hh]
    simp only [Res.ok_bind, Res.pure_eq, labeledExtract_eq ok]
    exact labeledExpand_eq ok _ _ _ _ _ (labeledExtract_len ok _ _ _ _) (show H.hashLen ≤ 255 * H.hashLen by omega)
      (show H.hashLen < 2 ^ 16 by omega)
  refine ⟨fun id hid => key dh ctx id hid, fun gen use pkR ss enc h => ?_⟩
  unfold encap at h
  simp only [Res.bind_eq_ok, Prod.exists, Res.pure_eq, Except.ok.injEq, Prod.mk.injEq] at h
  obtain ⟨s, e0, dh', s', e1, k, e2, ss', e3, rfl, rfl⟩ := h
  cases hid : dhkemId d.group with
  | error e =>
    unfold extractAndExpand kemSuiteId at e3
    rw [hid] at e3
    cases e3
  | ok id =>
    rw [key _ _ id hid] at e3
    exact ⟨id, s, dh', s', rfl, e0, e1, e2, (Except.ok.inj e3).symm⟩

/-- C35: the nonce of each message is the RFC's. -/
theorem C35_nonce (seq : UInt64) (iv : Bytes) (h : 8 ≤ iv.length) :
    Record.createIV seq iv.length iv = .ok (Spec.computeNonce iv seq.toNat) := by
  unfold Record.createIV Spec.computeNonce Record.xorBytes
  rw [if_neg (by omega), if_neg (by simp)]
  have : List.replicate (iv.length - 8) 0 ++ beEnc 8 seq.toNat = Spec.i2osp seq.toNat iv.length := by
    unfold Spec.i2osp
    have hlt : seq.toNat < 256 ^ 8 := seq.toNat_lt
    have key : ∀ (k w v : Nat), v < 256 ^ w → beEnc (k + w) v = List.replicate k 0 ++ beEnc w v := by
      intro k w v hv
      induction k with
      | zero => simp
      | succ k ih =>
        rw [show k + 1 + w = (k + w) + 1 by omega]
        have hv' : v < 256 ^ (k + w) := Nat.lt_of_lt_of_le hv (Nat.pow_le_pow_right (by omega) (by omega))
        have : beEnc (k + w + 1) v = 0 :: beEnc (k + w) v := by
          have := beEnc_beDec (0 :: beEnc (k + w) v)
          simp only [List.length_cons, beEnc_length] at this
          rw [← this]
          congr 1
          have h2 : beDec (0 :: beEnc (k + w) v) = beDec (beEnc (k + w) v) := by
            simp [beDec]
          rw [h2, beDec_beEnc hv']
        rw [this, ih]
        rfl
    have := key (iv.length - 8) 8 seq.toNat hlt
    rw [show iv.length - 8 + 8 = iv.length by omega] at this
    rw [this]
  rw [this]

/-! ## Both sides derive the same -/

variable {K : Kex}

/-- A Diffie-Hellman exchange: using a key does not change its share, and the secret is the same from both
sides. -/
structure Dh (K : Kex) : Prop where
  share : ∀ s u p d s', K.generateSharedSecret s u p = .ok (d, s') → K.getKeyShare s' = K.getKeyShare s
  comm : ∀ a b pa pb u d a', K.getKeyShare a = .ok pa → K.getKeyShare b = .ok pb →
    K.generateSharedSecret a u pb = .ok (d, a') → ∀ u', ∃ b', K.generateSharedSecret b u' pa = .ok (d, b')

/-- C35: a receiver that has the private key of the public key the sender used, and the same parameters, gets
a context with the same key, nonce, exporter secret and sequence number as the sender's.  In the authenticated
modes it must know the sender's public key. -/
theorem C35_agree (dh : Dh K) (mode : Mode) (gen use useA u u' : K.Rand) (pkR info : Bytes) (psk : Option PskInputs)
    (p q : SetupParam K) (pkS : Option Bytes) (enc : Bytes) (c : Context)
    (hs : setupWithEncap mode gen use useA pkR info psk p = .ok (enc, c))
    (hR : K.getKeyShare q.dhkem.kex = .ok pkR)
    (hS : ∀ a, p.dhkem.authKex = some a → mode = .auth ∨ mode = .authPsk →
      ∃ k, K.getKeyShare a = .ok k ∧ pkS = some k)
    (h1 : q.dhkem.group = p.dhkem.group) (h2 : q.dhkem.hkdf = p.dhkem.hkdf) (h3 : q.cipher = p.cipher)
    (h4 : q.hkdf = p.hkdf) (h5 : q.suiteId = p.suiteId) (h6 : q.seq = p.seq) :
    setupWithDecap mode u u' enc pkS info psk q = .ok { c with role := .receiver } := by
  have hex : ∀ a b, extractAndExpand q.dhkem a b = extractAndExpand p.dhkem a b := by
    intro a b; unfold extractAndExpand; rw [h1, h2]
  unfold setupWithEncap at hs
  simp only [Res.bind_eq_ok, Prod.exists, Res.pure_eq, Except.ok.injEq, Prod.mk.injEq] at hs
  obtain ⟨ss, enc', he, c', hc, rfl, rfl⟩ := hs
  have hdec : decapMode mode u u' enc' pkS q.dhkem = .ok ss := by
    have hplain : encap p.dhkem gen use pkR = .ok (ss, enc') → decap q.dhkem u enc' = .ok ss := by
      intro h
      unfold encap at h
      simp only [Res.bind_eq_ok, Prod.exists, Res.pure_eq, Except.ok.injEq, Prod.mk.injEq] at h
      obtain ⟨s, -, d, s', e1, k, e2, ss', e3, rfl, rfl⟩ := h
      have hk : K.getKeyShare s = .ok k := by rw [← dh.share _ _ _ _ _ e1]; exact e2
      obtain ⟨b', hb⟩ := dh.comm _ _ _ _ _ _ _ hk hR e1 u
      unfold decap
      rw [hb]
      simp only [Res.ok_bind]
      rw [dh.share _ _ _ _ _ hb, hR]
      simp only [Res.ok_bind]
      rw [hex]
      exact e3
    have hauth : mode = .auth ∨ mode = .authPsk → authEncap p.dhkem gen use useA pkR = .ok (ss, enc') →
        ∃ k, pkS = some k ∧ authDecap q.dhkem u u' enc' k = .ok ss := by
      intro hm h
      unfold authEncap at h
      cases ha : p.dhkem.authKex with
      | none => rw [ha] at h; cases h
      | some a =>
        obtain ⟨kS, hkS, rfl⟩ := hS a ha hm
        rw [ha] at h
        simp only [Res.bind_eq_ok, Prod.exists, Res.pure_eq, Except.ok.injEq, Prod.mk.injEq] at h
        obtain ⟨s, -, d, s', e1, da, a', e2, k, e3, kA, e4, ss', e5, rfl, rfl⟩ := h
        rw [dh.share _ _ _ _ _ e2, hkS] at e4
        cases Except.ok.inj e4
        have hk : K.getKeyShare s = .ok k := by rw [← dh.share _ _ _ _ _ e1]; exact e3
        obtain ⟨b', hb⟩ := dh.comm _ _ _ _ _ _ _ hk hR e1 u
        have hR' : K.getKeyShare b' = .ok pkR := by rw [dh.share _ _ _ _ _ hb]; exact hR
        obtain ⟨b'', hb'⟩ := dh.comm _ _ _ _ _ _ _ hkS hR' e2 u'
        refine ⟨kS, rfl, ?_⟩
        unfold authDecap
        rw [hb]
        simp only [Res.ok_bind]
        rw [hb']
        simp only [Res.ok_bind]
        rw [dh.share _ _ _ _ _ hb', hR']
        simp only [Res.ok_bind]
        rw [hex]
        exact e5
    unfold decapMode
    cases mode with
    | base => exact hplain he
    | psk => exact hplain he
    | auth => obtain ⟨k, rfl, h⟩ := hauth (.inl rfl) he; exact h
    | authPsk => obtain ⟨k, rfl, h⟩ := hauth (.inr rfl) he; exact h
  unfold setupWithDecap
  rw [hdec, h3, h4, h5, h6]
  simp only [Res.ok_bind]
  unfold keySchedule at hc ⊢
  simp only [Res.bind_eq_ok, Res.pure_eq, Except.ok.injEq] at hc ⊢
  obtain ⟨a1, b1, a2, b2, a3, b3, a4, b4, a5, b5, a6, b6, rfl⟩ := hc
  exact ⟨a1, b1, a2, b2, a3, b3, a4, b4, a5, b5, a6, b6, rfl⟩

/-- C35: PSK inputs are taken exactly if PSK and identity are both there and the mode wants them, or neither
is and it does not. -/
theorem C35_psk (mode : Mode) (psk id : Bytes) :
    (PskInputs.create mode psk id = .ok ⟨mode, psk, id⟩ ↔
      (psk ≠ [] ∧ id ≠ [] ∧ (mode = .psk ∨ mode = .authPsk)) ∨
      (psk = [] ∧ id = [] ∧ (mode = .base ∨ mode = .auth))) ∧
    ∀ i, PskInputs.create mode psk id = .ok i → i = ⟨mode, psk, id⟩ := by
  unfold PskInputs.create
  constructor
  · cases psk <;> cases id <;> cases mode <;> simp
  · intro i
    cases psk <;> cases id <;> cases mode <;> simp <;> exact fun h => h.symm

/-! ## Histories -/

/-- A call on a context. -/
inductive Op
  | sealing (aad pt : Bytes)
  | opening (aad ct : Bytes)

def Context.call (c : Context) : Op → Call
  | .sealing a p => c.sealMsg a p
  | .opening a p => c.openMsg a p

/-- The calls of a history. -/
def Context.history (c : Context) : List Op → List Call
  | [] => []
  | o :: os => c.call o :: (c.call o).after.history os

/-- Whether a call returned a value. -/
def Call.succeeded (r : Call) : Bool :=
  match r.result with
  | .ok _ => true
  | .error _ => false

/-- What a call can do to the context: success counts one further, failure leaves it alone. -/
theorem call_facts (c : Context) (o : Op) :
    ((c.call o).succeeded = true → c.seq.toNat < 2 ^ 64 - 2 ∧ (c.call o).used = some c.seq ∧
      (c.call o).after = { c with seq := c.seq + 1 } ∧ (c.seq + 1).toNat = c.seq.toNat + 1) ∧
    ((c.call o).succeeded = false → (c.call o).after = c) := by
  have hinc : ∀ c', c.incrementSeq = .ok c' → c.seq.toNat < 2 ^ 64 - 2 ∧ c' = { c with seq := c.seq + 1 } ∧
      (c.seq + 1).toNat = c.seq.toNat + 1 := by
    intro c' h
    unfold Context.incrementSeq at h
    split at h
    · cases h
    · rename_i hlt
      have hlt : c.seq.toNat < 2 ^ 64 - 2 := by
        have h1 : ¬ (0xffffffffffffffff - 1 : UInt64) ≤ c.seq := hlt
        rw [UInt64.le_iff_toNat_le] at h1
        have : (0xffffffffffffffff - 1 : UInt64).toNat = 2 ^ 64 - 2 := by decide
        omega
      refine ⟨hlt, (Except.ok.inj h).symm, ?_⟩
      rw [UInt64.toNat_add]
      have : (1 : UInt64).toNat = 1 := rfl
      rw [this, Nat.mod_eq_of_lt]
      omega
  cases o with
  | sealing a p =>
    simp only [Context.call, Context.sealMsg]
    split
    · exact ⟨fun h => by simp [Call.succeeded] at h, fun _ => rfl⟩
    · split
      · exact ⟨fun h => by simp [Call.succeeded] at h, fun _ => rfl⟩
      · split
        · exact ⟨fun h => by simp [Call.succeeded] at h, fun _ => rfl⟩
        · rename_i c' hc
          obtain ⟨h1, h2, h3⟩ := hinc _ hc
          exact ⟨fun _ => ⟨h1, rfl, h2, h3⟩, fun h => by simp [Call.succeeded] at h⟩
  | opening a p =>
    simp only [Context.call, Context.openMsg]
    split
    · exact ⟨fun h => by simp [Call.succeeded] at h, fun _ => rfl⟩
    · split
      · exact ⟨fun h => by simp [Call.succeeded] at h, fun _ => rfl⟩
      · split
        · exact ⟨fun h => by simp [Call.succeeded] at h, fun _ => rfl⟩
        · rename_i c' hc
          obtain ⟨h1, h2, h3⟩ := hinc _ hc
          exact ⟨fun _ => ⟨h1, rfl, h2, h3⟩, fun h => by simp [Call.succeeded] at h⟩

/-- C35: over any history of calls on one context, the calls that succeed use the sequence numbers one after
the other, without a gap, and below the limit. -/
theorem C35_consecutive : ∀ (ops : List Op) (c : Context),
    (((c.history ops).filter Call.succeeded).map fun r => r.used.map UInt64.toNat) =
      (List.range' c.seq.toNat ((c.history ops).filter Call.succeeded).length).map some ∧
    ∀ r ∈ c.history ops, r.succeeded = true → ∃ s, r.used = some s ∧ s.toNat < 2 ^ 64 - 2
  | [], c => by simp [Context.history]
  | o :: os, c => by
    obtain ⟨i1, i2⟩ := C35_consecutive os (c.call o).after
    obtain ⟨f1, f2⟩ := call_facts c o
    simp only [Context.history]
    cases hs : (c.call o).succeeded with
    | true =>
      obtain ⟨g1, g2, g3, g4⟩ := f1 hs
      refine ⟨?_, ?_⟩
      · rw [List.filter_cons_of_pos (by rw [hs]), List.map_cons, i1, g2, List.length_cons, List.range'_succ,
          List.map_cons, g3, g4]
        rfl
      · intro r hr hrs
        rcases List.mem_cons.1 hr with rfl | hr
        · exact ⟨_, g2, g1⟩
        · exact i2 r hr hrs
    | false =>
      have g := f2 hs
      refine ⟨?_, ?_⟩
      · rw [List.filter_cons_of_neg (by rw [hs]; simp), i1, g]
      · intro r hr hrs
        rcases List.mem_cons.1 hr with rfl | hr
        · rw [hs] at hrs; cases hrs
        · exact i2 r hr hrs

/-- C35: no two messages sealed (or opened) with success over any history of a context had the same nonce. -/
theorem C35_nonces (c : Context) (ops : List Op) (n : Nat) (hn : 8 ≤ n) (hiv : c.iv.length = n) :
    (((c.history ops).filter Call.succeeded).map fun r => r.used.map fun s => Record.createIV s n c.iv).Nodup := by
  have h1 := (C35_consecutive ops c).1
  have h2 : (((c.history ops).filter Call.succeeded).map fun r => r.used.map UInt64.toNat).Nodup := by
    rw [h1, List.nodup_iff_pairwise_ne, List.pairwise_map]
    have := List.nodup_iff_pairwise_ne.1 (List.nodup_range' (s := c.seq.toNat)
      (n := ((c.history ops).filter Call.succeeded).length))
    exact this.imp fun hne h => hne (Option.some.inj h)
  rw [List.nodup_iff_pairwise_ne, List.pairwise_map] at h2 ⊢
  refine h2.imp ?_
  intro a b hab he
  apply hab
  cases ha : a.used with
  | none => cases hb : b.used with
    | none => rfl
    | some => rw [ha, hb] at he; cases he
  | some s => cases hb : b.used with
    | none => rw [ha, hb] at he; cases he
    | some s' =>
      rw [ha, hb] at he
      have he : Record.createIV s n c.iv = Record.createIV s' n c.iv := Option.some.inj he
      have hok : ∃ x, Record.createIV s n c.iv = .ok x := by
        unfold Record.createIV
        rw [if_neg (by omega), if_neg (by simpa using hiv)]
        exact ⟨_, rfl⟩
      obtain ⟨x, hx⟩ := hok
      rw [Record.C06_nonce_injective _ _ _ _ _ hx (he ▸ hx)]

/-- C35: at the limit every call is an error and changes nothing; the counter does not wrap. -/
theorem C35_limit (c : Context) (h : 2 ^ 64 - 2 ≤ c.seq.toNat) (o : Op) :
    (c.call o).succeeded = false ∧ (c.call o).after = c := by
  obtain ⟨f1, f2⟩ := call_facts c o
  cases hs : (c.call o).succeeded with
  | true => have := (f1 hs).1; omega
  | false => exact ⟨rfl, f2 hs⟩

/-- C35: only a sender seals and only a receiver opens. -/
theorem C35_role (c : Context) (aad m : Bytes) :
    ((c.sealMsg aad m).succeeded = true → c.role = .sender) ∧
    ((c.openMsg aad m).succeeded = true → c.role = .receiver) := by
  constructor
  · intro h
    unfold Context.sealMsg at h
    split at h
    · cases h
    · rename_i hr; simpa using hr
  · intro h
    unfold Context.openMsg at h
    split at h
    · cases h
    · rename_i hr; simpa using hr

/-! ## Sender and receiver -/

/-- What happens to a sender and a receiver: a message is sealed and sent; the next message sent arrives and is
opened with its associated data; something else arrives. -/
inductive Traffic
  | send (aad pt : Bytes)
  | deliver
  | forge (aad ct : Bytes)

/-- Sender, messages under way (associated data, ciphertext, plaintext), receiver. -/
structure Pair where
  s : Context
  wire : List (Bytes × Bytes × Bytes)
  r : Context

/-- One event, and the result the receiver got with the plaintext that was sent, if any. -/
def Pair.step (p : Pair) : Traffic → Pair × Option (Res Bytes × Option Bytes)
  | .send aad pt =>
    match (p.s.sealMsg aad pt).result with
    | .ok ct => ({ p with s := (p.s.sealMsg aad pt).after, wire := p.wire ++ [(aad, ct, pt)] }, none)
    | .error _ => ({ p with s := (p.s.sealMsg aad pt).after }, none)
  | .deliver =>
    match p.wire with
    | [] => (p, none)
    | (aad, ct, pt) :: w =>
      ({ p with wire := w, r := (p.r.openMsg aad ct).after }, some ((p.r.openMsg aad ct).result, some pt))
  | .forge aad ct => ({ p with r := (p.r.openMsg aad ct).after }, some ((p.r.openMsg aad ct).result, none))

def Pair.run (p : Pair) : List Traffic → Pair × List (Res Bytes × Option Bytes)
  | [] => (p, [])
  | t :: ts =>
    let (p1, o) := p.step t
    let (p2, os) := p1.run ts
    (p2, o.toList ++ os)

/-- The messages under way open one after the other, and then the two are in step. -/
def InStep (s : Context) : List (Bytes × Bytes × Bytes) → Context → Prop
  | [], r => r = { s with role := .receiver }
  | (aad, ct, pt) :: w, r => r.role = .receiver ∧ r.decrypt aad ct = .ok pt ∧
      r.seq.toNat < 2 ^ 64 - 2 ∧ InStep s w { r with seq := r.seq + 1 }

theorem InStep.snoc {s : Context} (hs : s.role = .sender)
    (hc : ∀ k n a m ct, s.cipher.enc k n a m = .ok ct → s.cipher.dec k n a ct = some m) {aad pt ct : Bytes}
    (hok : (s.sealMsg aad pt).result = .ok ct) : ∀ {w : List (Bytes × Bytes × Bytes)} {r : Context},
    InStep s w r → InStep (s.sealMsg aad pt).after (w ++ [(aad, ct, pt)]) r := by
  have hsucc : (s.call (.sealing aad pt)).succeeded = true := by
    simp only [Context.call, Call.succeeded, hok]
  obtain ⟨g1, -, g3, -⟩ := (call_facts s (.sealing aad pt)).1 hsucc
  simp only [Context.call] at g3
  have hdec : ({ s with role := .receiver } : Context).decrypt aad ct = .ok pt := by
    have henc : s.encrypt aad pt = .ok ct := by
      unfold Context.sealMsg at hok
      rw [if_neg (by simpa using hs)] at hok
      split at hok
      · cases hok
      · rename_i ct' h
        split at hok
        · cases hok
        · rw [h]; exact hok
    unfold Context.encrypt at henc
    rw [Res.bind_eq_ok] at henc
    obtain ⟨n, h1, h2⟩ := henc
    unfold Context.decrypt
    simp only
    rw [h1]
    simp only [Res.ok_bind, hc _ _ _ _ _ h2]
  intro w
  induction w with
  | nil =>
    intro r h
    have h : r = { s with role := .receiver } := h
    subst h
    refine ⟨rfl, hdec, g1, ?_⟩
    rw [g3]
    rfl
  | cons x w ih =>
    obtain ⟨a, c, m⟩ := x
    intro r h
    obtain ⟨h1, h2, h3, h4⟩ := h
    exact ⟨h1, h2, h3, ih h4⟩

/-- C35: sender and receiver stay in step: if the AEAD decrypts what it encrypted and the receiver refuses
whatever was not sent, then every message sent that arrives (in order) is opened to what was sealed, whatever
the two have done before. -/
theorem C35_in_step : ∀ (ts : List Traffic) (p : Pair), p.s.role = .sender →
    (∀ k n a m ct, p.s.cipher.enc k n a m = .ok ct → p.s.cipher.dec k n a ct = some m) →
    InStep p.s p.wire p.r →
    (∀ res, (res, none) ∈ (p.run ts).2 → ∀ x, res ≠ .ok x) →
    ∀ res pt, (res, some pt) ∈ (p.run ts).2 → res = .ok pt
  | [], _, _, _, _, _ => by simp [Pair.run]
  | t :: ts, p, hs, hc, hin, hf => by
    intro res pt hm
    simp only [Pair.run] at hm hf
    have hrec : ∀ p1 o, p.step t = (p1, o) → p1.s.role = .sender →
        (∀ k n a m ct, p1.s.cipher.enc k n a m = .ok ct → p1.s.cipher.dec k n a ct = some m) →
        InStep p1.s p1.wire p1.r → (res, some pt) ∈ (p1.run ts).2 → res = .ok pt := by
      intro p1 o e hs1 hc1 hin1 hm1
      refine C35_in_step ts p1 hs1 hc1 hin1 (fun r hr => hf r ?_) res pt hm1
      rw [e]
      exact List.mem_append.2 (.inr hr)
    rcases List.mem_append.1 hm with hm | hm
    · cases t with
      | send aad m =>
        simp only [Pair.step] at hm
        split at hm <;> simp at hm
      | forge aad c => simp [Pair.step] at hm
      | deliver =>
        simp only [Pair.step] at hm
        split at hm
        · simp at hm
        · rename_i aad ct m w hw
          rw [hw] at hin
          obtain ⟨h1, h2, h3, -⟩ := hin
          simp only [Option.toList_some, List.mem_singleton, Prod.mk.injEq, Option.some.injEq] at hm
          obtain ⟨rfl, rfl⟩ := hm
          unfold Context.openMsg
          rw [if_neg (by simpa using h1), h2]
          simp only
          unfold Context.incrementSeq
          rw [if_neg]
          show ¬ (0xffffffffffffffff - 1 : UInt64) ≤ p.r.seq
          rw [UInt64.le_iff_toNat_le]
          have : (0xffffffffffffffff - 1 : UInt64).toNat = 2 ^ 64 - 2 := by decide
          omega
    · cases t with
      | send aad m =>
        cases hres : (p.s.sealMsg aad m).result with
        | ok ct =>
          have hsucc : (p.s.call (.sealing aad m)).succeeded = true := by
            simp only [Context.call, Call.succeeded, hres]
          have g3 := ((call_facts p.s (.sealing aad m)).1 hsucc).2.2.1
          simp only [Context.call] at g3
          have e : p.step (.send aad m) =
              ({ p with s := (p.s.sealMsg aad m).after, wire := p.wire ++ [(aad, ct, m)] }, none) := by
            simp only [Pair.step, hres]
          rw [e] at hm
          refine hrec _ _ e ?_ ?_ (hin.snoc hs hc hres) hm
          · rw [g3]; exact hs
          · rw [g3]; exact hc
        | error er =>
          have hfail : (p.s.call (.sealing aad m)).succeeded = false := by
            simp only [Context.call, Call.succeeded, hres]
          have g := (call_facts p.s (.sealing aad m)).2 hfail
          simp only [Context.call] at g
          have e : p.step (.send aad m) = (p, none) := by
            simp only [Pair.step, hres, g]
          rw [e] at hm
          exact hrec _ _ e hs hc hin hm
      | deliver =>
        cases hw : p.wire with
        | nil =>
          have e : p.step .deliver = (p, none) := by simp only [Pair.step, hw]
          rw [e] at hm
          exact hrec _ _ e hs hc hin hm
        | cons x w =>
          obtain ⟨aad, ct, m⟩ := x
          rw [hw] at hin
          obtain ⟨h1, h2, h3, h4⟩ := hin
          have e : p.step .deliver = ({ p with wire := w, r := { p.r with seq := p.r.seq + 1 } },
              some ((p.r.openMsg aad ct).result, some m)) := by
            simp only [Pair.step, hw]
            have : (p.r.openMsg aad ct).after = { p.r with seq := p.r.seq + 1 } := by
              unfold Context.openMsg
              rw [if_neg (by simpa using h1), h2]
              simp only
              unfold Context.incrementSeq
              rw [if_neg]
              show ¬ (0xffffffffffffffff - 1 : UInt64) ≤ p.r.seq
              rw [UInt64.le_iff_toNat_le]
              have : (0xffffffffffffffff - 1 : UInt64).toNat = 2 ^ 64 - 2 := by decide
              omega
            rw [this]
          rw [e] at hm
          exact hrec _ _ e hs hc h4 hm
      | forge aad c =>
        have hbad := hf (p.r.openMsg aad c).result (by simp [Pair.step])
        have hfail : (p.r.call (.opening aad c)).succeeded = false := by
          simp only [Context.call, Call.succeeded]
          cases hr : (p.r.openMsg aad c).result with
          | ok x => exact absurd hr (hbad x)
          | error => rfl
        have g := (call_facts p.r (.opening aad c)).2 hfail
        simp only [Context.call] at g
        have e : p.step (.forge aad c) = (p, some ((p.r.openMsg aad c).result, none)) := by
          simp only [Pair.step, g]
        rw [e] at hm
        exact hrec _ _ e hs hc hin hm

/-- C35: exported secrets are the RFC's, up to the maximum length, and calls do not change them. -/
theorem C35_export (c : Context) (H : HashAlg) (ok : H.Ok) (hh : c.hkdf = .v1 H)
    (hl : c.exporterSecret.length = H.hashLen) (ctx : Bytes) (len : Nat) :
    (len ≤ 255 * H.hashLen → c.exportSecret ctx len =
      .ok (Spec.LabeledExpand H.spec c.suiteId c.exporterSecret "sec" ctx len)) ∧
    (255 * H.hashLen < len → ∃ e, c.exportSecret ctx len = .error e) ∧
    ∀ o, (c.call o).after.exportSecret ctx len = c.exportSecret ctx len := by
  have hmax := ok.max
  have hle := ok.le
  refine ⟨fun h => ?_, fun h => ?_, fun o => ?_⟩
  · unfold Context.exportSecret
    rw [hh]
    rw [if_neg (by simp only [Hkdf.v1]; omega)]
    exact labeledExpand_eq ok _ _ _ _ _ hl h (by omega)
  · unfold Context.exportSecret
    rw [hh, if_pos (by simp only [Hkdf.v1]; omega)]
    exact ⟨_, rfl⟩
  · obtain ⟨f1, f2⟩ := call_facts c o
    cases hs : (c.call o).succeeded with
    | true => rw [(f1 hs).2.2.1]; rfl
    | false => rw [f2 hs]

/-! ## A run

A toy group (addition of bytes) and a toy AEAD (xor with the first bytes of key and nonce, one tag byte), only to
run the model. -/

/-- The toy exchange: private key `x`, share `5 x`, secret `5 x y`. -/
def toyKex : Kex where
  State := Option UInt8
  Rand := UInt8
  generateKeyPair := fun _ r => .ok (some r)
  getKeyShare := fun s => match s with
    | none => .error .abort
    | some x => .ok [5 * x]
  generateSharedSecret := fun s _ p => match s, p with
    | some x, [y] => .ok ([x * y], some x)
    | _, _ => .error .abort
  expected := fun _ => 1

theorem toyKex_dh : Dh toyKex where
  share := by
    intro s u p d s' h
    match s, p, h with
    | some x, [y], h =>
      have h := Except.ok.inj h
      cases h
      rfl
  comm := by
    intro a b pa pb u d a' ha hb h u'
    match a, b, ha, hb with
    | some x, some y, ha, hb =>
      cases Except.ok.inj ha
      cases Except.ok.inj hb
      have h := Except.ok.inj h
      cases h
      refine ⟨some y, ?_⟩
      show Except.ok ([y * (5 * x)], some y) = Except.ok ([x * (5 * y)], some y)
      have : y * (5 * x) = x * (5 * y) := by
        rw [← UInt8.mul_assoc, ← UInt8.mul_assoc, UInt8.mul_comm y 5, UInt8.mul_comm x 5, UInt8.mul_assoc,
          UInt8.mul_assoc, UInt8.mul_comm y x]
      rw [this]

/-- The toy AEAD. -/
def toyCipher : Cipher where
  keyLength := 3
  ivLength := 9
  enc := fun k n a m => .ok (m.map (fun b => b ^^^ (k.headD 0) ^^^ (n.getLastD 0)) ++ [UInt8.ofNat a.length])
  dec := fun k n a c =>
    if c.getLast? = some (UInt8.ofNat a.length) then
      some (c.dropLast.map (fun b => b ^^^ (k.headD 0) ^^^ (n.getLastD 0)))
    else none

/-- The parameters of the two sides of the example. -/
def toySetup (own : Option UInt8) : SetupParam toyKex :=
  { dhkem := { kex := own, authKex := none, group := 29, hkdf := .v1 toyHash }, cipher := toyCipher,
    hkdf := .v1 toyHash, suiteId := suiteId 0x20 1 1 }

/-- A sender's messages, a forgery, the receiver's answers. -/
def toyRun : Res (List (Res Bytes × Option Bytes)) := do
  let (enc, cs) ← setupWithEncap (K := toyKex) .base (7 : UInt8) (0 : UInt8) (0 : UInt8) [5 * 3] [1, 2] none (toySetup none)
  let cr ← setupWithDecap (K := toyKex) .base (0 : UInt8) (0 : UInt8) enc none [1, 2] none (toySetup (some 3))
  pure (Pair.run ⟨cs, [], cr⟩ [.send [1] [10, 11], .send [] [12], .forge [] [9, 9], .deliver, .deliver]).2

example : toyRun = .ok [(.error (Failure.rt "decryption failed"), none), (.ok [10, 11], some [10, 11]),
    (.ok [12], some [12])] := by decide +kernel

end Fizz.Hpke
