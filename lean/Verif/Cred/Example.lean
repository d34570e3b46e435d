import Verif.Cred.Props2

/-! # Concrete cases that meet the hypotheses of C39 -/

namespace Fizz.Cred.Example
open Fizz.Codec

/-- The certificate: valid from second 1000 on, for a long time. -/
def x : X509 Nat :=
  { der := [0x30, 1, 9], pubkey := some 1, extOids := ["2.5.29.15", "1.3.6.1.4.1.44363.44"],
    exFlags := 2, keyUsage := 0x80, notBefore := 1000, notAfter := 100000000 }

/-- A toy OpenSSL with two P-256 keys, 1 and 2, whose signatures are the key and the message. -/
def o : Ossl Nat :=
  { kind := fun k => if k = 1 ∨ k = 2 then .p256 else .other
    ecCheck := fun _ => true
    verify := fun _ k m s => decide (s = UInt8.ofNat k :: m)
    sign := fun _ k m => some (UInt8.ofNat k :: m)
    d2iX509 := fun b => if b = [0x30, 1, 9] then some x else none
    d2iPubkey := fun b => if b = [1] then some 1 else if b = [2] then some 2 else none
    i2dPubkey := fun k => some [UInt8.ofNat k]
    checkPrivateKey := fun c k => decide (c.pubkey = some k) }

/-- The moment of issuing: second 5000, and 7 nanoseconds. -/
def now : Int := 5000 * 1000000000 + 7

/-- The credential issued for one day: 5000 + 86400 - 1000 seconds after the certificate's start. -/
def c : DelegatedCredential :=
  ⟨90400, 0x0403, [2], 0x0403,
    1 :: Spec.signed .serverDC ([0x30, 1, 9] ++ beEnc 4 90400 ++ [4, 3, 0, 0, 1, 2, 4, 3])⟩

set_option maxRecDepth 20000 in
example : generateCredential o now ⟨.p256, 1, x, []⟩ 1 2 0x0403 0x0403 .serverDC 86400 = .ok c := by
  rfl

theorem usable1 : Spec.Usable o .p256 1 := ⟨rfl, rfl⟩
theorem usable2 : Spec.Usable o .p256 2 := ⟨rfl, rfl⟩

set_option maxRecDepth 20000 in
theorem gen : generateCredential o now ⟨.p256, 1, x, []⟩ 1 2 0x0403 0x0403 .serverDC 86400 = .ok c :=
  rfl

set_option maxRecDepth 20000 in
/-- The owner loads it. -/
theorem load : SelfDelegated.create o .p256 .server [x] 2 c = .ok ⟨.p256, 2, x, [], c⟩ := by
  refine (C39_loaded ..).mpr ⟨x, [], .p256, 1, rfl, rfl, usable2, ?_, rfl, by decide, rfl, usable1,
    rfl, ?_⟩
  · exact ⟨by simp [x], by decide, by decide⟩
  · rfl

theorem pair (k : Nat) : Spec.Pair o k k := by
  intro sch m s h
  cases Option.some.inj h
  simp [o]

theorem rep (later : Int) (h1 : now ≤ later) (h2 : later < 91400 * 1000000000) :
    Spec.Representable later x c := by
  have e : Spec.expiry x c = 91400 * 1000000000 := by decide
  simp only [now] at h1
  refine ⟨?_, ?_, ?_, ?_⟩ <;> (try rw [e]) <;> simp only [Spec.Holds, x] <;> omega

/-- Every hypothesis of `C39_end_to_end` holds: the credential is accepted at any nanosecond of its
day. -/
example (later : Int) (h1 : now ≤ later) (h2 : later < 91400 * 1000000000) (content : Bytes) :
    ∃ leaf others msg sig, (⟨.p256, 2, x, [], c⟩ : SelfDelegated Nat).getCertMessage [] = .ok msg ∧
      (⟨.p256, 2, x, [], c⟩ : SelfDelegated Nat).sign o 0x0403 .server content = .ok sig ∧
      msg = ⟨[], leaf :: others⟩ ∧
      (makePeerCert o leaf true >>= fun p => p.verify o later 0x0403 .server content sig) = .ok () := by
  have hfit : Spec.Fits c := ⟨by decide, by decide⟩
  have hmsg : (⟨.p256, 2, x, [], c⟩ : SelfDelegated Nat).getCertMessage [] =
      .ok ⟨[], [⟨x.der, [⟨34, Spec.wire c⟩]⟩]⟩ := by
    simp only [SelfDelegated.getCertMessage, encodeDelegatedCredential_eq_ok.mpr ⟨hfit, rfl⟩]
    rfl
  have hsig : (⟨.p256, 2, x, [], c⟩ : SelfDelegated Nat).sign o 0x0403 .server content =
      .ok (2 :: Spec.signed .server content) := certSign_eq_ok.mpr ⟨rfl, rfl⟩
  have e : Spec.expiry x c = 91400 * 1000000000 := by decide
  obtain ⟨leaf, others, hm, _, hv⟩ := C39_end_to_end o now later .server .p256 ⟨.p256, 1, x, []⟩ 1 2 1 2
    0x0403 0x0403 86400 c [] content _ _ _ gen load hmsg hsig rfl rfl usable1
    (by intro b hb; cases Option.some.inj hb; rfl) usable2 rfl (by decide) (pair 1) (pair 2)
    ⟨by decide, by decide⟩ (rep later h1 h2) h1 (by rw [e]; exact h2) (by decide)
  exact ⟨leaf, others, _, _, hmsg, hsig, hm, hv⟩

/-- At its last second it is refused as expired. -/
example (content sig : Bytes) :
    ∃ m, (PeerCert.delegated ⟨.p256, 1, x⟩ 2 c).verify o (91400 * 1000000000) 0x0403 .server content
      sig = .error (.err m (some 45) .fizz) := by
  have e : Spec.expiry x c = 91400 * 1000000000 := by decide
  refine (C39_alerts o (91400 * 1000000000) ⟨.p256, 1, x⟩ 2 c 0x0403 .server content sig
    ⟨by decide, by decide⟩ ?_).2.1 rfl ⟨by simp [x], by decide, by decide⟩ (by rw [e]; decide)
  refine ⟨?_, ?_, ?_, ?_⟩ <;> (try rw [e]) <;> simp only [Spec.Holds, x] <;> omega

/-- A server credential does not serve a client. -/
example (content sig : Bytes) :
    ∃ m, (PeerCert.delegated ⟨.p256, 1, x⟩ 2 c).verify o now 0x0403 .client content sig =
      .error (.err m (some 47) .fizz) := by
  have e : Spec.expiry x c = 91400 * 1000000000 := by decide
  refine (C39_alerts o now ⟨.p256, 1, x⟩ 2 c 0x0403 .client content sig
    ⟨by decide, by decide⟩ (rep now (Int.le_refl _) (by decide))).2.2 rfl
    ⟨by simp [x], by decide, by decide⟩ (by rw [e]; decide) ?_
  rintro ⟨_, _, h⟩
  have h : (c.signature = UInt8.ofNat 1 :: Spec.signed .clientDC (x.der ++ Spec.credentialFields c)) :=
    of_decide_eq_true h
  have h2 := signed_inj (List.cons.inj h).2
  cases h2.1

/-- A server with one certificate and one credential, and a client that accepts P-256
credentials. -/
example : DcManager.getCert
    ⟨CertManager.build [(⟨0, [97], [], [0x0403]⟩, true)], CertManager.build [(⟨1, [97], [], [0x0403]⟩, true)]⟩
    (some [97]) [0x0403] [0x0403] [⟨34, [0, 2, 4, 3]⟩] =
      .ok (some (⟨1, [97], [], [0x0403]⟩, 0x0403, .direct)) := by
  rw [((C39_choice _ (some [97]) [0x0403] [0x0403] [⟨34, [0, 2, 4, 3]⟩]).2 [0x0403] [] [] [] rfl
    (by simp) (by decide)).1 (⟨1, [97], [], [0x0403]⟩, 0x0403, .direct) (by decide)]

end Fizz.Cred.Example
