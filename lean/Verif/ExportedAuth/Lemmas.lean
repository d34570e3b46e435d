import Verif.ExportedAuth.Spec
import Verif.Cred.Lemmas
import Verif.Codec.Props
import Verif.Codec.ExtProps
import Verif.Crypto.HkdfProps
import Verif.Record.ReadProps

/-! # Lemmas on exported authenticators -/

namespace Fizz.ExportedAuth
open Fizz.Codec Fizz.Cred Fizz.Crypto
open Fizz.Codec.Spec (handshake)
open Fizz.Record (HsOut decodeHandshakeMessage be24 kMaxHandshakeSize decode_framed)

theorem be24_eq (a b c : UInt8) : be24 a b c = beDec [a, b, c] := by
  simp [be24, beDec]; omega

theorem be24_enc (a b c : UInt8) : [a, b, c] = beEnc 3 (be24 a b c) := by
  rw [be24_eq]; exact (beEnc_beDec [a, b, c]).symm

/-- What is decoded was encoded: a message other than a ClientHello. -/
theorem decode_inv {u orig rest : Bytes} {m : HsMsg}
    (h : decodeHandshakeMessage u = .ok (.msg m orig rest)) (hc : ∀ c, m ≠ .clientHello c) :
    u = handshake m ++ rest ∧ Codec.Spec.Fits m ∧ (Codec.Spec.body m).length ≤ Spec.maxBody := by
  obtain ⟨rfl, ⟨t, a, b, c, body, rfl, hl, hp⟩, hlen⟩ := decode_framed h
  obtain ⟨rfl, hf, -, rfl | ⟨c, rfl, -⟩⟩ := C02_strict _ _ _ hp
  · refine ⟨?_, hf, ?_⟩
    · unfold handshake vec
      rw [hl]
      show _ :: ([a, b, c] ++ _) ++ rest = _
      rw [be24_enc]; rfl
    · simp only [List.length_cons, kMaxHandshakeSize] at hlen
      show _ ≤ 131072
      omega
  · exact absurd rfl (hc c)

theorem decode_spec {m : HsMsg} (rest : Bytes) (hf : Codec.Spec.Fits m) (hm : Codec.Spec.Modern m)
    (hl : (Codec.Spec.body m).length ≤ Spec.maxBody) :
    decodeHandshakeMessage (handshake m ++ rest) = .ok (.msg m (handshake m) rest) := by
  have hl' : (Codec.Spec.body m).length ≤ 131072 := hl
  obtain ⟨a, b, c, he⟩ : ∃ a b c, beEnc 3 (Codec.Spec.body m).length = [a, b, c] := ⟨_, _, _, rfl⟩
  have hb : be24 a b c = (Codec.Spec.body m).length := by
    rw [be24_eq, ← he, beDec_beEnc (by omega)]
  have e : handshake m = Codec.Spec.typeByte m :: a :: b :: c :: Codec.Spec.body m := by
    show _ :: (beEnc 3 _ ++ _) = _
    rw [he]; rfl
  rw [e]
  show decodeHandshakeMessage (_ :: a :: b :: c :: (Codec.Spec.body m ++ rest)) = _
  unfold decodeHandshakeMessage
  simp only [hb, kMaxHandshakeSize]
  rw [if_neg (by omega), if_neg (by simp), List.take_left, List.drop_left, parseHandshake_of_fits m hf hm]

theorem decodeAuthRequest_eq_ok {request ctx exts} :
    decodeAuthRequest request = .ok (ctx, exts) ↔ Spec.Asks request ctx exts := by
  unfold decodeAuthRequest Spec.Asks
  cases request with
  | nil =>
    simp only [List.isEmpty_nil, if_true, Except.ok.injEq, Prod.mk.injEq, true_and, ne_eq,
      not_true, false_and, or_false]
    constructor <;> rintro ⟨rfl, rfl⟩ <;> exact ⟨rfl, rfl⟩
  | cons b r =>
    simp only [List.isEmpty_cons, if_neg, Bool.false_eq_true, Res.bind_eq_ok, Prod.exists,
      readCertificateRequest_eq_ok, Res.pure_eq, Except.ok.injEq, Prod.mk.injEq, not_false_eq_true,
      reduceCtorEq, false_and, false_or, ne_eq, true_and]
    constructor
    · rintro ⟨m, rest, ⟨hf, he⟩, rfl, rfl⟩
      exact ⟨hf, rest, he⟩
    · rintro ⟨hf, more, he⟩
      exact ⟨⟨ctx, exts⟩, more, ⟨hf, he⟩, rfl, rfl⟩

theorem asks_unique {request ctx ctx' : Bytes} {exts exts'} (h : Spec.Asks request ctx exts)
    (h' : Spec.Asks request ctx' exts') : ctx = ctx' ∧ exts = exts' := by
  rw [← decodeAuthRequest_eq_ok] at h h'
  rw [h] at h'
  have := Except.ok.inj h'
  exact ⟨congrArg Prod.fst this, congrArg Prod.snd this⟩

theorem getFinishedData_eq {h : HashAlg} (ok : h.Ok) (key th : Bytes) :
    getFinishedData h (some key) th = .ok (Crypto.Spec.HMAC h.spec key th) := by
  show hmac h key [th] _ = _
  rw [hmac_eq' ok]
  simp

theorem mac_fits {h : HashAlg} (ok : h.Ok) (key t : Bytes) :
    (Codec.Spec.body (.finished ⟨Crypto.Spec.HMAC h.spec key t⟩)).length ≤ 128 := by
  have h2 := ok.le
  have h3 := ok.max
  show (Crypto.Spec.HMAC h.spec key t).length ≤ 128
  rw [HMAC_length ok]; omega

theorem asks_len {request ctx : Bytes} {exts} (h : Spec.Asks request ctx exts) : ctx.length < 256 := by
  rcases h with ⟨-, rfl, -⟩ | ⟨-, hf, -⟩
  · decide
  · exact hf.1

theorem getEmptyAuthenticator_eq_ok {h : HashAlg} (ok : h.Ok) {request hctx key auth} :
    getEmptyAuthenticator h request hctx (some key) = .ok auth ↔
      ∃ ctx exts, Spec.Asks request ctx exts ∧
        auth = handshake (.finished (Spec.emptyMac h.spec hctx key request ctx)) := by
  simp only [getEmptyAuthenticator, Res.bind_eq_ok, Prod.exists, decodeAuthRequest_eq_ok,
    encodeHandshake_eq_ok, getFinishedData_eq ok, Except.ok.injEq, computeTranscript]
  constructor
  · rintro ⟨ctx, exts, ha, _, ⟨-, -, rfl⟩, _, rfl, -, -, rfl⟩
    exact ⟨ctx, exts, ha, rfl⟩
  · rintro ⟨ctx, exts, ha, rfl⟩
    have hl := asks_len ha
    refine ⟨ctx, exts, ha, _, ⟨⟨hl, by simp, by simp⟩, ?_, rfl⟩, _, rfl, trivial, ?_, rfl⟩
    · simp [Codec.Spec.body, Codec.Spec.certificateMsg, Width.bytes]; omega
    · have := mac_fits ok key (h.digest (hctx ++ request ++ handshake (.certificate ⟨ctx, []⟩)))
      omega

theorem body_le {m : HsMsg} (h : (Codec.Spec.body m).length ≤ Spec.maxBody) :
    (Codec.Spec.body m).length < 16777216 := by
  have : (Codec.Spec.body m).length ≤ 131072 := h
  omega

end Fizz.ExportedAuth
