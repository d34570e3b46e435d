import Verif.Codec.ExtLemmas

/-!
# Properties of the handshake message codec (C01, C02, C22)

The specification is `Verif/Codec/Spec.lean` (RFC 8446 wire format); `Spec.Fits` says that all
variable-length fields fit their length prefixes.
-/

namespace Fizz.Codec

/-! ## C01 -/

/-- C01 (encoder): `encodeHandshake` succeeds exactly when every variable-length field, and the
whole body, fits its length prefix, and then produces the RFC 8446 bytes. -/
theorem C01_encode_handshake (m : HsMsg) :
    (∀ bs, encodeHandshake m = .ok bs → bs = Spec.handshake m) ∧
    ((∃ bs, encodeHandshake m = .ok bs) ↔
      Spec.Fits m ∧ (Spec.body m).length < 2 ^ 24) := by
  constructor
  · intro bs h; rw [encodeHandshake_eq_ok] at h; exact h.2.2
  · simp only [encodeHandshake_eq_ok]
    constructor
    · rintro ⟨bs, h1, h2, _⟩; exact ⟨h1, h2⟩
    · rintro ⟨h1, h2⟩; exact ⟨_, h1, h2, rfl⟩

/-- C01 (failure side): when a length-prefixed field does not fit, `encodeHandshake` fails; the
failure is a thrown conversion error or the 24-bit overflow error, never undefined behaviour. -/
theorem C01_encode_fails (m : HsMsg) (h : ¬ (Spec.Fits m ∧ (Spec.body m).length < 2 ^ 24)) :
    ∃ e, encodeHandshake m = .error e := by
  cases he : encodeHandshake m with
  | error e => exact ⟨e, rfl⟩
  | ok bs => exact absurd ((C01_encode_handshake m).2.1 ⟨bs, he⟩) h

theorem parseHandshake_of_fits (m : HsMsg) (hf : Spec.Fits m) (hm : Spec.Modern m) :
    parseHandshake (Spec.typeByte m) (Spec.body m) = .ok m := by
  cases m with
  | clientHello m =>
    have : decodeClientHello (Spec.clientHello m) = .ok m := by
      rw [decodeClientHello, decodeAll_eq_ok, readClientHello_eq_ok]
      exact ⟨hf, .inl (by simp)⟩
    simp [parseHandshake, Spec.typeByte, Spec.body, HandshakeType.client_hello, this]
  | serverHello m =>
    have : decodeServerHello (Spec.serverHello m) = .ok m := by
      rw [decodeServerHello, decodeAll_eq_ok, readServerHello_eq_ok]
      exact ⟨hm.1, hf, by simp⟩
    have h2 : m.random ≠ hrrRandom := hm.2
    simp [parseHandshake, Spec.typeByte, Spec.body, HandshakeType.client_hello,
      HandshakeType.server_hello, parseServerHello, this, h2]
  | helloRetryRequest m =>
    have : decodeServerHello (Spec.helloRetryRequest m) =
        .ok ⟨m.legacy_version, hrrRandom, some m.legacy_session_id_echo, m.cipher_suite,
          m.legacy_compression_method, m.extensions⟩ := by
      rw [decodeServerHello, decodeAll_eq_ok, readServerHello_eq_ok]
      exact ⟨rfl, ⟨by simpa using hf.1, hf.2⟩,
        by simp [Spec.serverHello, Spec.helloRetryRequest]⟩
    simp [parseHandshake, Spec.typeByte, Spec.body, HandshakeType.client_hello,
      HandshakeType.server_hello, parseServerHello, this]
  | endOfEarlyData =>
    have : decodeEndOfEarlyData [] = .ok () := rfl
    simp [parseHandshake, Spec.typeByte, Spec.body, HandshakeType.client_hello,
      HandshakeType.server_hello, HandshakeType.end_of_early_data, this]
  | newSessionTicket m =>
    have : decodeNewSessionTicket (Spec.newSessionTicket m) = .ok m := by
      rw [decodeNewSessionTicket, decodeAll_eq_ok, readNewSessionTicket_eq_ok]
      exact ⟨hm, hf, by simp⟩
    simp [parseHandshake, Spec.typeByte, Spec.body, HandshakeType.client_hello,
      HandshakeType.server_hello, HandshakeType.end_of_early_data,
      HandshakeType.new_session_ticket, this]
  | encryptedExtensions m =>
    have : decodeEncryptedExtensions (Spec.encryptedExtensions m) = .ok m := by
      rw [decodeEncryptedExtensions, decodeAll_eq_ok, readEncryptedExtensions_eq_ok]
      exact ⟨hf, by simp⟩
    simp [parseHandshake, Spec.typeByte, Spec.body, HandshakeType.client_hello,
      HandshakeType.server_hello, HandshakeType.end_of_early_data,
      HandshakeType.new_session_ticket, HandshakeType.encrypted_extensions, this]
  | certificate m =>
    have : decodeCertificateMsg (Spec.certificateMsg m) = .ok m := by
      rw [decodeCertificateMsg, decodeAll_eq_ok, readCertificateMsg_eq_ok]
      exact ⟨hf, by simp⟩
    simp [parseHandshake, Spec.typeByte, Spec.body, HandshakeType.client_hello,
      HandshakeType.server_hello, HandshakeType.end_of_early_data,
      HandshakeType.new_session_ticket, HandshakeType.encrypted_extensions,
      HandshakeType.certificate, this]
  | compressedCertificate m =>
    have : decodeCompressedCertificate (Spec.compressedCertificate m) = .ok m := by
      rw [decodeCompressedCertificate, decodeAll_eq_ok, readCompressedCertificate_eq_ok]
      exact ⟨hf, by simp⟩
    simp [parseHandshake, Spec.typeByte, Spec.body, HandshakeType.client_hello,
      HandshakeType.server_hello, HandshakeType.end_of_early_data,
      HandshakeType.new_session_ticket, HandshakeType.encrypted_extensions,
      HandshakeType.certificate, HandshakeType.compressed_certificate, this]
  | certificateRequest m =>
    have : decodeCertificateRequest (Spec.certificateRequest m) = .ok m := by
      rw [decodeCertificateRequest, decodeAll_eq_ok, readCertificateRequest_eq_ok]
      exact ⟨hf, by simp⟩
    simp [parseHandshake, Spec.typeByte, Spec.body, HandshakeType.client_hello,
      HandshakeType.server_hello, HandshakeType.end_of_early_data,
      HandshakeType.new_session_ticket, HandshakeType.encrypted_extensions,
      HandshakeType.certificate, HandshakeType.compressed_certificate,
      HandshakeType.certificate_request, this]
  | certificateVerify m =>
    have : decodeCertificateVerify (Spec.certificateVerify m) = .ok m := by
      rw [decodeCertificateVerify, decodeAll_eq_ok, readCertificateVerify_eq_ok]
      exact ⟨hf, by simp⟩
    simp [parseHandshake, Spec.typeByte, Spec.body, HandshakeType.client_hello,
      HandshakeType.server_hello, HandshakeType.end_of_early_data,
      HandshakeType.new_session_ticket, HandshakeType.encrypted_extensions,
      HandshakeType.certificate, HandshakeType.compressed_certificate,
      HandshakeType.certificate_request, HandshakeType.certificate_verify, this]
  | finished m =>
    simp [parseHandshake, Spec.typeByte, Spec.body, HandshakeType.client_hello,
      HandshakeType.server_hello, HandshakeType.end_of_early_data,
      HandshakeType.new_session_ticket, HandshakeType.encrypted_extensions,
      HandshakeType.certificate, HandshakeType.compressed_certificate,
      HandshakeType.certificate_request, HandshakeType.certificate_verify,
      HandshakeType.finished, decodeFinished, Spec.finished]
  | keyUpdate m =>
    have : decodeKeyUpdate (Spec.keyUpdate m) = .ok m := by
      rw [decodeKeyUpdate, decodeAll_eq_ok, readKeyUpdate_eq_ok]; simp
    simp [parseHandshake, Spec.typeByte, Spec.body, HandshakeType.client_hello,
      HandshakeType.server_hello, HandshakeType.end_of_early_data,
      HandshakeType.new_session_ticket, HandshakeType.encrypted_extensions,
      HandshakeType.certificate, HandshakeType.compressed_certificate,
      HandshakeType.certificate_request, HandshakeType.certificate_verify,
      HandshakeType.finished, HandshakeType.key_update, this]

/-- C01 (round trip): for every message that `encode` accepts, decoding the encoded body under
its type returns the same message.  `Modern` excludes only the values old drafts wrote without a
field (null session id echo, null ticket nonce) and a ServerHello whose random is the
HelloRetryRequest marker. -/
theorem C01_roundtrip (m : HsMsg) (bs : Bytes) (hm : Spec.Modern m)
    (h : m.encodeBody = .ok bs) : parseHandshake (Spec.typeByte m) bs = .ok m := by
  rw [encodeBody_eq_ok] at h
  rw [h.2]; exact parseHandshake_of_fits m h.1 hm

/-- C01 (alerts): every alert survives. -/
theorem C01_alert (a : Alert) : ∃ bs, encodeAlert a = .ok bs ∧ bs = [a.level, a.description] ∧
    decodeAlert bs = .ok a := by
  refine ⟨_, encodeAlert_eq_ok.2 rfl, rfl, ?_⟩
  rw [decodeAlert, decodeAll_eq_ok, readAlert_eq_ok]; simp

/-- Why `Modern` is needed (the documented draft compatibility): a ServerHello encoded without a
session id echo does not decode back to itself. -/
theorem C01_serverHello_null_echo (m : ServerHello) (h : m.legacy_session_id_echo = none)
    (bs : Bytes) : decodeServerHello bs ≠ .ok m := by
  intro hd
  rw [decodeServerHello, decodeAll_eq_ok, readServerHello_eq_ok, h] at hd
  simp at hd

/-- Non-vacuity of C01: a ClientHello with two cipher suites and two extensions encodes. -/
def exampleCH : ClientHello :=
  { random := hrrRandom, legacy_session_id := [1, 2, 3], cipher_suites := [0x1301, 0x1302],
    legacy_compression_methods := [0],
    extensions := [⟨43, [2, 3, 4]⟩, ⟨51, [9, 9]⟩] }

example : Spec.Modern (.clientHello exampleCH) ∧
    ∃ bs, (HsMsg.clientHello exampleCH).encodeBody = .ok bs ∧ bs.length = 61 := by
  refine ⟨trivial, _, encodeBody_eq_ok.2 ⟨?_, rfl⟩, by decide⟩
  simp only [Spec.Fits, Spec.ClientHelloFits]; decide

example : Spec.Modern (.certificate ⟨[], [⟨[1, 2, 3], [⟨5, [1]⟩]⟩, ⟨[4], []⟩]⟩) ∧
    ∃ bs, encodeHandshake (.certificate ⟨[], [⟨[1, 2, 3], [⟨5, [1]⟩]⟩, ⟨[4], []⟩]⟩) = .ok bs := by
  refine ⟨trivial, (C01_encode_handshake _).2.2 ⟨?_, by decide⟩⟩
  refine ⟨by decide, ?_, by decide⟩
  intro e he
  simp at he
  rcases he with rfl | rfl <;> exact ⟨by decide, by decide⟩

/-- Non-vacuity of `C01_encode_fails`: a session id of 256 bytes is refused. -/
example : ¬ (Spec.Fits (.clientHello
      { exampleCH with legacy_session_id := List.replicate 256 0 }) ∧
    (Spec.body (.clientHello
      { exampleCH with legacy_session_id := List.replicate 256 0 })).length < 2 ^ 24) := by
  intro h; have := h.1.1; rw [List.length_replicate] at this; omega

/-! ## C02 -/

/-- The single non-canonical encoding: a ClientHello with no extensions block at all. -/
def IsBareClientHello (m : HsMsg) (bs : Bytes) : Prop :=
  ∃ c, m = .clientHello c ∧ c.extensions = [] ∧ bs = Spec.clientHelloNoExtensions c

/-- C02 (strictness): if `decode` accepts a body under a handshake type then the body is, byte
for byte, the RFC encoding of the message it returns (so every inner length is exactly filled and
nothing is left over), with the single exception of a ClientHello without an extensions block. -/
theorem C02_strict (t : UInt8) (bs : Bytes) (m : HsMsg) (h : parseHandshake t bs = .ok m) :
    t = Spec.typeByte m ∧ Spec.Fits m ∧ Spec.Modern m ∧
      (bs = Spec.body m ∨ IsBareClientHello m bs) := by
  unfold parseHandshake at h
  repeat' split at h
  all_goals try simp only [Res.bind_eq_ok, Res.pure_eq, Except.ok.injEq] at h
  · next ht =>
    obtain ⟨c, h, rfl⟩ := h
    rw [decodeClientHello, decodeAll_eq_ok, readClientHello_eq_ok] at h
    refine ⟨ht, h.1, trivial, ?_⟩
    rcases h.2 with h | ⟨h1, _, h2⟩
    · exact .inl (by simpa [Spec.body] using h)
    · exact .inr ⟨c, rfl, h1, h2⟩
  · next ht =>
    simp only [parseServerHello, Res.bind_eq_ok] at h
    obtain ⟨s, h, h2⟩ := h
    rw [decodeServerHello, decodeAll_eq_ok, readServerHello_eq_ok] at h
    obtain ⟨hs, hf, rfl⟩ := h
    split at h2
    · next hr =>
      simp only [Res.pure_eq, Except.ok.injEq] at h2
      subst h2
      obtain ⟨v, r, e, c, z, x⟩ := s
      cases e with
      | none => simp at hs
      | some e =>
        simp only at hr; subst hr
        exact ⟨ht, ⟨hf.1 e rfl, hf.2⟩, trivial,
          .inl (by simp [Spec.serverHello, Spec.body, Spec.helloRetryRequest])⟩
    · next hr =>
      simp only [Res.pure_eq, Except.ok.injEq] at h2
      subst h2
      exact ⟨ht, hf, ⟨hs, hr⟩, .inl (by simp [Spec.body])⟩
  · next ht =>
    obtain ⟨_, h, rfl⟩ := h
    rw [decodeEndOfEarlyData, decodeAll_eq_ok, readEndOfEarlyData] at h
    simp at h
    exact ⟨ht, trivial, trivial, .inl (by simpa [Spec.body] using h)⟩
  · next ht =>
    obtain ⟨_, h, rfl⟩ := h
    rw [decodeNewSessionTicket, decodeAll_eq_ok, readNewSessionTicket_eq_ok] at h
    exact ⟨ht, h.2.1, h.1, .inl (by simpa [Spec.body] using h.2.2)⟩
  · next ht =>
    obtain ⟨_, h, rfl⟩ := h
    rw [decodeEncryptedExtensions, decodeAll_eq_ok, readEncryptedExtensions_eq_ok] at h
    exact ⟨ht, h.1, trivial, .inl (by simpa [Spec.body] using h.2)⟩
  · next ht =>
    obtain ⟨_, h, rfl⟩ := h
    rw [decodeCertificateMsg, decodeAll_eq_ok, readCertificateMsg_eq_ok] at h
    exact ⟨ht, h.1, trivial, .inl (by simpa [Spec.body] using h.2)⟩
  · next ht =>
    obtain ⟨_, h, rfl⟩ := h
    rw [decodeCompressedCertificate, decodeAll_eq_ok, readCompressedCertificate_eq_ok] at h
    exact ⟨ht, h.1, trivial, .inl (by simpa [Spec.body] using h.2)⟩
  · next ht =>
    obtain ⟨_, h, rfl⟩ := h
    rw [decodeCertificateRequest, decodeAll_eq_ok, readCertificateRequest_eq_ok] at h
    exact ⟨ht, h.1, trivial, .inl (by simpa [Spec.body] using h.2)⟩
  · next ht =>
    obtain ⟨_, h, rfl⟩ := h
    rw [decodeCertificateVerify, decodeAll_eq_ok, readCertificateVerify_eq_ok] at h
    exact ⟨ht, h.1, trivial, .inl (by simpa [Spec.body] using h.2)⟩
  · next ht =>
    obtain ⟨f, h, rfl⟩ := h
    simp only [decodeFinished, Except.ok.injEq] at h
    subst h
    exact ⟨ht, trivial, trivial, .inl rfl⟩
  · next ht =>
    obtain ⟨_, h, rfl⟩ := h
    rw [decodeKeyUpdate, decodeAll_eq_ok, readKeyUpdate_eq_ok] at h
    exact ⟨ht, trivial, trivial, .inl (by simpa [Spec.body] using h)⟩
  · simp at h

/-- C02 (canonical): re-encoding what was decoded gives back the same bytes, except for the bare
ClientHello. -/
theorem C02_reencode (t : UInt8) (bs : Bytes) (m : HsMsg) (h : parseHandshake t bs = .ok m)
    (hb : ¬ IsBareClientHello m bs) : m.encodeBody = .ok bs := by
  obtain ⟨_, hf, _, h | h⟩ := C02_strict t bs m h
  · rw [encodeBody_eq_ok]; exact ⟨hf, h⟩
  · exact absurd h hb

/-- C02 (no two encodings): two different byte strings decode to the same message only if one of
them is the bare ClientHello form. -/
theorem C02_injective (t₁ t₂ : UInt8) (b₁ b₂ : Bytes) (m : HsMsg)
    (h₁ : parseHandshake t₁ b₁ = .ok m) (h₂ : parseHandshake t₂ b₂ = .ok m)
    (hb₁ : ¬ IsBareClientHello m b₁) (hb₂ : ¬ IsBareClientHello m b₂) : b₁ = b₂ ∧ t₁ = t₂ := by
  have e₁ := C02_strict _ _ _ h₁
  have e₂ := C02_strict _ _ _ h₂
  have r₁ := C02_reencode _ _ _ h₁ hb₁
  have r₂ := C02_reencode _ _ _ h₂ hb₂
  rw [r₁] at r₂
  exact ⟨by simpa using r₂, by rw [e₁.1, e₂.1]⟩

/-- C02 (trailing bytes): appending anything to an accepted body of a self-delimiting message
makes the decoder fail or return something else — concretely, it never returns the same message,
except for Finished (which is the whole buffer) and the bare ClientHello. -/
theorem C02_trailing (t : UInt8) (bs extra : Bytes) (m m' : HsMsg) (hx : extra ≠ [])
    (hnf : t ≠ 20) (h : parseHandshake t bs = .ok m) (hb : ¬ IsBareClientHello m bs) :
    parseHandshake t (bs ++ extra) ≠ .ok m' := by
  have key : ∀ {α} (rd : Rd α) (b e : Bytes) (a : α), e ≠ [] → decodeAll rd b = .ok a →
      rd (b ++ e) = .ok (a, e) → ∀ a', decodeAll rd (b ++ e) ≠ .ok a' := by
    intro α rd b e a he _ h2 a' h3
    rw [decodeAll_eq_ok, h2] at h3; simp at h3; exact he h3.2
  intro h'
  have s := C02_strict t bs m h
  obtain ⟨ht, hf, hmod, hbody⟩ := s
  have hbody : bs = Spec.body m := by
    rcases hbody with h | h
    · exact h
    · exact absurd h hb
  subst hbody
  have s' := C02_strict t _ m' h'
  obtain ⟨ht', hf', hmod', hbody'⟩ := s'
  -- both byte strings parse with the same cursor decoder; decode is deterministic on prefixes
  cases m with
  | clientHello c =>
    have hd : ∀ a', decodeClientHello (Spec.clientHello c ++ extra) ≠ .ok a' := by
      apply key _ _ _ c hx
      · rw [decodeAll_eq_ok, readClientHello_eq_ok]; exact ⟨hf, .inl (by simp)⟩
      · rw [readClientHello_eq_ok]; exact ⟨hf, .inl rfl⟩
    simp [parseHandshake, ht, Spec.typeByte, Spec.body, HandshakeType.client_hello,
      Res.bind_eq_ok] at h'
    obtain ⟨a, h1, _⟩ := h'
    exact hd a h1
  | serverHello c =>
    have hd : ∀ a', decodeServerHello (Spec.serverHello c ++ extra) ≠ .ok a' := by
      apply key _ _ _ c hx
      · rw [decodeAll_eq_ok, readServerHello_eq_ok]; exact ⟨hmod.1, hf, by simp⟩
      · rw [readServerHello_eq_ok]; exact ⟨hmod.1, hf, rfl⟩
    simp [parseHandshake, ht, Spec.typeByte, Spec.body, HandshakeType.client_hello,
      HandshakeType.server_hello, parseServerHello, Res.bind_eq_ok] at h'
    obtain ⟨a, h1, _⟩ := h'
    exact hd a h1
  | helloRetryRequest c =>
    have e : Spec.helloRetryRequest c = Spec.serverHello ⟨c.legacy_version, hrrRandom,
        some c.legacy_session_id_echo, c.cipher_suite, c.legacy_compression_method,
        c.extensions⟩ := rfl
    have hd : ∀ a', decodeServerHello (Spec.helloRetryRequest c ++ extra) ≠ .ok a' := by
      rw [e]
      apply key _ _ _ ⟨c.legacy_version, hrrRandom, some c.legacy_session_id_echo, c.cipher_suite,
        c.legacy_compression_method, c.extensions⟩ hx
      · rw [decodeAll_eq_ok, readServerHello_eq_ok]
        exact ⟨rfl, ⟨by simpa using hf.1, hf.2⟩, by simp⟩
      · rw [readServerHello_eq_ok]; exact ⟨rfl, ⟨by simpa using hf.1, hf.2⟩, rfl⟩
    simp [parseHandshake, ht, Spec.typeByte, Spec.body, HandshakeType.client_hello,
      HandshakeType.server_hello, parseServerHello, Res.bind_eq_ok] at h'
    obtain ⟨a, h1, _⟩ := h'
    exact hd a h1
  | endOfEarlyData =>
    simp [parseHandshake, ht, Spec.typeByte, Spec.body, HandshakeType.client_hello,
      HandshakeType.server_hello, HandshakeType.end_of_early_data, Res.bind_eq_ok,
      decodeEndOfEarlyData, decodeAll_eq_ok, readEndOfEarlyData] at h'
    exact hx h'.1
  | newSessionTicket c =>
    have hd : ∀ a', decodeNewSessionTicket (Spec.newSessionTicket c ++ extra) ≠ .ok a' := by
      apply key _ _ _ c hx
      · rw [decodeAll_eq_ok, readNewSessionTicket_eq_ok]; exact ⟨hmod, hf, by simp⟩
      · rw [readNewSessionTicket_eq_ok]; exact ⟨hmod, hf, rfl⟩
    simp [parseHandshake, ht, Spec.typeByte, Spec.body, HandshakeType.client_hello,
      HandshakeType.server_hello, HandshakeType.end_of_early_data,
      HandshakeType.new_session_ticket, Res.bind_eq_ok] at h'
    obtain ⟨a, h1, _⟩ := h'
    exact hd a h1
  | encryptedExtensions c =>
    have hd : ∀ a', decodeEncryptedExtensions (Spec.encryptedExtensions c ++ extra) ≠ .ok a' := by
      apply key _ _ _ c hx
      · rw [decodeAll_eq_ok, readEncryptedExtensions_eq_ok]; exact ⟨hf, by simp⟩
      · rw [readEncryptedExtensions_eq_ok]; exact ⟨hf, rfl⟩
    simp [parseHandshake, ht, Spec.typeByte, Spec.body, HandshakeType.client_hello,
      HandshakeType.server_hello, HandshakeType.end_of_early_data,
      HandshakeType.new_session_ticket, HandshakeType.encrypted_extensions,
      Res.bind_eq_ok] at h'
    obtain ⟨a, h1, _⟩ := h'
    exact hd a h1
  | certificate c =>
    have hd : ∀ a', decodeCertificateMsg (Spec.certificateMsg c ++ extra) ≠ .ok a' := by
      apply key _ _ _ c hx
      · rw [decodeAll_eq_ok, readCertificateMsg_eq_ok]; exact ⟨hf, by simp⟩
      · rw [readCertificateMsg_eq_ok]; exact ⟨hf, rfl⟩
    simp [parseHandshake, ht, Spec.typeByte, Spec.body, HandshakeType.client_hello,
      HandshakeType.server_hello, HandshakeType.end_of_early_data,
      HandshakeType.new_session_ticket, HandshakeType.encrypted_extensions,
      HandshakeType.certificate, Res.bind_eq_ok] at h'
    obtain ⟨a, h1, _⟩ := h'
    exact hd a h1
  | compressedCertificate c =>
    have hd : ∀ a',
        decodeCompressedCertificate (Spec.compressedCertificate c ++ extra) ≠ .ok a' := by
      apply key _ _ _ c hx
      · rw [decodeAll_eq_ok, readCompressedCertificate_eq_ok]; exact ⟨hf, by simp⟩
      · rw [readCompressedCertificate_eq_ok]; exact ⟨hf, rfl⟩
    simp [parseHandshake, ht, Spec.typeByte, Spec.body, HandshakeType.client_hello,
      HandshakeType.server_hello, HandshakeType.end_of_early_data,
      HandshakeType.new_session_ticket, HandshakeType.encrypted_extensions,
      HandshakeType.certificate, HandshakeType.compressed_certificate, Res.bind_eq_ok] at h'
    obtain ⟨a, h1, _⟩ := h'
    exact hd a h1
  | certificateRequest c =>
    have hd : ∀ a', decodeCertificateRequest (Spec.certificateRequest c ++ extra) ≠ .ok a' := by
      apply key _ _ _ c hx
      · rw [decodeAll_eq_ok, readCertificateRequest_eq_ok]; exact ⟨hf, by simp⟩
      · rw [readCertificateRequest_eq_ok]; exact ⟨hf, rfl⟩
    simp [parseHandshake, ht, Spec.typeByte, Spec.body, HandshakeType.client_hello,
      HandshakeType.server_hello, HandshakeType.end_of_early_data,
      HandshakeType.new_session_ticket, HandshakeType.encrypted_extensions,
      HandshakeType.certificate, HandshakeType.compressed_certificate,
      HandshakeType.certificate_request, Res.bind_eq_ok] at h'
    obtain ⟨a, h1, _⟩ := h'
    exact hd a h1
  | certificateVerify c =>
    have hd : ∀ a', decodeCertificateVerify (Spec.certificateVerify c ++ extra) ≠ .ok a' := by
      apply key _ _ _ c hx
      · rw [decodeAll_eq_ok, readCertificateVerify_eq_ok]; exact ⟨hf, by simp⟩
      · rw [readCertificateVerify_eq_ok]; exact ⟨hf, rfl⟩
    simp [parseHandshake, ht, Spec.typeByte, Spec.body, HandshakeType.client_hello,
      HandshakeType.server_hello, HandshakeType.end_of_early_data,
      HandshakeType.new_session_ticket, HandshakeType.encrypted_extensions,
      HandshakeType.certificate, HandshakeType.compressed_certificate,
      HandshakeType.certificate_request, HandshakeType.certificate_verify, Res.bind_eq_ok] at h'
    obtain ⟨a, h1, _⟩ := h'
    exact hd a h1
  | finished c => exact hnf ht
  | keyUpdate c =>
    have hd : ∀ a', decodeKeyUpdate (Spec.keyUpdate c ++ extra) ≠ .ok a' := by
      apply key _ _ _ c hx
      · rw [decodeAll_eq_ok, readKeyUpdate_eq_ok]; simp
      · rw [readKeyUpdate_eq_ok]
    simp [parseHandshake, ht, Spec.typeByte, Spec.body, HandshakeType.client_hello,
      HandshakeType.server_hello, HandshakeType.end_of_early_data,
      HandshakeType.new_session_ticket, HandshakeType.encrypted_extensions,
      HandshakeType.certificate, HandshakeType.compressed_certificate,
      HandshakeType.certificate_request, HandshakeType.certificate_verify,
      HandshakeType.finished, HandshakeType.key_update, Res.bind_eq_ok] at h'
    obtain ⟨a, h1, _⟩ := h'
    exact hd a h1

theorem noUB_readExtension : NoUB readExtension :=
  NoUB.bind NoUB.readU16 fun _ => NoUB.bind (NoUB.readBuf _) fun _ => NoUB.pure _

theorem noUB_readExts : NoUB (readVector .u16 readExtension) :=
  NoUB.readVector noUB_readExtension
    (by intro inp a n rest h
        rw [elem_extension] at h; rw [h.2.2]; exact ext_pos a) _

theorem noUB_readRandom : NoUB readRandom := by
  intro inp why h; unfold readRandom at h; split at h <;> simp at h

/-- C02 (termination and memory safety of the readers): on every input and every type byte, the
decoder ends in a message or in a reported error; it never loops forever or reads through a null
pointer. -/
theorem C02_total (t : UInt8) (bs : Bytes) (why : String) :
    parseHandshake t bs ≠ .error (.ub why) := by
  have h16 : NoUB (readVector .u16 readU16) := NoUB.readVector NoUB.readU16
    (by intro inp a n rest h; rw [readU16_eq_ok] at h; omega) _
  have h8 : NoUB (readVector .u8 readU8) := NoUB.readVector NoUB.readU8
    (by intro inp a n rest h; rw [readU8_eq_ok] at h; omega) _
  have hx := noUB_readExts
  have hent : NoUB readCertificateEntry :=
    NoUB.bind (NoUB.readBuf _) fun _ => NoUB.bind hx fun _ => NoUB.pure _
  have hentry : NoUB (readVector .u24 readCertificateEntry) := NoUB.readVector hent
    (by intro inp a n rest h
        rw [elem_certificateEntry] at h; rw [h.2.2]; exact entry_pos a) _
  have hch : NoUB readClientHello := by
    refine NoUB.bind NoUB.readU16 fun _ => NoUB.bind noUB_readRandom fun _ =>
      NoUB.bind (NoUB.readBuf _) fun _ => NoUB.bind h16 fun _ => NoUB.bind h8 fun _ =>
      NoUB.bind NoUB.remaining fun _ => ?_
    intro inp why h
    split at h
    · exact NoUB.bind hx (fun _ => NoUB.pure _) _ _ h
    · exact NoUB.pure _ _ _ h
  have hsh : NoUB readServerHello :=
    NoUB.bind NoUB.readU16 fun _ => NoUB.bind noUB_readRandom fun _ =>
      NoUB.bind (NoUB.readBuf _) fun _ => NoUB.bind NoUB.readU16 fun _ =>
      NoUB.bind NoUB.readU8 fun _ => NoUB.bind hx fun _ => NoUB.pure _
  have lift : ∀ {α} (d : Res α) (f : α → HsMsg), (∀ w, d ≠ .error (.ub w)) →
      (d >>= fun m => pure (f m)) ≠ (.error (.ub why) : Res HsMsg) := by
    intro α d f hd h
    cases d with
    | error e => simp at h; exact hd why (by rw [h])
    | ok a => simp at h
  unfold parseHandshake
  repeat' split
  · exact lift _ _ (NoUB.decodeAll hch _)
  · unfold parseServerHello
    intro h
    cases hd : decodeServerHello bs with
    | error e => simp [hd] at h; exact NoUB.decodeAll hsh _ why (by rw [← h]; exact hd)
    | ok a =>
      simp only [hd, Res.ok_bind] at h
      split at h <;> simp at h
  · exact lift _ _ (NoUB.decodeAll (NoUB.pure _) _)
  · exact lift _ _ (NoUB.decodeAll (NoUB.bind NoUB.readU32 fun _ => NoUB.bind NoUB.readU32 fun _ =>
      NoUB.bind (NoUB.readBuf _) fun _ => NoUB.bind (NoUB.readBuf _) fun _ =>
      NoUB.bind hx fun _ => NoUB.pure _) _)
  · exact lift _ _ (NoUB.decodeAll (NoUB.bind hx fun _ => NoUB.pure _) _)
  · exact lift _ _ (NoUB.decodeAll (NoUB.bind (NoUB.readBuf _) fun _ =>
      NoUB.bind hentry fun _ => NoUB.pure _) _)
  · exact lift _ _ (NoUB.decodeAll (NoUB.bind NoUB.readU16 fun _ => NoUB.bind (NoUB.readBE _)
      fun _ => NoUB.bind (NoUB.readBuf _) fun _ => NoUB.pure _) _)
  · exact lift _ _ (NoUB.decodeAll (NoUB.bind (NoUB.readBuf _) fun _ =>
      NoUB.bind hx fun _ => NoUB.pure _) _)
  · exact lift _ _ (NoUB.decodeAll (NoUB.bind NoUB.readU16 fun _ =>
      NoUB.bind (NoUB.readBuf _) fun _ => NoUB.pure _) _)
  · exact lift _ _ (by simp [decodeFinished])
  · exact lift _ _ (NoUB.decodeAll (NoUB.bind NoUB.readU8 fun _ => NoUB.pure _) _)
  · simp [Failure.rt]

/-- Non-vacuity of C02: the example ClientHello is accepted, and is not bare. -/
example : parseHandshake 1 (Spec.clientHello exampleCH) = .ok (.clientHello exampleCH) ∧
    ¬ IsBareClientHello (.clientHello exampleCH) (Spec.clientHello exampleCH) := by
  refine ⟨parseHandshake_of_fits (.clientHello exampleCH)
    (by simp only [Spec.Fits, Spec.ClientHelloFits]; decide) trivial, ?_⟩
  rintro ⟨c, h, hx, _⟩
  cases h; simp [exampleCH] at hx

/-- The documented exception is real: a bare ClientHello is accepted with no extensions, and
re-encodes to a different (two bytes longer) string. -/
example : ∃ bs m, parseHandshake 1 bs = .ok m ∧ IsBareClientHello m bs ∧
    m.encodeBody ≠ .ok bs := by
  let c : ClientHello := { exampleCH with extensions := [] }
  have hf : Spec.ClientHelloFits c := by simp only [Spec.ClientHelloFits]; decide
  refine ⟨Spec.clientHelloNoExtensions c, .clientHello c, ?_, ⟨c, rfl, rfl, rfl⟩, ?_⟩
  · have : decodeClientHello (Spec.clientHelloNoExtensions c) = .ok c := by
      rw [decodeClientHello, decodeAll_eq_ok, readClientHello_eq_ok]
      exact ⟨hf, .inr ⟨rfl, rfl, rfl⟩⟩
    simp [parseHandshake, HandshakeType.client_hello, this]
  · rw [ne_eq, encodeBody_eq_ok]
    rintro ⟨_, h⟩
    have := congrArg List.length h
    revert this; decide

/-- An inner length that is not exactly filled is refused (a vector of two-byte elements whose
declared length is 3). -/
example : decodeEncryptedExtensions [0, 3, 0, 5, 0, 0] =
    .error (Failure.rt "Invalid data length supplied") := by decide

/-! ## C22 -/

/-- C22: with a fixed protocol prefix, two HKDF labels that encode to the same bytes have the same
length, label and context: no two different derivations share an `info` string. -/
theorem C22_injective (pre : Bytes) (l₁ l₂ : UInt16) (n₁ n₂ c₁ c₂ bs : Bytes)
    (h₁ : encodeHkdfLabel l₁ n₁ c₁ pre = .ok bs) (h₂ : encodeHkdfLabel l₂ n₂ c₂ pre = .ok bs) :
    l₁ = l₂ ∧ n₁ = n₂ ∧ c₁ = c₂ := by
  simp only [encodeHkdfLabel, Res.bind_eq_ok, writeU16, writeBuf_eq_ok, Res.pure_eq,
    Except.ok.injEq, pow_u8] at h₁ h₂
  obtain ⟨_, rfl, _, ⟨a1, rfl⟩, _, ⟨a2, rfl⟩, h⟩ := h₁
  obtain ⟨_, rfl, _, ⟨b1, rfl⟩, _, ⟨b2, rfl⟩, rfl⟩ := h₂
  rw [List.append_assoc, List.append_assoc] at h
  have e1 := List.append_inj h (by simp)
  have e2 : l₁.toNat = l₂.toNat :=
    beEnc_inj (by simpa using l₁.toNat_lt) (by simpa using l₂.toNat_lt) e1.1
  have r1 : ∀ (x y rest rest' : Bytes), x.length < 256 → y.length < 256 →
      vec .u8 x ++ rest = vec .u8 y ++ rest' → x = y ∧ rest = rest' := by
    intro x y rest rest' hx hy he
    have p1 : readBuf .u8 (vec .u8 x ++ rest) = .ok ((x, _), rest) :=
      readBuf_eq_ok.2 ⟨hx, rfl, rfl⟩
    have p2 : readBuf .u8 (vec .u8 y ++ rest') = .ok ((y, _), rest') :=
      readBuf_eq_ok.2 ⟨hy, rfl, rfl⟩
    rw [he, p2] at p1
    simp at p1
    exact ⟨p1.1.1.symm, p1.2.symm⟩
  obtain ⟨e3, e4⟩ := r1 _ _ _ _ a1 b1 e1.2
  have e5 := r1 _ _ [] [] a2 b2 (by simpa using e4)
  exact ⟨UInt16.toNat_inj.mp e2, List.append_cancel_left e3, e5.1⟩

/-- C22 (layout): the label is the RFC 8446 section 7.1 structure. -/
theorem C22_layout (l : UInt16) (label ctx pre bs : Bytes)
    (h : encodeHkdfLabel l label ctx pre = .ok bs) : bs = Spec.hkdfLabel l label ctx pre := by
  simp only [encodeHkdfLabel, Res.bind_eq_ok, writeU16, writeBuf_eq_ok, Res.pure_eq,
    Except.ok.injEq, pow_u8] at h
  obtain ⟨_, rfl, _, ⟨_, rfl⟩, _, ⟨_, rfl⟩, rfl⟩ := h
  rfl

/-- C22 (no truncation): it fails exactly when the prefixed label or the context exceeds 255
bytes. -/
theorem C22_refuses (l : UInt16) (label ctx pre : Bytes) :
    (∃ bs, encodeHkdfLabel l label ctx pre = .ok bs) ↔
      pre.length + label.length ≤ 255 ∧ ctx.length ≤ 255 := by
  simp only [encodeHkdfLabel, Res.bind_eq_ok, writeU16, writeBuf_eq_ok, Res.pure_eq,
    Except.ok.injEq, pow_u8]
  constructor
  · rintro ⟨_, _, rfl, _, ⟨h1, rfl⟩, _, ⟨h2, rfl⟩, rfl⟩
    simp at h1; omega
  · rintro ⟨h1, h2⟩
    exact ⟨_, _, rfl, _, ⟨by simp; omega, rfl⟩, _, ⟨by omega, rfl⟩, rfl⟩

/-- Non-vacuity: "tls13 " + "key" with an empty context encodes to the RFC bytes. -/
example : encodeHkdfLabel 16 [107, 101, 121] [] [116, 108, 115, 49, 51, 32] =
    .ok [0, 16, 9, 116, 108, 115, 49, 51, 32, 107, 101, 121, 0] := by decide

end Fizz.Codec
