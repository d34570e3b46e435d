import Verif.Util.NamesProps

/-!
# The registered numbers

The numbers of the names that `toString` prints, as RFC 8446 and IANA assign them (in decimal, in the order of the
documents), with the private-use numbers of fizz apart.
-/

namespace Fizz.Names.Registry

/-- RFC 8446, 6 (with the alerts it lists as reserved that fizz still names), and ech_required. -/
def alerts : List (Nat × String) :=
  [ (0, "close_notify"), (10, "unexpected_message"), (20, "bad_record_mac"), (22, "record_overflow"),
    (40, "handshake_failure"), (42, "bad_certificate"), (43, "unsupported_certificate"),
    (44, "certificate_revoked"), (45, "certificate_expired"), (46, "certificate_unknown"),
    (47, "illegal_parameter"), (48, "unknown_ca"), (49, "access_denied"), (50, "decode_error"),
    (51, "decrypt_error"), (70, "protocol_version"), (71, "insufficient_security"), (80, "internal_error"),
    (86, "inappropriate_fallback"), (90, "user_canceled"), (109, "missing_extension"),
    (110, "unsupported_extension"), (111, "certificate_unobtainable"), (112, "unrecognized_name"),
    (113, "bad_certificate_status_response"), (114, "bad_certificate_hash_value"),
    (115, "unknown_psk_identity"), (116, "certificate_required"), (120, "no_application_protocol"),
    (121, "ech_required"),
    -- TLS 1.3 drafts, up to 19
    (1, "end_of_early_data") ]

/-- RFC 8446, 4.2, and IANA's list of extension types; `supported_versions` is printed without its last letter. -/
def extensions : List (Nat × String) :=
  [ (0, "server_name"), (10, "supported_groups"), (13, "signature_algorithms"),
    (16, "application_layer_protocol_negotiation"), (21, "padding"), (24, "token_binding"),
    (27, "compress_certificate"), (34, "delegated_credential"), (41, "pre_shared_key"), (42, "early_data"),
    (43, "supported_version"), (44, "cookie"), (45, "psk_key_exchange_modes"), (47, "certificate_authorities"),
    (49, "post_handshake_auth"), (50, "signature_algorithms_cert"), (51, "key_share"),
    (57, "quic_transport_parameters"), (64768, "ech_outer_extensions"), (65037, "encrypted_client_hello"),
    -- not registered
    (65283, "ech_nonce"), (65284, "test_extension"), (65345, "thrift_parameters"),
    (65445, "quic_transport_parameters_draft") ]

/-- RFC 8446, 4.2.7, the ML-KEM groups of IANA's list, and the withdrawn and private groups. -/
def groups : List (Nat × String) :=
  [ (23, "secp256r1"), (24, "secp384r1"), (25, "secp521r1"), (29, "x25519"), (30, "x448"),
    (512, "MLKEM512"), (513, "MLKEM768"), (514, "MLKEM1024"), (4587, "SecP256r1MLKEM768"),
    (4588, "X25519MLKEM768"), (25497, "x25519_kyber768_draft00"), (25498, "secp256r1_kyber768_draft00"),
    -- not registered
    (511, "kyber512"), (12089, "x25519_kyber512"), (65024, "x25519_kyber768_experimental"),
    (65025, "x25519_kyber512_experimental"), (65026, "X25519MLKEM512_FB") ]

/-- RFC 8446, 4.2.3: the hash's number (sha1 is 2, sha256 is 4, sha384 is 5, sha512 is 6) and the algorithm's
(rsa is 1, ecdsa is 3), or 8 and a number. -/
def schemes : List (Nat × String) :=
  [ (2 * 256 + 1, "rsa_pkcs1_sha1"), (2 * 256 + 3, "ecdsa_sha1"),
    (4 * 256 + 1, "rsa_pkcs1_sha256"), (5 * 256 + 1, "rsa_pkcs1_sha384"), (6 * 256 + 1, "rsa_pkcs1_sha512"),
    (4 * 256 + 3, "ecdsa_secp256r1_sha256"), (5 * 256 + 3, "ecdsa_secp384r1_sha384"),
    (6 * 256 + 3, "ecdsa_secp521r1_sha512"),
    (8 * 256 + 4, "rsa_pss_sha256"), (8 * 256 + 5, "rsa_pss_sha384"), (8 * 256 + 6, "rsa_pss_sha512"),
    (8 * 256 + 7, "ed25519"), (8 * 256 + 8, "ed448"),
    -- private use: batch signing
    (65024, "ecdsa_secp256r1_sha256_batch"), (65025, "ecdsa_secp384r1_sha384_batch"),
    (65026, "ecdsa_secp521r1_sha512_batch"), (65027, "ed25519_batch"), (65028, "ed448_batch"),
    (65029, "rsa_pss_sha256_batch") ]

/-- RFC 8446, B.4, draft-irtf-cfrg-aegis-aead, and private numbers. -/
def suites : List (Nat × String) :=
  [ (19 * 256 + 1, "TLS_AES_128_GCM_SHA256"), (19 * 256 + 2, "TLS_AES_256_GCM_SHA384"),
    (19 * 256 + 3, "TLS_CHACHA20_POLY1305_SHA256"), (19 * 256 + 6, "TLS_AEGIS_256_SHA512"),
    (19 * 256 + 7, "TLS_AEGIS_128L_SHA256"), (255 * 256 + 1, "TLS_AEGIS_128X2_SHA256"),
    (255 * 256 + 3, "TLS_AEGIS_128X4_SHA256") ]

/-- Versions: 3 and one more than the minor number; drafts 127 (251 for private ones) and the draft's number. -/
def versions : List (Nat × String) :=
  [ (3 * 256 + 1, "TLSv1.0"), (3 * 256 + 2, "TLSv1.1"), (3 * 256 + 3, "TLSv1.2"), (3 * 256 + 4, "TLSv1.3"),
    (127 * 256 + 23, "TLSv1.3-draft-23"), (251 * 256 + 23, "TLSv1.3-draft-23-fb"),
    (127 * 256 + 26, "TLSv1.3-draft-26"), (251 * 256 + 26, "TLSv1.3-draft-26-fb"),
    (127 * 256 + 28, "TLSv1.3-draft-28") ]

/-- RFC 8446, 4.2.9. -/
def modes : List (Nat × String) := [(0, "psk_ke"), (1, "psk_dhe_ke")]

/-- RFC 8879, 7.3. -/
def compressions : List (Nat × String) := [(1, "zlib"), (2, "brotli"), (3, "zstd")]

/-- A printing function names the registered numbers as registered and prints any other in hexadecimal. -/
def Prints {α} (num : α → Nat) (print hex : α → String) (registry : List (Nat × String)) : Prop :=
  (∀ v name, (num v, name) ∈ registry → print v = name) ∧
  ∀ v, (∀ name, (num v, name) ∉ registry) → print v = hex v

end Fizz.Names.Registry

namespace Fizz.Names

open Registry in
theorem prints_of {α} [DecidableEq α] {num : α → Nat} (hn : ∀ a b, num a = num b → a = b)
    {t : List (α × String)} {hex : α → String} {registry : List (Nat × String)}
    (h1 : ∀ e ∈ registry, ∃ x ∈ t, num x.1 = e.1 ∧ nameIn t x.1 = some e.2)
    (h2 : ∀ x ∈ t, (num x.1, x.2) ∈ registry) :
    Prints num (fun v => (nameIn t v).getD (hex v)) hex registry := by
  constructor
  · intro v name hv
    obtain ⟨x, _, hx, he⟩ := h1 _ hv
    rw [hn _ _ hx] at he
    simp only [he, Option.getD_some]
  · intro v hv
    cases h : nameIn t v with
    | none => simp [h]
    | some n => exact absurd (h2 _ (nameIn_mem h)) (hv n)

/-- **C100 (registered numbers).** Each printing function gives a registered number its registered name, and every
other number of the wire its hexadecimal digits. -/
theorem C100_registered :
    Registry.Prints UInt8.toNat alertName hex8 Registry.alerts ∧
    Registry.Prints UInt16.toNat extensionName hex16 Registry.extensions ∧
    Registry.Prints UInt16.toNat groupName hex16 Registry.groups ∧
    Registry.Prints UInt16.toNat schemeName hex16 Registry.schemes ∧
    Registry.Prints UInt16.toNat suiteName hex16 Registry.suites ∧
    Registry.Prints UInt16.toNat versionName hex16 Registry.versions ∧
    Registry.Prints UInt8.toNat pskModeName hex8 Registry.modes ∧
    Registry.Prints UInt16.toNat compressionName hex16 Registry.compressions := by
  have h8 : ∀ a b : UInt8, a.toNat = b.toNat → a = b := fun _ _ => UInt8.toNat_inj.mp
  have h16 : ∀ a b : UInt16, a.toNat = b.toNat → a = b := fun _ _ => UInt16.toNat_inj.mp
  refine ⟨prints_of h8 ?_ ?_, prints_of h16 ?_ ?_, prints_of h16 ?_ ?_, prints_of h16 ?_ ?_, prints_of h16 ?_ ?_,
    prints_of h16 ?_ ?_, prints_of h8 ?_ ?_, prints_of h16 ?_ ?_⟩ <;> decide +kernel

/-- A registered and an unregistered number. -/
example : alertName 47 = "illegal_parameter" ∧ alertName 2 = "02" ∧ (∀ name, (2, name) ∉ Registry.alerts) := by
  refine ⟨by decide +kernel, by decide +kernel, ?_⟩
  intro name h
  simp [Registry.alerts] at h

end Fizz.Names
