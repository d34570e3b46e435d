{"id": "C01", "title": "Handshake messages survive encode/decode", "statement": "For every handshake message that encode() accepts (ClientHello, ServerHello, HelloRetryRequest, EncryptedExtensions, Certificate, CompressedCertificate, CertificateRequest, CertificateVerify, Finished, NewSessionTicket, KeyUpdate, EndOfEarlyData, Alert), decode() of the produced bytes succeeds and returns the same field values; encode() itself fails (throws) exactly when some length-prefixed field does not fit its length prefix.", "quantifier": "all messages with any number and size of extensions, cipher suites, certificates, opaque fields", "why_tests_cant": "The space of nested length-prefixed vectors is infinite; boundary sizes 2^8, 2^16, 2^24 of every nested field cannot be enumerated.", "anchors": ["fizz/record/Types-inl.h: encode<...>, decode, detail::writeVector, detail::writeBuf, detail::readVector, detail::readBuf, detail::writeBits24"]}
{"id": "C02", "title": "Decoding is strict: whole input, exact vector lengths, canonical bytes", "statement": "If decode<T>() succeeds on a byte string then the string is exactly consumed (one more trailing byte makes it fail), every inner vector's declared length is exactly filled by its elements, and re-encoding the decoded message yields the same byte string (with the single documented exception of a ClientHello without an extensions block). Hence two different byte strings never decode to the same message.", "quantifier": "all byte strings given to decode for every handshake message type", "why_tests_cant": "Quantifies over all malformed inputs; fuzzing only samples them.", "anchors": ["fizz/record/Types-inl.h: decode, ReadVector::readVector, Reader<Extension>, Reader<CertificateEntry>"]}
{"id": "C03", "title": "Extensions survive encodeExtension/getExtension", "statement": "For each typed extension (supported_groups, key_share, pre_shared_key, cookie, ALPN, SNI, signature_algorithms, supported_versions, psk modes, early_data, certificate_authorities, compress_certificate) getExtension on any extension list whose first extension of that type is encodeExtension(x) returns x; it returns none iff no extension of the type is present; and it fails if bytes are left over.", "quantifier": "all extension values and all surrounding extension lists", "why_tests_cant": "Unbounded lists and values, arbitrary positions.", "anchors": ["fizz/record/Extensions-inl.h: getExtension, encodeExtension, findExtension"]}
{"id": "C04", "title": "Plaintext records: write then read is identity", "statement": "Bytes produced by PlaintextWriteRecordLayer::write for a non-application-data message, fed to PlaintextReadRecordLayer::read, give back records whose fragments concatenate to the message, each of at most 2^14 bytes and non-empty, with the same content type, leaving exactly any following bytes unread; application data is always refused.", "quantifier": "all handshake/alert messages of any length and any bytes following them", "why_tests_cant": "Message length is unbounded, and trailing input is arbitrary.", "anchors": ["fizz/record/PlaintextRecordLayer.cpp: PlaintextWriteRecordLayer::write, PlaintextReadRecordLayer::read"]}
{"id": "C05", "title": "Encrypted records: in-order write then read is identity", "statement": "For any correct AEAD, any padding policy, any max record size in 1..2^14 and any fragmentation of the application buffers, reading the bytes EncryptedWriteRecordLayer::write produced with a reader at the same sequence number yields the same content type and the same byte stream, and leaves both sides at the same sequence number; this holds for any sequence of writes.", "quantifier": "all byte streams, all IOBuf chain shapes, all padding settings, all sequences of writes", "why_tests_cant": "Infinitely many chain shapes/sizes/paddings and write histories.", "anchors": ["fizz/record/EncryptedRecordLayer.cpp: EncryptedWriteRecordLayer::write, EncryptedReadRecordLayer::read, getDecryptedBuf", "fizz/record/BufAndPaddingPolicy.cpp: getBufAndPaddingToEncrypt"]}
{"id": "C06", "title": "No nonce is ever used twice under one write key; sequence numbers never wrap", "statement": "Over the life of an encrypted write layer (one AEAD key), each record is sealed under a distinct nonce: sequence numbers used are consecutive and strictly increasing and the nonce derived from (iv, seq) is injective in seq; once the sequence number reaches 2^64-1 every further write fails instead of wrapping, and the same for reads.", "quantifier": "all histories of writes with arbitrary sizes, all IVs, all sequence numbers up to 2^64-1", "why_tests_cant": "2^64 records cannot be written in a test, and the history space is infinite.", "anchors": ["fizz/record/EncryptedRecordLayer.cpp: seqNum_", "fizz/record/EncryptedRecordLayer.h: setAead", "fizz/crypto/aead/CryptoUtil.h: createIV"]}
{"id": "C07", "title": "Every emitted encrypted record respects the TLS size limits", "statement": "Each record written carries at most maxRecord content bytes, padding that together with the content never exceeds maxRecord, a 16-bit length field equal to the true ciphertext length (no truncation), and is at most 2^14+256 bytes for any AEAD with overhead up to 255, so a fizz reader never rejects it as too long or empty.", "quantifier": "all content sizes, chain shapes, padding policies/moduli and max record sizes", "why_tests_cant": "Arithmetic corner cases (uint16 wrap, modulo, empty buffers) over all parameter combinations.", "anchors": ["fizz/record/BufAndPaddingPolicy.cpp", "fizz/record/EncryptedRecordLayer.cpp: EncryptedWriteRecordLayer::write"]}
{"id": "C08", "title": "Reading does not depend on how the transport segments the bytes", "statement": "Delivering a byte stream to the record layer in any segmentation produces the same sequence of protocol events and the same error as delivering it at once, up to and including the first close_notify or error.", "quantifier": "all byte streams and all ways to cut them", "why_tests_cant": "Exponentially many segmentations of infinitely many streams.", "anchors": ["fizz/record/RecordLayer.cpp: ReadRecordLayer::readEvent, decodeHandshakeMessage", "fizz/record/PlaintextRecordLayer.cpp: read", "fizz/record/EncryptedRecordLayer.cpp: getDecryptedBuf"]}
{"id": "C09", "title": "Size hints are exact and progress is guaranteed", "statement": "When reading returns 'need more data' with hint n then n>0, no input shorter by at least one than n extra bytes can change that answer, and n further bytes always complete the pending header or record. A successful read consumes at least the record header, so a caller looping on read always terminates.", "quantifier": "all buffer contents", "why_tests_cant": "Quantifies over all partial inputs and all possible continuations.", "anchors": ["fizz/record/PlaintextRecordLayer.cpp: read", "fizz/record/EncryptedRecordLayer.cpp: getDecryptedBuf", "fizz/record/RecordLayer.h: ReadResult::sizeHint"]}
{"id": "C10", "title": "Handshake messages are reassembled exactly, never interleaved with other content", "statement": "The handshake messages delivered are exactly the parse of the concatenation of handshake record fragments: message boundaries are independent of record boundaries, each message's original encoding is the exact bytes received, a non-handshake record in the middle of a handshake message is always an error, and no message above 128 KiB is ever accepted.", "quantifier": "all sequences of records and all splittings of messages across records", "why_tests_cant": "All fragmentations of all message sequences.", "anchors": ["fizz/record/RecordLayer.cpp: readEvent, decodeHandshakeMessage", "fizz/record/Types.h: kMaxHandshakeSize"]}
{"id": "C11", "title": "Only authenticated record contents are delivered", "statement": "Encrypted reading delivers a plaintext only if the AEAD accepted it for the current sequence number with the record header as associated data; without skip mode the first rejected record is a fatal error; with skip mode rejected records are dropped without consuming a sequence number until the first success, which ends skip mode for good. Change-cipher-spec records other than the single byte 0x01 are fatal and those equal to 0x01 are ignored without consuming a sequence number.", "quantifier": "all input streams and all AEAD behaviours", "why_tests_cant": "Adversarial streams are unbounded.", "anchors": ["fizz/record/EncryptedRecordLayer.cpp: getDecryptedBuf"]}
{"id": "C12", "title": "The sliding bloom replay cache has no false negatives inside its window", "statement": "After check(x), any later check(x) reports MaybeReplay as long as fewer than 12 bucket rotations happened in between, whatever other queries and rotations happened; in particular for elapsed time below 11 bucket widths whatever the timer phase. (The constructor documents a full TTL; see C13.)", "quantifier": "all histories of check/rotation operations, all hash functions, all filter sizes", "why_tests_cant": "False negatives are a property of every interleaving of inserts and rotations.", "anchors": ["fizz/server/SlidingBloomReplayCache.cpp: testAndSet, set, test, clear, clearBucket"]}
{"id": "C13", "title": "The replay cache remembers every query for its configured TTL", "statement": "A query inserted at time t is reported as MaybeReplay at every time up to t + ttlInSecs.", "quantifier": "all ttl values, insertion times and timer phases", "why_tests_cant": "Depends on the phase of the timer relative to the insertion; a test sees only the phase it runs at.", "anchors": ["fizz/server/SlidingBloomReplayCache.cpp: constructor bucketWidthInMs_, timeoutExpired, clear"]}
{"id": "C14", "title": "Parameter negotiation picks the best common value", "statement": "negotiate() returns a value iff the two sides share one; the result is always offered by the client and configured by the server, lies in the earliest server tier that contains a common value, and within that tier is the client's most preferred (for the flat form: the server's most preferred common value).", "quantifier": "all preference lists of any length including duplicates and empty tiers", "why_tests_cant": "All pairs of lists.", "anchors": ["fizz/server/Negotiator.h: negotiate"]}
{"id": "C15", "title": "Certificate selection returns only a matching certificate", "statement": "DefaultCertManager::getCert returns a certificate only if it was added under an identity that equals the SNI (case-insensitively), or covers it by a single-label wildcard, or under the default; the chosen scheme is supported by that certificate, by the server and by the peer; exact match has priority over wildcard, which has priority over default; and the earliest-added certificate for an identity and scheme wins.", "quantifier": "all sequences of addCert calls, all SNIs, all scheme lists", "why_tests_cant": "History of additions and string matching are unbounded.", "anchors": ["fizz/server/DefaultCertManager.cpp: getCert, findCert, addCert, addCertIdentity, getKeyFromIdent"]}
{"id": "C16", "title": "Tokens survive key rotation and only then", "statement": "A token encrypted by the token cipher decrypts to the same plaintext under any later secret list that still contains the encrypting secret (in any position) with the same context strings; with an empty secret list encryption and decryption yield none; setSecrets with any too-short secret changes nothing.", "quantifier": "all histories of setSecrets/encrypt/decrypt, all plaintexts, salts and secrets", "why_tests_cant": "Rotation histories are unbounded.", "anchors": ["fizz/server/AeadTokenCipher.cpp: setSecrets, encrypt, decrypt, createAead"]}
{"id": "C17", "title": "Session tickets decode to the state they encode", "statement": "TicketCodec decode(encode(s)) returns the same version, cipher, resumption secret, ticket age add, issue/handshake time (in whole seconds), ALPN, app token and certificate identities (per storage mode); an older ticket without the trailing fields still decodes with handshake time = issue time; truncated tickets are rejected.", "quantifier": "all resumption states and all truncation points", "why_tests_cant": "Unbounded field contents and all storage modes.", "anchors": ["fizz/server/TicketCodec-inl.h: encode, decode", "fizz/server/TicketCodec.cpp: appendClientCertificate, readClientCertificate"]}
{"id": "C18", "title": "Stateless cookies decode to the state they encode", "statement": "decodeCookie(encodeCookie(s)) = s for every cookie state, so a server that decrypts a cookie reconstructs the same version, cipher, group, ClientHello hash, app token and ECH parameters the issuing server recorded, and the same HelloRetryRequest bytes.", "quantifier": "all cookie states", "why_tests_cant": "Unbounded token contents and optional-field combinations.", "anchors": ["fizz/server/AeadCookieCipher.cpp: encodeCookie, decodeCookie", "fizz/server/CookieCipher.cpp: getStatelessHelloRetryRequest, getCookieState"]}
{"id": "C19", "title": "Serialized client PSKs restore faithfully", "statement": "deserializePsk(serializePsk(p)) restores every field of a cached PSK (times at the stored resolution, ALPN absent and empty identified, certificates through the supplied serializer), for times that do not overflow; overflowing times are clamped to the maximum, never wrapped.", "quantifier": "all cached PSKs", "why_tests_cant": "Unbounded field contents and extreme time values.", "anchors": ["fizz/client/PskSerializationUtils.cpp: serializePsk, deserializePsk, clampTimePoint"]}
{"id": "C20", "title": "PSK caches behave as maps; the LRU cache is bounded and never returns an expired PSK", "statement": "BasicPskCache returns the last PSK put for an identity and not removed since. SynchronizedLruPskCache never holds more than its capacity, never returns a PSK after its expiration time, returns only the last value put for that identity, and evicts only the least recently used entry.", "quantifier": "all histories of put/get/remove with arbitrary clock readings", "why_tests_cant": "Histories are unbounded.", "anchors": ["fizz/client/PskCache.h: BasicPskCache", "fizz/client/SynchronizedLruPskCache.cpp"]}
{"id": "C21", "title": "Client and server key schedules agree, and calls in protocol order never fail", "statement": "Two key schedulers driven with the same PSK (or none), ECDHE secret and transcripts produce identical secrets at every stage and stay identical under any sequence of key updates applied to both; calls made in the documented order never dereference an absent secret, and calling deriveEarlySecret twice, or deriving the master secret out of order, is reported as an error.", "quantifier": "all inputs, all sequences of key-schedule calls including repeated key updates", "why_tests_cant": "All call sequences and all secret values.", "anchors": ["fizz/protocol/KeyScheduler.cpp", "fizz/protocol/KeyScheduler.h"]}
{"id": "C22", "title": "HKDF labels are domain separated", "statement": "encodeHkdfLabel is injective: two different (length, label, context) triples never yield the same info string; over-long labels or contexts are refused rather than truncated.", "quantifier": "all lengths, labels and contexts", "why_tests_cant": "All pairs of triples.", "anchors": ["fizz/record/Types-inl.h: encodeHkdfLabel"]}
{"id": "C23", "title": "HKDF-Expand equals RFC 5869", "statement": "Hkdf::expand outputs the first L bytes of T(1)||T(2)||... with T(i)=HMAC(prk, T(i-1)||info||i) for every L up to 255*HashLen, refuses larger L, returns exactly L bytes, and shorter outputs are prefixes of longer ones.", "quantifier": "all keys, info strings, lengths and HMAC functions", "why_tests_cant": "All lengths, and the buffer-reuse optimisation must be right on every round.", "anchors": ["fizz/crypto/Hkdf.cpp: Hkdf::expand"]}
{"id": "C24", "title": "The connection event queue is FIFO, serial and respects pause", "statement": "Application events (writes, early writes, key updates, tickets, close) are handed to the state machine in the order submitted, each at most once, never while a previous action is still completing, never while paused, and never after the connection is in a terminal state; socket data already available is processed before queued application events.", "quantifier": "all interleavings of API calls, asynchronous completions, pauses and reentrant callbacks", "why_tests_cant": "All schedules of asynchronous completions.", "anchors": ["fizz/protocol/FizzBase-inl.h: processPendingEvents, processActions, addProcessingActions, pause, resume"]}
{"id": "C25", "title": "Moving to the error state reports every queued write exactly once", "statement": "moveToErrorState invokes the callback exactly once for each queued write that carries a token, in order, empties the queue, does nothing on later calls, and afterwards no queued event is processed.", "quantifier": "all queue contents and repeated/reentrant calls", "why_tests_cant": "All queue contents and call sequences.", "anchors": ["fizz/protocol/FizzBase-inl.h: moveToErrorState"]}
{"id": "C26", "title": "Server delivers application data only after authentication of the peer's Finished, or as accepted early data", "statement": "In every execution of the server state machine, application data is delivered to the user only in states reached after the client's Finished was verified, or while early data was accepted for this connection; handshake success is reported at most once and only after the Finished MAC check succeeded.", "quantifier": "all sequences of events from network and application", "why_tests_cant": "All adversarial event sequences.", "anchors": ["fizz/server/ServerProtocol.cpp: EventHandler<...>"]}
{"id": "C27", "title": "Server accepts early data only under all configured conditions", "statement": "Early data is accepted only if it was offered, enabled, a PSK was accepted with the same cipher and ALPN, no HelloRetryRequest or cookie was involved, the replay cache answered NotReplay, the clock skew is inside the configured tolerance and the app token validator (if any) approved; otherwise early records are skipped, never delivered.", "quantifier": "all ClientHellos, contexts and replay/ticket results", "why_tests_cant": "Combination of conditions over all inputs.", "anchors": ["fizz/server/ServerProtocol.cpp: negotiateEarlyDataType, getClockSkew, getReplayCacheResult"]}
{"id": "C28", "title": "Error and Closed are terminal (server)", "statement": "Once a server connection is in Error or Closed, nothing further is processed: no data is delivered or written and no success is reported, and it never becomes usable again (Error stays Error; a second accept() may turn Closed into Error). A failure is reported to the application at most once; an alert is the last thing the connection writes, so there is at most one, and it is protected by the keys in force. The record layers with their traffic keys are gone in both directions (except when the connection was handed to the fallback for older versions).", "quantifier": "all configurations and all connection histories", "why_tests_cant": "All continuations after an error.", "anchors": ["fizz/server/ServerProtocol.cpp: handleError, handleAppClose, handleAppCloseImmediate, handleInvalidEvent", "fizz/protocol/FizzBase-inl.h"]}
{"id": "C29", "title": "Required client authentication cannot be bypassed", "statement": "With client auth Required and no PSK accepted, the server reports handshake success only after receiving a non-empty client certificate that the verifier accepted and a CertificateVerify whose signature verified under that certificate.", "quantifier": "all event sequences", "why_tests_cant": "All adversarial event sequences.", "anchors": ["fizz/server/ServerProtocol.cpp: ExpectingCertificate, ExpectingCertificateVerify, ExpectingFinished handlers"]}
{"id": "C30", "title": "Client reports success only to an authenticated server", "statement": "The client reports handshake success only after the server Finished MAC verified and, unless a PSK was negotiated, after the server certificate was verified and its CertificateVerify signature checked over the transcript with an offered signature scheme.", "quantifier": "all event sequences", "why_tests_cant": "All adversarial event sequences.", "anchors": ["fizz/client/ClientProtocol.cpp: EventHandler<...>"]}
{"id": "C31", "title": "Client accepts only parameters it offered", "statement": "The version, cipher, group, PSK identity, ALPN and extensions the client ends up using were all offered in its ClientHello, and are unchanged across a HelloRetryRequest, of which at most one is accepted.", "quantifier": "all server messages", "why_tests_cant": "All adversarial server messages.", "anchors": ["fizz/client/ClientProtocol.cpp: negotiateParams, HelloRetryRequest handler, validateNegotiationConsistency"]}
{"id": "C32", "title": "Every Merkle proof handed out verifies, for every batch size", "statement": "For a batch-signature tree with any number of appended messages, after finalization getPath(i) succeeds for every appended leaf and computeRootFromPath(msg_i, path_i) equals the tree root; and (for a collision-free hash) a proof accepted for a message proves that the message is the leaf at that index.", "quantifier": "all batch sizes and message contents", "why_tests_cant": "All sizes: the balancing step behaves differently for every binary pattern of the size.", "anchors": ["fizz/experimental/crypto/MerkleTree.h: append, addNode, finalizeTree, getPath, computeRootFromPath"]}
{"id": "C33", "title": "Batch signatures round trip and batches never mix", "statement": "BatchSignature decode(encode(s)) = s; the to-be-signed encoding is injective in (scheme, root); in any interleaving of addMessageAndSign calls each message gets an index in exactly one batch whose tree contains it at that index, and a batch is signed exactly when it reaches the threshold.", "quantifier": "all interleavings and batch thresholds", "why_tests_cant": "All schedules.", "anchors": ["fizz/experimental/crypto/BatchSignature.h", "fizz/experimental/batcher/Batcher.h: SynchronizedBatcher::addMessageAndSign"]}
{"id": "C34", "title": "ECH inner hello compression is lossless", "statement": "Replacing inner ClientHello extensions by an outer-extensions reference and expanding it at the server reproduces the inner extension list exactly whenever the compressed types stand next to each other in it (otherwise the same extensions come back, gathered at the place of the first); expansion gives, in order, the outer hello's extension for every listed type; a malformed reference (missing from the outer hello, out of order, duplicate, self reference, ECH itself, undecodable) is rejected.", "quantifier": "all extension lists and substitution sets", "why_tests_cant": "All lists and references.", "anchors": ["fizz/protocol/ech/Encryption.cpp: substituteOuterExtensions / expand outer extensions"]}
{"id": "C35", "title": "HPKE contexts never reuse a nonce", "statement": "Successive seal/open calls on one HPKE context use distinct nonces, sender and receiver stay in step, and the message limit is an error rather than a wrap.", "quantifier": "all sequences of seal/open calls", "why_tests_cant": "Limit is 2^96-scale; histories unbounded.", "anchors": ["fizz/crypto/hpke/Context.cpp: seal, open, incrementSeq, computeNonce"]}
{"id": "C36", "title": "Hybrid key exchange splits exactly what the peer concatenated", "statement": "For two correct component exchanges, hybrid client and server derive the same shared secret, which is the concatenation of the component secrets in the configured order; a share of any other length than the sum of the component lengths is rejected.", "quantifier": "all component exchanges and share contents/lengths", "why_tests_cant": "All lengths and contents.", "anchors": ["fizz/crypto/exchange/HybridKeyExchange.cpp"]}
{"id": "C37", "title": "Cipher processing does not depend on buffer fragmentation", "statement": "transformBuffer and transformBufferBlocks applied to any input chain and any output chain of the same total length hand the cipher the input bytes in order, exactly once, and lay its output out in order without ever writing past an output buffer.", "quantifier": "all chain shapes, block sizes up to 128", "why_tests_cant": "All pairs of fragmentations.", "anchors": ["fizz/crypto/aead/IOBufUtil.h: transformBuffer, transformBufferBlocks", "fizz/crypto/aead/CryptoUtil.h: encFuncBlocks, decFuncBlocks"]}
{"id": "C38", "title": "Ticket acceptance policy", "statement": "A ticket is accepted as resumption exactly if it decrypts, decodes and at least one second of the validity of its original handshake is left (the configured ticket validity only caps the advertised lifetime, it is not re-checked on acceptance); an issued ticket's advertised lifetime is positive and exceeds neither the remaining handshake validity nor the two configured validities; with a dual cipher a ticket is rejected only if both ciphers reject it, and new tickets always use the primary.", "quantifier": "all tickets, times, policies", "why_tests_cant": "All times.", "anchors": ["fizz/server/TicketPolicy.h", "fizz/server/AeadTicketCipher.h: encrypt, decrypt", "fizz/server/DualTicketCipher.h"]}
{"id": "C39", "title": "Delegated credentials are used only inside their validity", "statement": "A delegated credential is accepted only if the certificate permits it, it has not expired, its lifetime does not exceed the 7-day maximum, the algorithms match and the parent's signature over the encoded credential verifies; encode/decode of the credential is lossless.", "quantifier": "all credentials, certificates and clocks", "why_tests_cant": "All times and contents.", "anchors": ["fizz/extensions/delegatedcred/DelegatedCredentialFactory.cpp", "fizz/extensions/delegatedcred/DelegatedCredentialUtils.cpp", "fizz/extensions/delegatedcred/Types.cpp"]}
{"id": "C40", "title": "Exported authenticators verify exactly for the request and context they answer", "statement": "An authenticator produced for a request validates with the same request and exporter contexts and returns the certificate chain sent; one whose Finished does not match the recomputed MAC is rejected; an empty authenticator is accepted only as an explicit refusal.", "quantifier": "all requests, certificates, contexts", "why_tests_cant": "All adversarial authenticators.", "anchors": ["fizz/extensions/exportedauth/ExportedAuthenticator.cpp"]}
{"id": "C41", "title": "Binder truncation removes exactly the PSK binders", "statement": "For every ClientHello whose last extension is pre_shared_key, the length reported for the binders is the encoded length of the binders list, so that dropping that many bytes from the end of the encoded ClientHello leaves exactly the prefix the PSK binder must be computed over; the prefix does not depend on the binder values. If pre_shared_key is not the last extension an error is reported.", "quantifier": "every ClientHello, identities list and binders list", "why_tests_cant": "number and size of identities and binders are unbounded; an off-by-one on one shape breaks binder authentication", "anchors": ["fizz/record/Extensions-inl.h getBinderLength", "fizz/server/ServerProtocol.cpp", "fizz/client/ClientProtocol.cpp"]}
{"id": "C42", "title": "The plaintext reader never delivers application data and skips it only before the handshake resumes", "statement": "PlaintextReadRecordLayer::read delivers only handshake and alert records. With setSkipEncryptedRecords(true) complete application-data records are dropped unseen, and the first record delivered ends this mode; outside it an application-data header is a fatal error and no record other than the one-byte change_cipher_spec is ever passed over.", "quantifier": "all reader states, all received byte strings", "why_tests_cant": "ranges over all byte streams and all interleavings of early-data, change_cipher_spec and handshake records", "anchors": ["fizz/record/PlaintextRecordLayer.cpp: PlaintextReadRecordLayer::read"]}
{"id": "C43", "title": "HMAC equals RFC 2104 for every key length and fragmentation", "statement": "hmac(key, chain, out) writes exactly HMAC(key, concatenation of the chain) (RFC 2104) at the start of out and nothing else, for keys shorter than, equal to and longer than a block, and for every way the text is split in buffers; an output range shorter than the digest stops the process rather than being overrun.", "quantifier": "every hash algorithm with digest length at most the block size and block size at most 128, every key, text, fragmentation and output range", "why_tests_cant": "test vectors cover a handful of key lengths and one-buffer texts", "anchors": ["fizz/crypto/Hmac.cpp: hmac", "fizz/crypto/Hasher.h: Hasher"]}
{"id": "C44", "title": "Server sends only well-formed, authenticated handshake messages", "statement": "Every handshake message a server hands to the transport is one of: a HelloRetryRequest answering a ClientHello, the complete server flight answering a ClientHello (ServerHello with the negotiated parameters; then EncryptedExtensions, CertificateRequest when wanted, Certificate and CertificateVerify whose signature covers the transcript so far unless a PSK is used, Finished whose MAC covers the transcript so far), a NewSessionTicket, or a KeyUpdate.", "quantifier": "all configurations, all connection histories (any interleaving of peer messages, application calls, failures)", "why_tests_cant": "The set of histories is unbounded and the content of each message depends on everything exchanged before; tests compare mocked byte strings for a few histories.", "anchors": ["/repo/fizz/server/ServerProtocol.cpp: EventHandler<ServerTypes, StateEnum::ExpectingClientHello, Event::ClientHello>::handle", "/repo/fizz/server/ServerProtocol.cpp: generateTicket"]}
{"id": "C45", "title": "Server record protection keys", "statement": "At every point of a connection the keys that protect records in each direction are those RFC 8446 prescribes for the phase the connection is in: the handshake traffic secrets over the transcript through ServerHello, the early traffic secret over the transcript through ClientHello, the application secrets over the transcript through the server Finished after exactly as many updates as KeyUpdate messages were exchanged; and everything sent is protected by the key then in force.", "quantifier": "all configurations and all connection histories", "why_tests_cant": "Keys depend on the whole history including unboundedly many key updates.", "anchors": ["/repo/fizz/server/ServerProtocol.cpp", "/repo/fizz/protocol/Protocol.h: setAead", "/repo/fizz/protocol/KeyScheduler.cpp"]}
{"id": "C47", "title": "At most one HelloRetryRequest", "statement": "A server sends at most one HelloRetryRequest per connection, only in answer to the first ClientHello, and the flight that follows the second ClientHello uses the version, cipher suite and group the HelloRetryRequest announced and accepts no early data.", "quantifier": "all configurations and all connection histories", "why_tests_cant": "Must hold for every pair of hellos and everything that happens between them.", "anchors": ["/repo/fizz/server/ServerProtocol.cpp: EventHandler<ServerTypes, StateEnum::ExpectingClientHello, Event::ClientHello>::handle", "/repo/fizz/server/ServerProtocol.cpp: getHelloRetryRequest"]}
{"id": "C48", "title": "Server key updates move exactly one generation", "statement": "A KeyUpdate received from the client moves the client's traffic key exactly one generation; it is answered with one KeyUpdate (requesting nothing) exactly if it requested one, and only then does the server's key move; a KeyUpdate the application initiates moves only the server's key, by one generation, and is itself protected by the old key.", "quantifier": "all configurations and all connection histories", "why_tests_cant": "Unboundedly many interleaved updates in both directions.", "anchors": ["/repo/fizz/server/ServerProtocol.cpp: EventHandler<ServerTypes, StateEnum::AcceptingData, Event::KeyUpdate>::handle", "/repo/fizz/server/ServerProtocol.cpp: EventHandler<ServerTypes, StateEnum::AcceptingData, Event::KeyUpdateInitiation>::handle"]}
{"id": "C49", "title": "Session ticket contents", "statement": "Every NewSessionTicket a server sends carries a ticket made from this connection's own parameters: the negotiated version, cipher suite and application protocol, the certificates and the time of the handshake the session goes back to, and the PSK that RFC 8446 derives from the resumption master secret over the transcript through the client's Finished with the ticket's nonce.", "quantifier": "all configurations and all connection histories", "why_tests_cant": "The ticket depends on the whole handshake; a mixed-up field only shows on the later resumption.", "anchors": ["/repo/fizz/server/ServerProtocol.cpp: generateTicket", "/repo/fizz/server/ServerProtocol.cpp: EventHandler<ServerTypes, StateEnum::AcceptingData, Event::WriteNewSessionTicket>::handle"]}
{"id": "C46", "title": "What the server's accessors report is what was negotiated", "statement": "From the moment the server has written its flight until the connection ends, the negotiated parameters the server's state reports (version, cipher suite, key exchange group, application protocol, PSK type and mode, client random, application token, exporter secrets, early data status, server certificate, handshake time) are those of the one ClientHello that was answered and of the session it resumes; once the client's Finished has been verified, the reported client certificate is the one whose possession the client proved on this connection, or that of the resumed session, and nothing else.", "quantifier": "every server configuration, every history of socket events, application calls and asynchronous completions, every state after the server's flight", "why_tests_cant": "The parameters are set in several branches (HelloRetryRequest, PSK, cookie, ECH) and must survive every later event of an unbounded connection; tests check a few accessors after a few handshakes.", "anchors": ["fizz/server/ServerProtocol.cpp: EventHandler<ServerTypes, StateEnum::ExpectingClientHello, Event::ClientHello>::handle", "fizz/server/State.h: State"]}
{"id": "C50", "title": "Secrets announced to the application are the protocol's secrets under the right names", "statement": "Every secret the server announces through SecretAvailable is the RFC 8446 secret of the negotiation under the name it is announced with: with the flight the early client traffic secret (exactly if early data is accepted), the two handshake traffic secrets and the server application secret; with the client's verified Finished the first client application secret; with a key update the next generation of the direction being updated; nothing else is ever announced, and nothing is announced by a failing step.", "quantifier": "every server configuration, every history, every number of key updates in either direction", "why_tests_cant": "Depends on the number of key updates in both directions and on the branch of the handshake taken; a swapped name or a generation off by one is visible only for particular histories.", "anchors": ["fizz/server/ServerProtocol.cpp: SecretAvailable", "fizz/protocol/KeyScheduler.cpp: clientKeyUpdate, serverKeyUpdate"]}
{"id": "C51", "title": "Client delivers only the server's protected data", "statement": "Application data is handed to the user of a client only when the record layer in force is keyed with the server's application traffic secret of the current generation of a handshake that has been confirmed and reported as successful, or - the one exception - after the user itself called close(), when data still arriving under the read key in force at that time is delivered.", "quantifier": "all configurations, all server and application event sequences", "why_tests_cant": "Needs every history, including those with malicious servers.", "anchors": ["fizz/client/ClientProtocol.cpp: EventHandler<Established, AppData>, EventHandler<ExpectingCloseNotify, AppData>", "fizz/client/ClientProtocol.cpp: handleAppClose"]}
{"id": "C52", "title": "Client early data", "statement": "An early write is sent only under the early traffic key of the ClientHello that offered early data, while the server has not turned it down (and after the handshake, if accepted, under the application key); it is handed back to the application as failed exactly when the server has turned early data down (by a HelloRetryRequest or in EncryptedExtensions), and then nothing is sent.", "quantifier": "all configurations and histories", "why_tests_cant": "Every interleaving of early writes with server messages.", "anchors": ["fizz/client/ClientProtocol.cpp: handleEarlyAppWrite, ignoreEarlyAppWrite, EventHandler<..., EarlyAppWrite>"]}
{"id": "C53", "title": "Error and Closed are terminal (client)", "statement": "Once a client connection is in Error or Closed it processes no network or application event any more; calling connect again only reports an error. An alert is the last thing written, so there is at most one, protected by the write layer in force; after an error has been reported nothing else is ever done. The record layers with their traffic keys are gone in both directions.", "quantifier": "all configurations and histories", "why_tests_cant": "All continuations after an error.", "anchors": ["fizz/client/ClientProtocol.cpp: handleError, handleAppClose, handleAppCloseImmediate, handleInvalidEvent", "fizz/protocol/FizzBase-inl.h"]}
{"id": "C54", "title": "Client key updates", "statement": "A KeyUpdate from the server either ends the connection or moves the read key exactly one generation on; it is answered, under the old write key, exactly if it asks for it, and then the write key moves one generation; an application-initiated update is sent under the old key and moves only the write key. KeyUpdate must end its record.", "quantifier": "all histories", "why_tests_cant": "Unbounded numbers of updates in both directions.", "anchors": ["fizz/client/ClientProtocol.cpp: EventHandler<Established, KeyUpdate>, EventHandler<Established, KeyUpdateInitiation>"]}
{"id": "C55", "title": "Client stores a ticket only for its own session", "statement": "A PSK is handed to the application only for a NewSessionTicket received after the handshake; its secret is derived from the connection's resumption master secret (over the whole handshake transcript) with the ticket's nonce, and it carries the version, cipher, group, ALPN, certificates, lifetime and handshake time of this session.", "quantifier": "all histories and tickets", "why_tests_cant": "All histories.", "anchors": ["fizz/client/ClientProtocol.cpp: EventHandler<Established, NewSessionTicket>"]}
{"id": "C56", "title": "Client announces the right secrets", "statement": "The secrets given to the secret callback are those of RFC 8446 section 7.1 under the right names: early secrets with a ClientHello that offers early data, handshake secrets with the ServerHello, application, exporter and resumption secrets with the verified server Finished, the next generation with a key update - and no others.", "quantifier": "all histories", "why_tests_cant": "All histories and inputs.", "anchors": ["fizz/client/ClientProtocol.cpp: SecretAvailable"]}
{"id": "C57", "title": "Everything the client writes is protected with the right key", "statement": "In each state the record layers are keyed with the secrets computed from this connection's PSK, (EC)DHE secret and transcript; every content written is a change_cipher_spec, an alert under the layer in force, a ClientHello in the clear, a message of the second flight under the client handshake key (EndOfEarlyData: early key), a KeyUpdate or application data under the current application key, or early data under the early key.", "quantifier": "all histories", "why_tests_cant": "All histories.", "anchors": ["fizz/client/ClientProtocol.cpp"]}
{"id": "C59", "title": "ClientHello says what is configured", "statement": "connect() either fails or sends exactly the ClientHello that the configuration and the cached PSK call for: configured versions, ciphers, groups, schemes, ALPN; one share per chosen group; the PSK iff usable, with correct ticket age and binder; early_data iff wanted. A HelloRetryRequest is rejected or answered by a second ClientHello with the same random, session id and offers, except for the share of the requested group, the cookie, no early data, and the PSK (with fresh age and binder) iff its hash fits.", "quantifier": "all configurations, cached PSKs, HelloRetryRequests", "why_tests_cant": "All configurations.", "anchors": ["fizz/client/ClientProtocol.cpp: EventHandler<Uninitialized, Connect>, EventHandler<ExpectingServerHello, HelloRetryRequest>, getClientHello, getExtensions"]}
{"id": "C60", "title": "ECH hides the inner ClientHello", "statement": "A client with ECH configs never sends its real server name, PSK, or (in the first ClientHello) early_data indication in the clear: every ClientHello is an outer one with the config's public name and a random of its own; its other extensions are those the inner one has in common, the encryption, and a GREASE PSK - unless the application itself adds extensions of these types.", "quantifier": "all configurations and server answers (including HelloRetryRequest)", "why_tests_cant": "All configurations.", "anchors": ["fizz/client/ClientProtocol.cpp: constructEncryptedClientHello ...", "fizz/protocol/ech/Encryption.cpp"]}
{"id": "C61", "title": "Complete behaviour of the client", "statement": "Everything a client ever does in a step - what it writes, delivers, reports, announces - is one of the listed behaviours, each under its stated condition on the history.", "quantifier": "all configurations and histories", "why_tests_cant": "Exhaustive over histories.", "anchors": ["fizz/client/ClientProtocol.cpp", "fizz/client/State.h"]}
{"id": "C62", "title": "Client accessors are true", "statement": "From the ServerHello on, the state's accessors give the negotiated version, cipher, group, PSK type and mode, key exchange type, server name and client random; once established also the authenticated server certificate, ALPN, early data status and exporter secret.", "quantifier": "all histories", "why_tests_cant": "All histories.", "anchors": ["fizz/client/State.h"]}
{"id": "C63", "title": "Compatibility change_cipher_spec", "statement": "The client sends a change_cipher_spec record only in compatibility mode, at most once per connection, and exactly once by the time the connection is established.", "quantifier": "all histories", "why_tests_cant": "All histories.", "anchors": ["fizz/client/ClientProtocol.cpp: sentCCS"]}
{"id": "C58", "title": "Both ends agree", "statement": "When a client reports success after accepting the Finished a server sent, or a server reports success after accepting the Finished a client sent, then, unless the two of them have hashed two different inputs to the same digest, they have the same PSK and key exchange secrets, the same transcript, the same handshake and application keys, exporter and resumption secrets; they exchanged the same ClientHello and ServerHello, and negotiated the same version, cipher suite, group, key share and PSK mode: nobody in between has changed or downgraded any of it.", "quantifier": "all pairs of client and server histories, all configurations, all attackers delivering arbitrary bytes to either", "why_tests_cant": "Quantifies over every pair of executions and every active attacker between the two.", "anchors": ["fizz/client/ClientProtocol.cpp: EventHandler<ExpectingFinished, Finished>", "fizz/server/ServerProtocol.cpp: EventHandler<ExpectingFinished, Finished>", "fizz/protocol/Protocol.h: getFinishedData", "fizz/protocol/KeyScheduler.cpp"]}
{"id": "C64", "title": "ECH wire formats are lossless", "statement": "Every ECH structure the library writes (inner and outer ECH extension, outer-extensions reference, EncryptedExtensions retry configs, HelloRetryRequest and ServerHello confirmation, ECHConfig content and ECHConfigList) reads back as the same value with nothing left over, and a value whose fields do not fit its length prefixes is refused, not truncated.", "quantifier": "all values of each ECH structure", "why_tests_cant": "All values of variable-length nested vectors.", "anchors": ["fizz/protocol/ech/ECHExtensions-inl.h", "fizz/protocol/ech/Types-inl.h: encode / decode"]}
{"id": "C65", "title": "ECH delivers the inner hello", "statement": "A server that has the configuration a client negotiated, and its private key, recovers from the outer ClientHello the client sends exactly the inner ClientHello the client made and its encoding, whatever the hello, the GREASE PSK, the padding and the compressed extensions are; the same holds for the second hello after a HelloRetryRequest, both with the stored context and when the context is rebuilt from the encapsulated key of a cookie.", "quantifier": "all inner hellos, configurations, key pairs, outer extension type lists, public names and GREASE PSKs", "why_tests_cant": "Depends on every hello, every list of compressed extensions and both ways of keeping the context.", "anchors": ["fizz/protocol/ech/Encryption.cpp: encryptClientHello, encryptClientHelloHRR, decryptECHWithContext", "fizz/protocol/ech/Decrypter.cpp", "fizz/client/ClientProtocol.cpp: constructEncryptedClientHello"]}
{"id": "C66", "title": "ECH binds the whole outer hello", "statement": "The payload of ECH is sealed with the complete outer ClientHello (its own payload zeroed) as additional data, so if the AEAD admits only what was sealed, an outer hello in which anything was changed is not opened.", "quantifier": "all outer hellos and all modifications of them", "why_tests_cant": "All modifications by an attacker.", "anchors": ["fizz/protocol/ech/Encryption.cpp: encryptClientHelloImpl, makeClientHelloAad"]}
{"id": "C67", "title": "ECH padding hides the length of the server name", "statement": "The padded inner hello has a length that is a multiple of 32, and two inner hellos that differ only in their server name (or in having none) give payloads of the same length, if the names are not longer than the maximum of the configuration.", "quantifier": "all inner hellos, names and maximum lengths", "why_tests_cant": "All pairs of names and of hello sizes.", "anchors": ["fizz/protocol/ech/Encryption.cpp: calculateECHPadding"]}
{"id": "C68", "title": "ECH configuration choice", "statement": "The client uses the first configuration that it can use - a KEM and a cipher suite it supports, a valid public name and no unknown mandatory extension - with the first cipher suite of that configuration whose AEAD it supports and whose KDF is the one belonging to that AEAD, and none if there is no such configuration.", "quantifier": "all lists of configurations, KEMs and AEADs", "why_tests_cant": "All lists.", "anchors": ["fizz/protocol/ech/Encryption.cpp: negotiateECHConfig"]}
{"id": "C69", "title": "ECH acceptance confirmation", "statement": "The client takes ECH for accepted exactly when the ServerHello (or the HelloRetryRequest) carries the confirmation of the ECH draft for the inner random and the inner transcript; the server's confirmation of an accepted hello changes nothing else in the message and always passes the check of a client with the same inner random and transcript.", "quantifier": "all messages, transcripts, randoms and hash functions", "why_tests_cant": "All transcripts and messages.", "anchors": ["fizz/protocol/ech/Encryption.cpp: checkECHAccepted, setAcceptConfirmation"]}
{"id": "C70", "title": "What an ECH decrypter does", "statement": "A decrypter accepts a hello only by opening its payload with the key of the first configuration with the id in the hello; without ECH, with an unknown id or if it cannot be opened the outer hello is used unchanged, a malformed extension or a wrong reference to outer extensions is an error; the second hello after a retry must be opened; and the configurations offered for a retry are all those of the server, those matching the outer server name first.", "quantifier": "all hellos, configurations and contexts", "why_tests_cant": "All hellos, including malformed and malicious ones.", "anchors": ["fizz/protocol/ech/Decrypter.cpp"]}
{"id": "C71", "title": "Exported keying material is RFC 8446's, available exactly when the secret is, and separated by label, context and length", "statement": "For a label of at most 249 bytes and at most 255 hash lengths of output, the exported keying material is HKDF-Expand-Label(Derive-Secret(secret, label, \"\"), \"exporter\", Hash(context), length) and has that length; longer labels or outputs are refused; before a cipher and an exporter secret exist nothing is exported; two exported keys with the same first hash length of bytes come from the same secret, label, context and length unless the hash collides.", "quantifier": "all secrets, labels, contexts, lengths and hash algorithms", "why_tests_cant": "Covers every label, context and length, and the separation claim ranges over all pairs.", "anchors": ["fizz/protocol/Exporter.cpp:getExportedKeyingMaterial", "fizz/protocol/FizzBase-inl.h:getExportedKeyingMaterial", "fizz/client/FizzClient-inl.h:getEarlyEkm", "fizz/server/FizzServer-inl.h:getEarlyEkm"]}
{"id": "C72", "title": "The transport delivers decrypted bytes in order, once, to the installed read callback, and forgets no error", "statement": "Whatever read callbacks are installed, removed or exchanged, and whatever they do while being called, the bytes given to read callbacks are a prefix of the decrypted stream; once all calls have returned an installed callback has been given everything that arrived; each call goes to the callback installed at that moment; each callback is told of end of stream or an error at most once; an error reported when no callback is installed is kept for the next one; getAppBytesReceived counts what arrived; transport reads stop only when no callback is installed and 64 KiB are buffered.", "quantifier": "all sequences of calls by application, derived class and transport, nested to any depth, within the stated contract", "why_tests_cant": "Reentrancy: the interleavings of callbacks that call back in are unbounded.", "anchors": ["fizz/protocol/AsyncFizzBase.cpp: setReadCB, deliverAppData, deliverError, checkBufLen"]}
{"id": "C73", "title": "The transport's write queue is FIFO, finishes every write once, and is memory safe", "statement": "Queued writes are handed down in order, one piece of at most 128 KiB at a time (unless partial writes are disabled), each only after the one before completed, corked unless last; a write is reported successful only when exactly its bytes were handed down and completed, and failed with the number of its bytes that were handed down; when one fails all behind it fail; every write is finished exactly once and in order, and when nothing is outstanding no request is left in memory; no request or socket is used after it was freed and no internal check fails, even if a callback destroys the socket; getAppBytesBuffered and getAppBytesWritten count what they say.", "quantifier": "all sequences of calls by application, derived class and transport, nested to any depth, within the stated contract", "why_tests_cant": "Lifetime and ordering under arbitrary reentrancy.", "anchors": ["fizz/protocol/AsyncFizzBase.cpp: writeChain, QueuedWriteRequest, deliverError, destroy", "fizz/protocol/AsyncFizzBase.h: QueuedWriteRequest"]}
{"id": "C74", "title": "The sockets send what was written once and in order, early data within its limit, and resend only when nothing changed", "statement": "While the connection has not failed, the bytes given to the state machine for the peer (early data that was turned down not counted) are a prefix of the bytes the application wrote on a good socket, in order, and all of them once the handshake is complete; before that a client submits no ordinary application data; early data stays within the limit of the session; when early data is turned down and the policy is not automatic resend or version, cipher, ALPN or an identity differ, the PSK is removed, the connection fails and the state machine is given nothing any more.", "quantifier": "all sequences of calls by application, transport and state machine, nested to any depth, all write sizes and configurations", "why_tests_cant": "Writes may come from inside any callback, in any state of the handshake, in any number and size.", "anchors": ["fizz/client/AsyncFizzClient-inl.h: writeAppData, performAppWrite, handleEarlyReject, ActionMoveVisitor", "fizz/server/AsyncFizzServer-inl.h: writeAppData", "fizz/client/EarlyDataRejectionPolicy.cpp"]}
{"id": "C75", "title": "The sockets call the handshake callback and every write callback exactly once", "statement": "The handshake callback is called at most once, only if given, and has been called whenever the handshake is complete or the connection has failed and all calls have returned; a write callback is reported failed by this layer or handed to the state machine at most once in all; when the connection has failed and all calls have returned none is left waiting; a write on a socket that is not good is reported failed.", "quantifier": "all sequences of calls by application, transport and state machine, nested to any depth", "why_tests_cant": "Errors can strike at every point of every nested call, including from inside the callbacks of another error.", "anchors": ["fizz/client/AsyncFizzClient-inl.h: deliverAllErrors, deliverHandshakeError, ActionMoveVisitor", "fizz/server/AsyncFizzServer-inl.h: deliverAllErrors", "fizz/protocol/FizzBase-inl.h: moveToErrorState, processPendingEvents"]}
{"id": "C76", "title": "Key updates are sent by byte count", "statement": "With setRekeyAfterWriting(n), whenever all calls have returned fewer than n bytes of application data were submitted since the last key update, and at no moment more than n plus the writes whose call has not returned; each automatic key update stands for at least n bytes; without a threshold none is sent.", "quantifier": "all thresholds, write sizes and call sequences", "why_tests_cant": "Ranges over all write sizes and interleavings, including writes made inside callbacks of writes.", "anchors": ["fizz/protocol/AsyncFizzBase.h: wroteApplicationBytes, setRekeyAfterWriting", "fizz/client/AsyncFizzClient-inl.h: performAppWrite", "fizz/server/AsyncFizzServer-inl.h: writeAppData"]}
{"id": "C77", "title": "A client reports replay safety only when early data can no longer be replayed, once, and without forgetting it", "statement": "onReplaySafe is called at most once per connection, only after early data was started, the handshake is complete, and the early data was accepted or may be resent; isReplaySafe() of a client that started early data is true only then; when all calls have returned a replay-safety callback is waiting only while isReplaySafe() is false.", "quantifier": "all sequences of calls by application, transport and state machine, nested to any depth", "why_tests_cant": "The callback can be set, replaced and removed at any moment, also by other callbacks.", "anchors": ["fizz/client/AsyncFizzClient-inl.h: isReplaySafe, setReplaySafetyCallback, ActionMoveVisitor"]}
{"id": "C78", "title": "End to end: an application is given a prefix of what the peer's application wrote, all of it before it is told of the end", "statement": "Between a client and a server that agree on their first application traffic secrets and on the hash, over a network that may drop, delay, repeat, reorder, cut and corrupt records but not forge AEAD ciphertexts: the application data one end delivers is always a prefix of what the other end's application wrote, over any number of KeyUpdates started by either end; when an end reports the end of data, its application has been given everything the peer's application wrote, and the peer's last record was an alert (no truncation). The same for early data: what the server delivers is a prefix of the early data the client wrote, and when a server that accepted early data reports handshake success, it has delivered all of it. The agreement on first secrets and hash need not be assumed when the client has reported success on the Finished message of that server's flight and the hash does not collide on what the two hashed.", "quantifier": "all configurations, all histories of both ends, all schedules of reads and writes, all buffers handed to the record layers, any number of KeyUpdates", "why_tests_cant": "Every interleaving of writes, key updates and closes at both ends and every manipulation by the network has to be covered; a test runs a few schedules on an honest network.", "anchors": ["fizz/record/EncryptedRecordLayer.cpp: EncryptedReadRecordLayer::read, EncryptedWriteRecordLayer::write", "fizz/record/RecordLayer.cpp: ReadRecordLayer::readEvent", "fizz/server/ServerProtocol.cpp: AppData, KeyUpdate, EndOfEarlyData, CloseNotify handlers", "fizz/client/ClientProtocol.cpp: AppData, KeyUpdate, EarlyAppWrite, CloseNotify handlers"]}
{"id": "C79", "title": "The AEGIS cipher object computes the AEAD of its last key for every layout and history", "statement": "After any sequence of calls on an AEGIS cipher object (keys set and replaced, encryptions and decryptions that succeed, fail or are broken off), encrypting a record gives ciphertext and tag of the concatenated plaintext under the last key taken and the nonce of the sequence number, whatever the fragmentation, sharing, tail room and allocation options, or one of the documented no-allocation failures; decrypting gives exactly what opening the concatenation gives, and never succeeds on input shorter than a tag; a key of wrong length is refused and changes nothing; two objects with the same key in force undo each other for every way of cutting the ciphertext.", "quantifier": "all keys, IVs, sequence numbers, associated data, plaintexts, buffer chains, options and call histories", "why_tests_cant": "The object keeps streaming state of a block cipher library between calls; leftovers, block boundaries and fragmentations combine without bound.", "anchors": ["fizz/backend/libaegis/AEGISCipher.cpp: encrypt, decrypt, tryDecrypt, setKey", "fizz/crypto/aead/CryptoUtil.h: transformBuffer, transformBufferBlocks"]}
{"id": "C80", "title": "Certificate compression is transparent, bounded and strict", "statement": "A decompressor accepts a compressed certificate exactly when its algorithm is the decompressor's, its claimed length is at most 128 KiB, and the library opens it to exactly that many bytes, which are exactly one Certificate message; it asks for no more memory than the claimed length and for none if that is too large. A Certificate message up to 128 KiB survives compression. A client offers exactly the algorithms it has decompressors for; between a client and a server with matching libraries the client obtains the server's Certificate message, compressed or not; everything else is a bad_certificate or unexpected_message alert.", "quantifier": "all messages, all compressed certificates, all lossless libraries, all sets of compressors and decompressors", "why_tests_cant": "The peer chooses the compressed bytes and the claimed length; which decompressor is found depends on the whole configuration.", "anchors": ["fizz/compression/ZlibCertificateDecompressor.cpp", "fizz/compression/BrotliCertificateDecompressor.cpp", "fizz/compression/ZstdCertificateDecompressor.cpp", "fizz/compression/CertDecompressionManager.cpp: setDecompressors, getDecompressor", "fizz/server/ServerProtocol.cpp: negotiateCertCompressionAlgo, getCertificate"]}
{"id": "C81", "title": "Token binding negotiation: both ends agree, within what each supports", "statement": "A context accepts exactly strictly descending version lists. A server answers a token_binding extension exactly if it has a version not above the client's and a common key parameter; it picks the greatest such version and its first such parameter. A client never adopts a version or parameter it does not support, and refuses a higher version, an unoffered parameter or a number of parameters other than one with unsupported_extension. Between a client and a server of this library neither fails, and if the server answered, the client reports the server's key parameter and the greatest server version not above its own highest (if it supports it), or nothing.", "quantifier": "all contexts, all extension lists of either side, any other extensions around", "why_tests_cant": "All combinations of version and parameter lists, and every malformed answer, have to be covered.", "anchors": ["fizz/extensions/tokenbinding/TokenBindingContext.h: setSupportedVersions", "fizz/extensions/tokenbinding/TokenBindingClientExtension.cpp: getClientHelloExtensions, onEncryptedExtensions", "fizz/extensions/tokenbinding/TokenBindingServerExtension.h: getExtensions, negotiateVersion"]}
{"id": "C82", "title": "Token bindings: the validator accepts exactly what the owner of the key signed for this connection", "statement": "Encoding and decoding of token binding messages are inverse and strict. The validator returns a binding's ID exactly if the key parameters are the negotiated (or a supported) one and the signature verifies, with the key in the ID, over the type, the parameters and the connection's keying material; it returns nothing otherwise and never throws. A binding made by the library from an honest key is accepted, for every signature value including those with leading zero bytes. With unforgeable signatures an accepted binding was signed by the key's owner for exactly this type, these parameters and this keying material.", "quantifier": "all bindings, keys, signatures, keying material, fragmentations of the key; all honest signature schemes", "why_tests_cant": "The peer controls every byte of a binding; leading zeros in signatures occur in 1 of 256 runs or rarer.", "anchors": ["fizz/extensions/tokenbinding/Types.cpp", "fizz/extensions/tokenbinding/Validator.cpp: validateTokenBinding, verify, constructECDSASig, constructEcKeyFromBuf", "fizz/extensions/tokenbinding/TokenBindingConstructor.cpp: createTokenBinding, addBignumToSignature, encodeEcKey", "fizz/extensions/tokenbinding/Utils.h: constructMessage"]}
{"id": "C83", "title": "PSP upgrade: one verdict, and success means both ends hold each other's keys", "statement": "Whatever the kernel, the transport, the timer and the caller do within their contract, an upgrade reports exactly one result, never uses state it gave up, and leaves nothing behind that could call into it. On failure the transport has been closed; on success it has not, and the kernel made an association, its message and nothing else was written, the peer's whole message arrived and was installed. Between two ends an installed association is the one the other end's kernel made. If kernel and network cooperate the upgrade succeeds for every fragmentation of the peer's message.", "quantifier": "all schedules of kernel answers, writes, reads, errors, timeout and destruction; all message bytes and fragmentations", "why_tests_cant": "The order of kernel answers, I/O completions, timeout and destruction is unbounded; the peer chooses the bytes.", "anchors": ["fizz/experimental/psp/PSP.cpp: AsyncPSPUpgradeImpl, encodeTLV, tryDecodeSA, readTLV", "fizz/experimental/psp/PSP.h"]}
{"id": "C84", "title": "Handing a connection to kernel TLS keeps keys, sequence numbers and nonces", "statement": "For AES-GCM with keys and IVs of the right length, and for nothing else, the structure given to the kernel describes the connection's key, IV and next record number, so the kernel's nonces are those the library would have used; what the kernel sends the peer's library decrypts and what the library seals the kernel opens, from the next record on; no nonce the library used is used again. Both directions are set or an error is returned; on error the fizz socket is as before, on success its read callback moved to the new socket and the old one is detached. (Findings: after an error the kernel may already have the receiving keys.)", "quantifier": "all record layer states, kernel answers, record contents and later record counts", "why_tests_cant": "Layout and nonce agreement must hold for every key, IV and sequence number, with a kernel the tests do not have.", "anchors": ["fizz/experimental/ktls/KTLS.cpp: toSockoptFormat, fromRecordState, tryEnableKTLS", "fizz/experimental/ktls/AsyncFizzBaseKTLS.h: tryConvertKTLSBase"]}
{"id": "C85", "title": "A kernel TLS socket delivers exactly the peer's data and tickets", "statement": "The application is given exactly the application data the kernel delivered, in order, up to the answer that ended reading; end of stream is reported exactly for the kernel's end of stream or a close_notify outside an incomplete handshake message; tickets passed on are whole messages of the peer, in order, each once; data and tickets sent as separate messages all arrive however records are cut; anything in the middle of a handshake message, a KeyUpdate or another handshake message is an error; a converted client stores for a ticket what the unconverted one would. (Findings: what follows a ticket in the same data is dropped; a ticket the handler rejects throws out of the read.)", "quantifier": "all sequences of answers of recvmsg, all cuts of records into buffers, all tickets and client states", "why_tests_cant": "Fragmentation and interleaving are unbounded.", "anchors": ["fizz/experimental/ktls/AsyncKTLSSocket.cpp: performReadMsg, handleNonApplicationData, processAlert, processHandshakeData", "fizz/experimental/ktls/AsyncFizzBaseKTLS.cpp: makeTicketHandler", "fizz/experimental/ktls/FizzKTLSCallback.cpp: receivedNewSessionTicket"]}
{"id": "C86", "title": "Writes on a receive-only kernel TLS socket go down in order and end once", "statement": "Non-empty writes are handed to the record layer in order, in non-empty pieces, end in order and once, successfully only when all their bytes went down, and all have ended when the transport is idle; on a transport failure all outstanding and queued writes fail, once, in order. (Finding: an empty write never ends, and queued it stops all later writes.)", "quantifier": "all sequences of writes and transport completions", "why_tests_cant": "Unbounded interleavings of writes and completions.", "anchors": ["fizz/experimental/ktls/AsyncKTLSSocket.cpp: writeChain, writeAppData, QueuedWriteRequest"]}
{"id": "C87", "title": "Every key exchange of the default factory agrees, and refuses invalid shares", "statement": "For every named group, a client-side and a server-side key exchange object made by the default factory that complete an exchange hold the same shared secret; the shares have the sizes the group announces for the role; with primitives that do not fail the exchange always completes. Exactly the groups secp256r1, secp384r1, secp521r1, x25519 (and the two hybrids when liboqs is compiled in) can be made. A NIST-curve share is accepted exactly if it decodes to a point on the curve and the derivation succeeds; a share off the curve is refused in every state; without a key pair there is neither share nor secret. (What the code does: the form and the length of a NIST share are not checked, so compressed and hybrid encodings are accepted.)", "quantifier": "all groups, roles, randomness of both sides, peer shares and correct libraries", "why_tests_cant": "Tests use a few vectors; the claim is for all keys, all byte strings offered as a share, and all groups.", "anchors": ["fizz/protocol/MultiBackendFactory.cpp: makeKeyExchange", "fizz/backend/openssl/crypto/OpenSSLKeyUtils.cpp: decodeECPublicKey, validateECKey", "fizz/backend/openssl/crypto/exchange/OpenSSLKeyExchange.cpp", "fizz/crypto/exchange/X25519.cpp", "fizz/crypto/exchange/HybridKeyExchange.cpp", "fizz/crypto/Crypto.h"]}
{"id": "C88", "title": "Which client certificate is used", "statement": "After any sequence of additions the client's certificate manager uses for a signature scheme the certificate of the last overriding addition that has the scheme, and without one the first addition that has it. The choice for a server is the first of the client's schemes, in its order, that it holds a certificate for and that the server accepts; none is chosen exactly if no such scheme exists. A chosen certificate was added, announces the scheme, and both sides support it. With delegated credentials: a credential is used only if the server's request announces support, and then by the schemes of that announcement; otherwise the plain choice is made; an announcement that cannot be decoded is an error; the two stores never mix.", "quantifier": "all histories of additions, preference lists, peer lists and request extensions", "why_tests_cant": "The choice depends on the whole history of additions and on the order of two lists; tests exercise a handful.", "anchors": ["fizz/client/CertManager.cpp", "fizz/extensions/delegatedcred/DelegatedCredentialClientCertManager.cpp"]}
{"id": "C89", "title": "GREASE ECH and GREASE PSKs look like the real thing", "statement": "Whatever the random source gives, a GREASE ECH extension uses a KDF, AEAD and key size of the setting, a config id in its range and a payload of a size the setting allows (computed from the encoded hello or random); a setting with something to choose never fails, one with an empty choice always fails, and no list is read out of bounds; the encoding is read back by a server's parser as an outer ECH extension with the same fields; every allowed combination can be produced. The GREASE PSK of an outer hello has as many identities and binders as the inner one with binders of the same lengths, keeps its identities after a HelloRetryRequest, and depends on nothing else of the real PSKs.", "quantifier": "all settings, random sources, encoded hello sizes and inner hellos", "why_tests_cant": "Randomised output: a test sees a few draws, the claim is about all of them and about non-interference between real and GREASE PSKs.", "anchors": ["fizz/protocol/ech/GreaseECH.cpp", "fizz/protocol/ech/GreaseECHSetting.h", "fizz/protocol/ech/Encryption.cpp: generateGreasePSK, generateGreasePskForHRR"]}
{"id": "C90", "title": "Hexadecimal text, key log lines and key files lose nothing", "statement": "hexlify writes two lower-case digits per byte and unhexlify accepts exactly the hexadecimal text of some bytes in either case, inverting it. The NSS key log only appends, each line being label, client random and secret, and two histories that leave the same file were the same write for write; exactly the traffic and exporter secrets have labels, each its own. An X25519 key pair generated as text and read back is the same pair; other text is refused. (What the code does: secrets without a label reach the server's trace point as the label RSA; for other KEMs createKeyExchangeFromBuf succeeds with a null result.)", "quantifier": "all byte strings, all texts, all histories of log writes, all secrets", "why_tests_cant": "Round-trip and injectivity claims range over all strings and histories.", "anchors": ["fizz/util/Hex.cpp", "fizz/util/KeyLogWriter.h", "fizz/util/FizzUtil.cpp", "fizz/server/AsyncFizzServer-inl.h: secretAvailable"]}
{"id": "C91", "title": "Delegated credentials as PEM text", "statement": "The text generated for a credential and a private key holds the encoded credential between the labels of its role and the key between the key labels of the role; text without a private key is refused. Loading such text, with other text around it such as certificates, takes exactly the credential and the key that were written. Text without the role's key labels is an error, so a credential written for one role is never loaded for the other. (What the code does: leading text before the key's header is overwritten instead of the header; labels in reverse order end in std::out_of_range.)", "quantifier": "all credentials, dash-free key bodies, surrounding texts and both roles", "why_tests_cant": "Text searching and offset arithmetic must be right for all contents and lengths; tests use one file.", "anchors": ["fizz/extensions/delegatedcred/Serialization.cpp", "fizz/extensions/delegatedcred/Serialization.h"]}
{"id": "C92", "title": "Which protocol list is taken from a weighted list", "statement": "getAlpnsFromNpnList returns the protocols of the last item that outweighs the first item, or of the first if none does; so it is a highest weighted list whenever at most one item outweighs the first. An empty list ends the process. The header's promise, the highest weighted list, fails for three items of weights 1, 3, 2.", "quantifier": "all lists of weighted items", "why_tests_cant": "The repository's use has two items, for which the promise holds.", "anchors": ["fizz/util/FizzUtil.cpp: getAlpnsFromNpnList", "fizz/util/FizzUtil.h"]}
{"id": "C93", "title": "The default certificate verifier accepts exactly what OpenSSL validates for the peer's role", "statement": "Whatever stores and callbacks were set before, the OpenSSL-backed certificate verifier accepts a chain exactly if no OpenSSL call fails and OpenSSL validates the first certificate for the peer's role (a client checks for a TLS server and the reverse), with the others as untrusted helpers, strictly, with the callback set last, against the store set last or without one the process's default store, which is made once. The answer is the first certificate; an empty chain is refused. A refused chain gives one of four alerts according to OpenSSL's reason. The authorities a server asks for are exactly the subject names of its store's certificates. So a client (or a server that requires authentication) whose handshake succeeds without a PSK has a peer certificate that OpenSSL validated. (What the code does: if setting a store fails on an unencodable name the new store is in force with the old authorities.)", "quantifier": "all histories of calls, chains, stores, library answers and failures, and all runs of client and server", "why_tests_cant": "Acceptance must depend on nothing but the validation: all call histories and all failure points of the library.", "anchors": ["fizz/backend/openssl/certificate/OpenSSLCertificateVerifier.cpp", "fizz/backend/openssl/certificate/OpenSSLCertificateVerifier.h", "fizz/protocol/CertificateVerifier.h", "fizz/tool/CertificateVerifiers.h"]}
{"id": "C94", "title": "Groups of application extensions behave as their members", "statement": "A group of client extension objects offers the concatenation of what its members offer, in order, failing with the first member's error; EncryptedExtensions are shown to the members in order until one refuses, and the later ones are left as they were. The same holds for a server's group. When the client reports success every member has accepted the server's extensions, which contain none twice and none the client did not offer. The padding extension takes the configured number of bytes on the wire (at least four), all zeros.", "quantifier": "all lists of extension objects with arbitrary behaviour, all received extension lists, all runs of the client, all padding sizes", "why_tests_cant": "Members are arbitrary user code; tests use two or three mocks.", "anchors": ["fizz/client/MultiClientExtensions.cpp", "fizz/server/MultiServerExtensions.cpp", "fizz/extensions/clientpadding/PaddingClientExtension.cpp", "fizz/extensions/clientpadding/Types.cpp", "fizz/client/ClientProtocol.cpp: EncryptedExtensions handler"]}
{"id": "C95", "title": "Record-aligned reads never take a byte past the record in progress", "statement": "With setHandshakeRecordAlignedReads (or setAlignedRecordReads after the first wait) on, and every event processed before the transport is read again, each read of the transport is bounded by what the record in progress (or its header) lacks; whenever an event is handed to the state machine, everything read so far is a sequence of whole records and the read buffer is empty, so at the end of the handshake the next byte of the transport starts a record. The buffer offered is never larger than the space reserved and never empty. If processing of an event is suspended while the transport is read, the promise can fail (the hint of the previous record is still used).", "quantifier": "all byte streams of the peer, all ways the transport cuts them, all read layers and key changes, all options and buffer sizes, all schedules of reads and event processing", "why_tests_cant": "depends on where the transport cuts the stream and on the hint at each cut; tests deliver a few segmentations", "anchors": ["fizz/protocol/AsyncFizzBase.cpp:getReadBuffer", "fizz/protocol/AsyncFizzBase.h:setHandshakeRecordAlignedReads", "fizz/record/RecordLayer.cpp:readEvent", "fizz/record/EncryptedRecordLayer.cpp:getDecryptedBuf", "fizz/record/PlaintextRecordLayer.cpp:read"]}
{"id": "C96", "title": "A signature accepted is one OpenSSL verified, under the scheme's own parameters", "statement": "Whenever signing or verifying with a key reports success, OpenSSL was called with exactly the parameters RFC 8446 gives for that signature scheme (hash; for RSA-PSS also the padding and a salt as long as the hash), over exactly the given data and signature, and every call, in particular the final one, returned its success value: neither an error return nor a negative one is taken for success. So, if OpenSSL's success means validity, verify accepts only valid signatures and sign returns only valid ones; if OpenSSL also fails only on invalid signatures, verify accepts exactly the valid signatures and sign never fails. The buffer given to OpenSSL is never too small. A peer certificate accepts a CertificateVerify only if its scheme is the certificate's and the signature is valid over the context string and transcript.", "quantifier": "all key types, keys, data, signatures and contexts, and all behaviours of OpenSSL (any return value from any call)", "why_tests_cant": "tests see only OpenSSL's usual returns; error returns (0, -1, -2) from each call in each order are not produced on demand", "anchors": ["fizz/backend/openssl/crypto/signature/Signature.cpp", "fizz/backend/openssl/crypto/signature/Signature-inl.h", "fizz/backend/openssl/certificate/OpenSSLPeerCertImpl-inl.h:verify", "fizz/backend/openssl/certificate/OpenSSLSelfCertImpl-inl.h:sign"]}
{"id": "C97", "title": "Back-pressure bounds what an unread connection buffers, and never outlives its cause", "statement": "While the application has no read callback installed, the bytes a connection buffers (undecrypted and decrypted) never exceed 128 KiB (or what it held before) plus one read of the transport, plus one read for each time reading is switched on again over a full buffer (attachEventBase, or waiting for handshake data outside a transport read). Conversely, once all calls have returned, a connection with a read callback that is attached to its event base and not destroyed is reading from its transport, whatever happened before. Two exceptions: with zero-copy reads, or with a read callback installed while processing is suspended, the undecrypted bytes have no bound.", "quantifier": "all sequences of transport reads, deliveries, callback changes (including re-entrant ones), errors, writes, attach/detach and destruction", "why_tests_cant": "the bound is over every interleaving of reads, suspended processing and restarts; tests try one overfull buffer", "anchors": ["fizz/protocol/AsyncFizzBase.cpp:checkBufLen", "fizz/protocol/AsyncFizzBase.cpp:setReadCB", "fizz/protocol/AsyncFizzBase.cpp:deliverAppData", "fizz/protocol/AsyncFizzBase.cpp:readDataAvailable", "fizz/protocol/AsyncFizzBase.cpp:readZeroCopyDataAvailable", "fizz/protocol/AsyncFizzBase.h:attachEventBase"]}
{"id": "C98", "title": "A credential that loads works, and one that cannot work does not load", "statement": "CertUtils::makeSelfCert succeeds exactly when the first certificate's public key is of a supported kind (RSA, P-256, P-384, P-521, Ed25519), the private key belongs to it and passes OpenSSL's check, and every compressor can compress the chain; what it returns signs, for any context and transcript, signatures that a peer given the credential's Certificate message accepts under the one scheme the key has, sends the chain as given, and has a compressed form for exactly the compressors' algorithms. Reading keys from files with a password never writes outside OpenSSL's buffer, hands over the whole password when it fits and is an error when the key cannot be read; a chain file never gives an empty chain.", "quantifier": "all chains, keys, compressor lists, PEM texts, passwords, buffer sizes, files, contexts, transcripts and OpenSSL behaviours", "why_tests_cant": "tests load a handful of fixture credentials; which combinations of certificate, key and compressor load, and that every loaded one interoperates, ranges over all of them", "anchors": ["fizz/backend/openssl/certificate/CertUtils.cpp: makeSelfCert, getKeyType, getCertMessage, makePeerCert", "fizz/backend/openssl/certificate/OpenSSLSelfCertImpl-inl.h: OpenSSLSelfCertImpl", "fizz/util/FizzUtil.cpp: readPrivateKey, decryptPrivateKey, readChainFile, passwordCallback"]}
{"id": "C99", "title": "The end of TLS loses nothing and takes nothing", "statement": "An application that ends TLS with close_notify and goes on in plaintext on the same transport gets, from the end-of-TLS callback and then from the transport, exactly the bytes of the stream behind the record of the peer's close_notify: none lost, none taken, none twice, whatever the transport's segmentation. Client and server report the end only for a close_notify read while the connection accepts data (or waits for it), with exactly the bytes that came with it, after answering the alert if they had not sent one, and are closed then. The callback gets the bytes unchanged; without one, or while connecting, the connection ends with an error.", "quantifier": "all byte streams, segmentations and schedules, all record layers and all reactions to events, all histories of both state machines", "why_tests_cant": "tests deliver close_notify and trailing bytes in one or two fixed segmentations; that no segmentation loses a byte or leaves one to TLS ranges over all", "anchors": ["fizz/protocol/AsyncFizzBase.cpp: endOfTLS", "fizz/record/RecordLayer.cpp: ReadRecordLayer::readEvent", "fizz/server/ServerProtocol.cpp: AcceptingData/ExpectingCloseNotify CloseNotify", "fizz/client/ClientProtocol.cpp: Established/WriteSideClosed CloseNotify"]}
{"id": "C100", "title": "Names, numbers and algorithms agree", "statement": "Printing a protocol version, extension type, alert, cipher suite, PSK mode, signature scheme, group or compression algorithm never gives two different wire values the same text, known or unknown. parse() accepts a text exactly if it is the printed name of one of the supported values, returns that value, and otherwise fails with the text in the message. With AEGIS compiled in, a cipher suite has an AEAD exactly if it has a hash function, with the key, nonce, tag and hash lengths of the standards; without it the AEADs are those of the three suites of RFC 8446. The HPKE identifier tables are those of RFC 9180, inverse to each other, and their lengths agree with the AEADs. Setting the version of a record layer succeeds exactly for TLS 1.3 and its drafts and makes a reader and a writer agree about the additional data.", "quantifier": "all 8- or 16-bit values of every enumeration, all texts, builds with and without AEGIS, all states of the record layers", "why_tests_cant": "the values come from the wire and the texts from configuration; a test samples them, while a clash between a name and a hexadecimal number, or between two tables kept by hand in different files, can sit anywhere", "anchors": ["fizz/record/Types.cpp toString, getRealDraftVersion", "fizz/record/Types-inl.h enumToHex", "fizz/util/Parse-inl.h parse", "fizz/protocol/Types.cpp getHashFunction, getHashSize", "fizz/protocol/MultiBackendFactory.cpp makeAead", "fizz/crypto/hpke/Utils.cpp", "fizz/record/RecordLayer.h setProtocolVersion", "fizz/record/EncryptedRecordLayer.h setProtocolVersion"]}
{"id": "C101", "title": "Key logs of the two ends go together", "statement": "Every secret a connection announces goes, with the label of its type, to the trace point and to exactly one function of the application's secret callback, the one for its type, with exactly the secret's bytes; only the ECH confirmations are not announced. The client random that goes with it is always there. On a server it is that of the ClientHello the connection is based on (the inner one if ECH was accepted), the same for all secrets of the connection; on a client it is, from the ServerHello on, that of the inner ClientHello if ECH was accepted and that of the ClientHello on the wire otherwise. So the two ends of one handshake announce all handshake and traffic secrets, through every key update, with the same client random. The one exception: early secrets of a client whose ECH is accepted carry the outer random, those of the server the inner one.", "quantifier": "every history of a client and of a server, every step of it, every secret announced, with and without ECH, HelloRetryRequest, early data and key updates", "why_tests_cant": "The random is read from the connection state at the moment the action is executed, which depends on the order of the actions of every handler and on what every earlier step left in the state; tests look at a few handshakes.", "anchors": ["fizz/server/AsyncFizzServer-inl.h: ActionMoveVisitor::operator()(SecretAvailable&), getClientRandom", "fizz/client/AsyncFizzClient-inl.h: ActionMoveVisitor::operator()(SecretAvailable&), getClientRandom", "fizz/protocol/AsyncFizzBase.cpp: SecretVisitor, AsyncFizzBase::secretAvailable", "fizz/util/KeyLogWriter.h: secretToNSSLabel"]}
{"id": "C102", "title": "Alerts tell the truth", "statement": "Whenever a client or a server reports an error with an alert, the alert says something true of what it received: e.g. a server says protocol_version only for a ClientHello (the one received or the one decrypted from it) without a version of its own (or malformed in the way RFC 8446 forbids), handshake_failure only if there is no cipher suite, group or signature scheme in common, illegal_parameter only for an extension that was not requested, a duplicate, a wrong echo and so on, decrypt_error (server) only for a cookie it cannot decrypt, bad_record_mac only for a PSK binder (server) or a Finished (client) that is not the HMAC of RFC 8446, no_application_protocol only without one in common, bad_record_mac (of a client) only for a Finished that is not the HMAC over the transcript, unexpected_message only for an event the state does not wait for, a second HelloRetryRequest or CertificateRequest, handshake data behind the last message of a key, or a failure that carries no alert of its own (decoding, encoding, key schedule, missing state), ech_required only at the end of a handshake whose ECH was rejected. Otherwise the alert is that of the record layer, of something the application supplies, or decode_error when a closing alert cannot be written. Every alert sent is close_notify or the alert of the error reported in the same step.", "quantifier": "every configuration, state, event (message or call) and answer of the application, of a client and of a server, every alert", "why_tests_cant": "Tests provoke each alert with one message; that no other message, state or configuration leads to it, so that a peer or an operator can rely on what it says, is a statement about all of them.", "anchors": ["fizz/server/ServerProtocol.cpp: all handlers, processEvent, handleError", "fizz/client/ClientProtocol.cpp: all handlers, processEvent, handleError, getAndValidateVersionAndCipher, negotiateParameters, negotiatePsk", "fizz/protocol/Protocol.h: checkDuplicateExtensions, checkAllowedExtensions"]}
{"id": "C103", "title": "What a 0-RTT client says about the connection", "statement": "From the moment a client tells its application that early data may be sent until the handshake succeeds, isReplaySafe() is false and getPeerCertificate, getSelfCertificate and getApplicationProtocol give the values of the session being resumed. When the handshake succeeds, either the connection is failed with EARLY_DATA_REJECTED - only if the server turned the early data down, and then only if the policy says so or the connection differs from the session - or isReplaySafe() becomes true, the accessors give what was negotiated, and this has the session's cipher suite, application protocol, identities of both ends and version (or TLS 1.3 for its last draft), so that nothing the application was told is withdrawn. A connection whose application was never told so is always replay safe, is never failed for its early data, and always gives the negotiated values. None of the accessors ever dereferences a missing value.", "quantifier": "all client configurations (cached session, policy, identity function), all histories of the client's state machine with any peer and application, and all prefixes of the actions it returns (every moment at which the application may ask)", "why_tests_cant": "The accessors dereference State::earlyDataParams() whenever earlyDataState_ is set; that the two always go together, and that the values agree before and after, depends on everything the peer may send and on every moment the application may ask.", "anchors": ["fizz/client/AsyncFizzClient-inl.h: getPeerCertificate, getSelfCertificate, isReplaySafe, getApplicationProtocol, handleEarlyReject, ActionMoveVisitor", "fizz/client/EarlyDataRejectionPolicy.cpp: earlyParametersMatch, certIdentityMatch"]}
{"id": "C104", "title": "The server's compatibility change_cipher_spec", "statement": "Whenever a server answers a ClientHello with a HelloRetryRequest or a ServerHello, that message goes out first and in the clear; if the ClientHello it is about (the inner one when ECH was accepted) has a session id, one change_cipher_spec record follows at once - the single byte 1, unprotected - and otherwise none; nothing but handshake messages follows. At no other time does a server write a change_cipher_spec, and in the life of a connection it writes at most two (two only when a HelloRetryRequest was sent).", "quantifier": "all configurations, all histories of the server's state machine with any peer and application", "why_tests_cant": "It speaks of everything a server ever writes in any history.", "anchors": ["fizz/server/ServerProtocol.cpp: EventHandler<ServerTypes, StateEnum::ExpectingClientHello, Event::ClientHello> (FakeChangeCipherSpec)", "fizz/record/Types.h: FakeChangeCipherSpec"]}
{"id": "C105", "title": "The client's handshake time limit", "statement": "A client given a time limit for its handshake times out at most once, and only while the outcome is open: when the timer expires, connect had started it, full handshake success had not been reported, no failure had been told to the handshake callback, and the connection had not failed (unless early success had been reported before, in which case the timer survives the failure). As long as the handshake has neither completed nor failed the timer is running, so a handshake with a limit cannot stay undecided for ever. When it has expired and everything has returned, the connection has failed and the handshake callback has been called exactly once, with an error unless it had already been told of early success. connect starts the timer exactly when the limit is not zero and, when it is not given an address, the transport is good. A server has no such timer.", "quantifier": "every history of a client or server socket: calls of the application in any order and from inside callbacks, reports of the state machine, transport events, and the moment the timer expires", "why_tests_cant": "the timer can expire between any two steps of any history, including from inside nested callbacks; tests try a few moments", "anchors": ["fizz/client/AsyncFizzClient-inl.h: connect, deliverHandshakeError, ReportHandshakeSuccess", "fizz/protocol/AsyncFizzBase.cpp: startHandshakeTimeout, cancelHandshakeTimeout, handshakeTimeoutExpired", "fizz/protocol/AsyncFizzBase.h: HandshakeTimeout"]}
{"id": "C106", "title": "Secrets go to the callback that is set, until a failure", "statement": "Each secret the state machine announces is passed at once, as it is, to the secret callback installed at that moment, by the function for that secret and no other; no other calls are made. The installed callback is the last one set, until an error has been delivered: once the class has returned from everything it was called for, a callback set before an error was reported is never called again.", "quantifier": "all histories of AsyncFizzBase (reads, writes, errors, destruction, at any re-entrancy depth), with setSecretCallback calls and announced secrets at any moment the outside has control", "why_tests_cant": "The callback may be replaced, and errors may be delivered, at any point of any interleaving, also from inside other callbacks.", "anchors": ["fizz/protocol/AsyncFizzBase.h: setSecretCallback", "fizz/protocol/AsyncFizzBase.cpp: secretAvailable, deliverError, SecretVisitor", "fizz/server/AsyncFizzServer-inl.h: SecretAvailable", "fizz/client/AsyncFizzClient-inl.h: SecretAvailable"]}
