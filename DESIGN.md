# Formal model of facebookincubator/fizz — design

## 1. Approach

The model is written function by function from the C++ in `/repo`, as small total computable
Lean functions over `List UInt8` (bytes), `Nat`/`UInt16`/`UInt64`, `Option` and structures.
Every definition cites the file and lines it models.  Layout (`/verif/lean/Verif`):

* `Base.lean`                 bytes, big-endian integers, failure type
* `<Area>/Model.lean`         the model of the code
* `<Area>/Lemmas.lean`        helper lemmas (nothing here is a claim)
* `<Area>/Props.lean`         the property theorems with non-vacuity examples (and, where useful, a
                              small independent `Spec` at the top)

Conventions

* `Failure` distinguishes: `err` (the code returned `Status::Fail` with an `Error`), `throw`
  (a C++ exception escapes: `std::out_of_range` from `folly::io::Cursor`, conversion errors
  from `folly::to`), and `ub` (undefined behaviour: null/empty-optional dereference ...).
* A cursor is the list of bytes still to be read.  An `IOBuf` chain whose fragmentation is
  observable is `List Bytes`; where the code only sees it through `Cursor`/`coalesce` it is its
  concatenation `Bytes`.
* Enums with a fixed underlying type are the underlying integer: C++ `static_cast` to such an
  enum keeps any value.
* Cryptography (hash, HMAC, AEAD, signatures, KEX) is a parameter of the model; the assumption
  used (for example `open (seal m) = m`) is an explicit hypothesis of the theorem.

## 2. Plan per property

| id | what is modelled | proof |
|----|------------------|-------|
| C01,C02 | `record/Types-inl.h` encoders/decoders on byte lists | round trip by composition of reader/writer lemmas; induction on vectors |
| C03 | `record/Extensions-inl.h` | same, plus `findExtension` |
| C04 | Plaintext record layer | induction on remaining bytes |
| C05,C07 | Encrypted record layer with abstract AEAD, padding policies, chain-shaped queue | induction on the queue |
| C06 | sequence numbers + `createIV` | invariant over write histories; xor injectivity |
| C08-C10 | `readEvent` over both record layers | monotonicity lemmas of the single-step reader, then fusion of feeds |
| C11 | `getDecryptedBuf` | characterisation of delivered records |
| C12,C13 | `SlidingBloomReplayCache` as bit matrix | invariant over operation histories; C13 is refuted by a witness and the true window proved |
| C14 | `Negotiator.h` | induction on lists |
| C15 | `DefaultCertManager` | invariant over `addCert` histories |
| C16 | `Aead128GCMTokenCipher` over abstract HKDF/AEAD | direct |
| C17,C18,C19 | ticket, cookie, PSK codecs | round trip |
| C20 | caches | refinement to a map, invariants |
| C21 | `KeyScheduler` with abstract KDF and UB outcome | simulation / induction over call sequences |
| C22,C23 | HKDF label and expand | injectivity; loop invariant |
| C24,C25 | `FizzBase` event loop | invariants over action/event traces |
| C26-C31 | server and client state machines | invariants over all event sequences |
| C32,C33 | Merkle tree, batcher | structural induction on tree levels |
| C34 | ECH outer extensions | round trip |
| C35 | HPKE context | invariant |
| C36 | hybrid KEX | direct |
| C37 | buffer transforms | loop invariant |
| C38-C40 | ticket policy, delegated credentials, exported authenticators | decision logic |
| C41 | `getBinderLength`, truncation of an encoded ClientHello | encoder characterisation |
| C42 | skip/retry behaviour of the plaintext reader | induction on the input |
| C43 | `Hmac`/`openssl/Digest` over an abstract hash | unfolding against RFC 2104 |
| C44-C50, C63 | server state machine (`server/ServerProtocol.cpp`) | one inductive invariant over all runs (`Server/Inv.lean`), then per-output facts |
| C51-C57, C59-C62 | client state machine (`client/ClientProtocol.cpp`) | one inductive invariant over all runs (`ClientSM/Inv.lean`); `Does` gives the complete transition relation |
| C58 | a client run and a server run side by side | injectivity of encodings; collision freedom of the hash as an explicit hypothesis over the listed inputs |
| C64 | `protocol/ech/Types-inl.h` | round trip |
| C65,C66,C70 | `protocol/ech/Encryption.cpp`, `Decrypter.cpp` over abstract HPKE primitives | composition of C34, C35 and the codec lemmas |
| C67 | `calculateECHPadding` | arithmetic |
| C68 | `selectECHConfig`/`negotiateECHConfig` | induction on lists |
| C69 | `setAcceptConfirmation`, `checkECHAccepted` | transparency of the 8 confirmation bytes |
| C71 | `protocol/Exporter.cpp` and its callers | unfolding against RFC 8446 7.5; injectivity of labels |
| C72,C73 | `protocol/AsyncFizzBase.cpp` as a small-step machine with an explicit call stack, a heap of write requests and a log (`Async/`) | stack/lifetime invariant, reader invariant and write-chain invariant over all runs; then the log is accepted by two reference machines (`Async/Spec.lean`) |
| C74–C77 | `client/AsyncFizzClient*`, `server/AsyncFizzServer*`, `EarlyDataRejectionPolicy.cpp` as a small-step machine with an explicit call stack (`Sock/`); the state machine is the environment, within what C30, C52, C61 prove of it | stack-shape, callback-ledger, stream, early-data and byte-count invariants over all runs (`Sock/Props.lean`) |
| C78 | a client run, a server run, and the record layers between them (`Channel/`); the network is an arbitrary list of buffers in which only genuine ciphertexts open | one-key theorem over the record layer (C78_key), invariant of generations ended by KeyUpdate, ladder of traffic secrets, per-step flow relations of both state machines; C78_connected joins this with C58, so that nothing is assumed about the keys of the two ends |
| C79 | `AEGISCipher.cpp` over an abstract streaming AEGIS state (`Aead/Aegis.lean`), sharing the buffer helpers of C37 | refinement: the helpers feed the concatenation whatever the layout; invariant over call histories that the stored key is the last accepted one and that no stream state survives a call |
| C80 | the three decompressors and compressors over abstract libraries, the manager's map, SelfCert's compressed certificates, the server's choice and the client's use (`Compress/`) | exact acceptance conditions (iff), map refinement by induction on the list given, composition |
| C81 | the token binding context, client and server extension objects and the extension codec (`TokenBinding/`) | codec characterised as in C01/C02; exact acceptance conditions of each side; composition of the two |
| C82 | message codec, constructor and validator over abstract ECDSA/Ed25519/SHA-256; the key as a chain of buffers | exact acceptance condition (iff) from which round trip, binding to the connection and the two limits follow |
| C83 | the upgrade object as a state machine over events of kernel, transport, timer and caller; message codec | invariant over all histories (idle, going, won, lost), codec characterised by iff |
| C84 | parameters given to `setsockopt`, the calls made, the conversion; the kernel's structure, nonce and records in the specification | layout inverted by the kernel's parser; nonce equality; record layer theorems of C06, C10 with the nonce |
| C85 | `performReadMsg` and all it calls, over arbitrary answers of `recvmsg`; the ticket handler over the client's state | one relation per step, induction over histories; handler equal to the state machine's |
| C86 | the write queue of the receive-only socket, without reentrancy | invariant: finished, outstanding, queued writes partition the history |
| C87 | the default factory's key exchanges (EC, X25519, hybrid) over abstract curves and KEMs | the symmetry of each primitive lifted through the state of the two objects; exact acceptance of a peer share |
| C88 | the client certificate managers as maps, their lookup | induction over the history of additions and over the preference list |
| C89 | GREASE ECH and GREASE PSK with the random source as an oracle | for all oracles the result is in the allowed set, and the set is covered; non-interference by equality of shapes |
| C90 | hexadecimal, key log lines, key text | inverse functions, injectivity of line concatenation |
| C91 | PEM text of delegated credentials, with `find`, `replace`, `substr` and `size_t` arithmetic | a label is found where it stands if it does not stand earlier; label lines cannot overlap |
| C92 | the loop of `getAlpnsFromNpnList` | induction; counterexample to the header comment |
| C93 | the OpenSSL verifier as a state (context, store, callback, authorities) over an oracle for `X509_verify_cert` and failing calls | exact characterisation of acceptance after any history; corollaries of C30 and C29 |
| C94 | the loops of the two groups of extensions over arbitrary members; padding | induction over the members; corollary of C30 with EncryptedExtensions |
| C95 | `getReadBuffer`, the size hint of `WaitForData` and the record layer put together (`Async/Aligned`); invariant over reads and polls: whole records plus at most one; counterexample for suspended processing |
| C96 | the OpenSSL calls of `Signature.cpp`/`Signature-inl.h` as a call log against an oracle answering arbitrarily (`Cred/Evp`); the meaning of the calls and the RFC 8446 scheme table are a separate specification (`Cred/EvpSpec`) |
| C97 | the machine of C72 with the transport's read callbacks, attach/detach and `WaitForData` added (`Async/Pressure`); invariants over all runs: total bytes including those in the call stack, and reading is on unless a call in progress will decide it |
| C98 | `Cred/Load.lean`: `CertUtils::makeSelfCert` (PEM, PKCS8-like inputs and from certificates), `getKeyType`, `getCertMessage`, `OpenSSLSelfCertImpl::create`, peer certificate (de)serialisation, `FizzUtil` key/chain/password files over an abstract OpenSSL; loading succeeds iff (`C98_exact`), the result signs what a peer given its Certificate message verifies (`C98_works`, on C96's model of the EVP calls), compressed forms, password callback bounds |
| C99 | `Async/EndOfTls.lean`: `AsyncFizzBase::endOfTLS` and an endpoint (C08's `Session`, i.e. `readEvent` in a loop with a user who switches layers) on a transport that goes on after the close_notify; invariant: the bytes the application gets, from the callback and then from the transport, are the stream minus a TLS part on which - followed by anything - the endpoint comes to the close_notify (`C99_handover`, `C99_segmentation`, `C99_shortest`); both state machines over every history (`C99_server`, `C99_client`) |
| C100 | `Util/Names.lean`: the eight `toString`s, `enumToHex`, the four `parse`s, `getHashFunction`, `getHashSize`, `makeAead`, the HPKE tables and `setProtocolVersion`, against a small table of the standards (`Spec.suites`, `Spec.kems`). Printing: names are distinct and none of them is hexadecimal of the right width, hexadecimal is injective. Parsing: search in a list with distinct keys. |
| C101 | `KeyLog/Model.lean`: the `SecretAvailable` action of both ends and `SecretVisitor`, over the action lists of the state machines, executed in order. Per shape of a step every entry carries the random the state has at its end; that random is the one of the negotiation (invariants of C46, C56) and stays; a client connects at most once, so the randoms of its offers are unique; agreement through `C58_parameters`. `KeyLog/Example.lean`: key logs of whole connections. |
| C102 | `Alerts/`: the state machines of both ends as modelled for C30-C70. `ServerSpec`/`ClientSpec` list, per alert, what it says, in terms of the message's extensions, the configuration, the state and the answers of the application (not of the handlers' helpers; the Finished and binder by RFC 8446). Per handler every failure is classified: without an alert, from outside, or with an alert and a reason; composed over the handler table, `processEvent`, `processSocketData` and the close calls (`C102_*_report`), and over the actions written (`C102_*_sent`). |
| C103 | `Access/`: a socket of what the accessors read (state, `earlyDataState_` set or not, failed or not), visiting one by one the actions of the client state machine as modelled for C30-C70. Invariant over histories and over every prefix of the actions: the socket's early flag implies parameters copied from the cached session (`prepareConnect`), no later action changes them, the comparison at success is exactly `Spec.Like`, and after success no action changes what is compared; for accepted early data `Like` comes from C30/C52's invariant (`accepted_like`). |
| C104 | `Server/Ccs.lean`: what `Shape` and `HelloShape` say of what is written in a step (`Answer`), the session id being that of the hello used (`usedHello_eq`); the count by an invariant over histories: none before the first answer, at most one while another ClientHello is awaited (a second HelloRetryRequest is impossible, C47). |
| C105 | `Sock/Timer.lean`: a layer over the socket model that says what each step does to `handshakeTimeout_`, and one more step, its expiry; `Sock/TimerInv.lean`: the steps of a client classified by what they do to the handshake (`tkind`), an invariant over histories with the timer; the theorems in `Sock/TimerProps.lean`. |
| C106 | `Async/Secrets.lean`: a layer over the model of `AsyncFizzBase` that says which secret callback is installed, and one more step, an announced secret; `Async/SecretsProps.lean`: `deliverError` stays on the stack until it has cleared the callback (`step_err`), an invariant over histories. |

## 3. Trusted base

Lean 4.33.0 kernel; axioms at most `propext`, `Classical.choice`, `Quot.sound` (checked with
`#print axioms`).  No `native_decide`, `bv_decide`, own axioms.  The tie between model and C++ is
reading only (the code is not run).  See section 4 for what is and is not modelled.

Assumptions about cryptography appear only as hypotheses of theorems, never as axioms:

* `HashAlg.Ok`: digest length is the declared one, positive, at most the block size and 255*32
  bound, `blankHash` is the hash of the empty string;
* `GoodAead` and friends: `open (seal m) = m` (and, where authenticity is claimed, that only a
  sealed ciphertext opens);
* `Dh K`: commutation of the key exchange;
* `NoClash`: the hash does not collide on the finite list of inputs that two given runs feed it;
* `Channel.Genuine`: a record that opens under a key for a sequence number was sealed by the peer with
  that plaintext for that sequence number (C78); keys of one direction do not repeat (`Link`);
* signature verification is a function of key, scheme, context and data.

## 4. Modelled / not modelled

Modelled (files of `/repo/fizz`; the citations in each definition give exact lines)

* `record/Types.h, Types-inl.h, Types.cpp, Extensions.h, Extensions-inl.h`: all handshake
  messages and the extensions used by the two state machines (`Codec/`).
* `record/PlaintextRecordLayer.cpp, EncryptedRecordLayer.cpp, RecordLayer.cpp, BufAndPaddingPolicy.h`:
  read and write sides, skip and early-data skipping, padding, size hints (`Record/`).
* `crypto/Hkdf.cpp, KeyDerivation.cpp, hpke/Utils.cpp` (labels), `protocol/KeyScheduler.cpp`,
  `openssl` digest HMAC wrapper, `crypto/exchange/HybridKeyExchange.h, X25519.cpp` (lengths),
  `crypto/aead/IOBufUtil.*`, `CryptoUtil.h` buffer handling (`Crypto/`, `Aead/`).
* `server/SlidingBloomReplayCache.cpp, CookieCipher/AeadCookieCipher/CookieTypes, TicketCodec,
  TicketTypes, AeadTicketCipher, AeadTokenCipher, Aead128GCMTokenCipher, TicketPolicy,
  Negotiator.h, protocol/DefaultCertManager.cpp` (`Server/`, `Ticket/`).
* `client/SynchronizedLruPskCache, BasicPskCache, PskSerializationUtils` (`Client/`).
* `server/ServerProtocol.cpp` and `client/ClientProtocol.cpp`: every event handler, with the
  mutations they return (`Server/`, `ClientSM/`); `protocol/FizzBase*-inl.h` event loops (`Conn/`).
* `protocol/ech/*` and `crypto/hpke/*` (`Ech/`, `Hpke/`); `compression`-independent certificate
  messages; `extensions/.../batch signature`: `experimental/batcher/*`, merkle tree (`Batch/`).
* `extensions/delegatedcred/*` without PEM and compressors (`Cred/`), `extensions/exportedauth/*`
  (`ExportedAuth/`), `protocol/Exporter.cpp` (`Exporter/`).
* `protocol/AsyncFizzBase.cpp`: read delivery, error delivery, write queue, destruction (`Async/`);
  `getReadBuffer` with the size hints (`Async/Aligned`); not zero-copy and vectored reads; the
  end-of-TLS callback is in `Async/EndOfTls`, the handshake timeout in `Sock/Timer`, secrets and their callback in `Async/Secrets`.
* `backend/libaegis/AEGISCipher.cpp` (`Aead/Aegis*`), `compression/*` over abstract libraries
  (`Compress/`).
* `extensions/tokenbinding/*` (`TokenBinding/`).
* `experimental/psp/PSP.cpp`: the whole file except the netlink backend (`NetlinkPSP`), which is the
  kernel's side of the contract.  A synchronous callback of the transport is modelled as one right after
  the call (all such calls are the last statement of a member function).
* `experimental/ktls/KTLS.cpp`, `AsyncFizzBaseKTLS.h`, `AsyncFizzBaseKTLS.cpp`, `FizzKTLSCallback.cpp`,
  `AsyncKTLSSocket.cpp`: all functions except `platformSupportsKTLS` and the socket option calls themselves
  (their answers are parameters); the kernel's side is specification; callbacks calling back into the
  receive-only socket are not modelled.
* `protocol/MultiBackendFactory.cpp` (makeKeyExchange), `backend/openssl/crypto/exchange`, the EC part of
  `OpenSSLKeyUtils.cpp` (curve arithmetic and OpenSSL calls are parameters).
* `client/CertManager.cpp`, `extensions/delegatedcred/DelegatedCredentialClientCertManager.cpp`.
* `protocol/ech/GreaseECH.cpp`, `GreaseECHSetting.h`, the GREASE PSK functions of `ech/Encryption.cpp`.
* `util/Hex.cpp`, `util/KeyLogWriter.h`, parts of `util/FizzUtil.cpp` (key exchange from a buffer, X25519
  key pairs, weighted lists).
* `extensions/delegatedcred/Serialization.cpp` (base64 and the PEM readers are parameters).
* `backend/openssl/certificate/OpenSSLCertificateVerifier.cpp` and `.h` (`X509_verify_cert` is a parameter; not
  `createFromCAFile(s)`), `protocol/CertificateVerifier.h`, `tool/CertificateVerifiers.h`.
* `client/MultiClientExtensions.cpp`, `server/MultiServerExtensions.cpp`, `extensions/clientpadding`.
* `backend/openssl/crypto/signature/Signature.cpp`, `Signature-inl.h` (OpenSSL itself is an oracle; that its
  success value means validity is a hypothesis, `Spec.Sound`).
* `backend/openssl/certificate/CertUtils.cpp` 153-404, `backend/openssl/certificate/OpenSSLSelfCertImpl-inl.h` (creation), `util/FizzUtil.cpp` 23-162 in
  `Cred/Load.lean`; PEM and DER parsing and the file system are parameters.
* `protocol/AsyncFizzBase.cpp` 510-531 (`endOfTLS`) in `Async/EndOfTls.lean`.
* `record/Types.cpp` (all), `util/Parse-inl.h` (all), `protocol/Types.cpp:13-45`, `MultiBackendFactory::makeAead`, `crypto/hpke/Utils.cpp` (all): `Util/Names.lean` (and `Ech/Crypt.lean`, `Hpke/Model.lean` for the HPKE identifiers).
* `protocol/AsyncFizzBase.cpp` 525-616, `server/AsyncFizzServer-inl.h` 407-418, `client/AsyncFizzClient-inl.h` 700-712: announced secrets
  (C101); the trace point is a function of its four arguments.
* `protocol/AsyncFizzBase.h` 37-52, `.cpp` 240-246, 496-500, `client/AsyncFizzClient-inl.h` 71-154, 455-458, 578-580: the handshake timer
  (`Sock/Timer.lean`); time itself is not modelled, a running timer may expire at any moment or never.
* the failures of all handlers of both state machines with their alerts (C102; the model of the handlers is that of C30-C70)
* `client/AsyncFizzClient-inl.h` 181-222, 513-517, 540-568, 598-618, 681-684, `client/EarlyDataRejectionPolicy.cpp`: what the client's accessors answer (C103)
* `client/AsyncFizzClient-inl.h`, `server/AsyncFizzServer-inl.h`: connect/accept, writes, early data,
  rejection, error delivery, callbacks, key update by count (`Sock/`).

Not modelled

* The cryptographic primitives (OpenSSL, libsodium, liboqs backends), random generation, X.509
  parsing and chain verification: parameters of the model.
* Memory management (`IOBuf` sharing, headroom and tailroom except where C37 makes it the subject),
  destructor order, `DelayedDestruction`, thread interleavings inside `folly::Synchronized` (each
  locked section is one atomic step), and executor scheduling below the granularity "a future
  completes at some later event".
* The rest of `AsyncFizzClient/Server` (accessors, EKM, timeouts as such), `EventBase`, `tool/`, `test/`,
  certificate compression algorithms themselves, Java/third-party backends, logging.

Simplifications in the state machines (each is repeated at the definition)

* changes of mutable members are modelled in the mutate actions;
* partial changes made by a handler that fails are forgotten (the state goes to Error anyway);
* the order of independent failures inside the client Finished handler is not kept;
* every handler may be asynchronous;
* abort and undefined behaviour end the run with `Outcome.escape`;
* without a certificate verifier the leaf is accepted without chain verification (as in the code);
* two hash algorithms count as equal when length, block size and blank hash agree (`sameHash`).

## 5. Findings

Behaviours of the code found while modelling; none is hidden by a hypothesis without being named.

Record and caches
* C13 is false as stated: the bloom cache forgets before its TTL (witness proved, real window proved).
* C12/C13 cell/ bucket rollover is driven by ticks, not by wall-clock time.
* C15: a certificate identity beginning with a dot acts as a wildcard for any first label.
* C16: a cipher without contexts aborts instead of returning nothing.
* C17: overflow in the conversion of ticket times is undefined behaviour; C19: times before the epoch come
  back as year 2262.
* C20: capacity 0 means unlimited.  C38: the configured ticket validity is not enforced on acceptance.
* C21: calls out of protocol order are undefined behaviour; the list is in `KeySchedule.lean`.

Connection loop
* `initiateKeyUpdate` while a partial handshake message is buffered kills the connection (on the
  server without an alert).
* The raw machines are not terminal: `processAppClose` in Error moves to Closed, an invalid event in
  Closed moves to Error and reports; the terminal checks are in the event loop; the v2 and accept
  triggers bypass pause and terminal checks.
* Writes submitted after `moveToErrorState` are dropped silently.
* After `appClose`, data of the peer still in flight moves the server to Error (no AppData handler in
  ExpectingCloseNotify).  In WriteSideClosed a KeyUpdate or NewSessionTicket kills the client.

Client
* After `appClose` during the handshake the client sits in WriteSideClosed and delivers application
  data protected only with the handshake keys of a server it has not authenticated.
* GREASE ECH with a computed payload is appended after pre_shared_key and the binder is not recomputed;
  GREASE ECH is not resent after a HelloRetryRequest.
* The session id echo of a HelloRetryRequest is not checked; a HelloRetryRequest that changes nothing
  is accepted; duplicate extensions in certificate entries are not checked.
* `removeExtension` removes only the first: application extensions of type 41, 0xfe0d, 0, 42 make the
  outer ECH hello keep inner values.
* The ech_required alert is written with the handshake write layer after the client Finished.
* ECH retry_configs without a supported config raise `emptyOptional` and fail the handshake.
* ECH accepted together with an ECH extension in EncryptedExtensions is not rejected.
* In Error the client reports the error again.
* A CachedPsk whose type is neither External nor Resumption leads to certificate authentication even
  if accepted.

Server
* With a cookie retry the transcript uses the inner hello's cookie while the state comes from the outer.

ECH / HPKE
* `setECHOuterExtensionTypes` says that ordering does not matter; if the listed types are not
  contiguous in the inner hello the server reconstructs a reordered hello (the default is fine).
  Listing types whose inner and outer values differ gives the outer's; listing 0xfd00 erases the
  reference; bytes after the reference vector are ignored.
* `parseSupportedECHConfig` ignores trailing bytes; the null check on the public key cannot fail;
  suites whose KDF is not that of the AEAD's TLS cipher are skipped.
* DHKEM uses the hash of the symmetric suite's KDF rather than the KEM's own (`getHashFunctionForKEM` is
  unused there): x25519 with HKDF-SHA384 is not RFC 9180.
* `checkECHAccepted` reads the first ECH extension of an HRR, `setAcceptConfirmation` writes the last.
* `makeDummyServerHello` dereferences a null session id for old-draft hellos.
* At the sequence limit HPKE `seal` encrypts and then fails without advancing.

Batch signatures
* The batcher picks the last matching scheme although the comment says first; with no match the schemes
  stay uninitialised; the index check `> 2^32` cannot fail; unknown schemes give base scheme 0; index
  bits above the tree height are ignored, so padded copies let an index >= n prove a message; trailing bytes
  after a BatchSignature are ignored; threshold 0 makes every add throw.

AEAD over buffer chains
* `encFunc`/`decFunc` keep an `int numWritten` over the whole chain: signed overflow beyond 2 GB.  The
  pointer `output.writableData() + numWritten` handed to the final call points past the first buffer (it
  is not written through).  `transformBuffer` does not end when the output has only empty buffers.

Delegated credentials
* Bytes after the credential in its extension, and after the list of schemes, are ignored.
* The factory makes the peer certificate with the credential's key type, so parent and credential must
  have the same type, although `generateCredential` and the owner's side accept different ones.
* `expected_verify_scheme` is not checked against the schemes the client advertised for credentials.
* The owner does not check the time on loading; `valid_time` wraps modulo 2^32; converting certificate
  dates after 2262 to nanoseconds overflows (undefined behaviour).
* `generateDelegatedCredentialPEM` replaces the header at offset 0 rather than where it was found.

Exported authenticators
* A request has no handshake header (RFC 9261 hashes the message with its header).
* The Certificate's context is not compared with the request's (the MAC binds the request only).
* The scheme is not checked against the request on validation, and on making falls back to one that was
  not asked for.
* Bytes after the third message are ignored; a message of more than 131072 bytes can be made but not
  validated; a delegated credential cannot be used.
* Before the exporter secret exists `getExportedKeyingMaterial` returns null, and both functions
  dereference the null Finished key (for the validating end: on any message that begins with Finished).

Transport (`AsyncFizzBase`)
* `setReadCB` takes no `DestructorGuard`: if the application destroys the socket inside a read callback
  that its own `setReadCB` invoked, the function goes on with a destroyed object
  (`Async.Example.setReadCB_unguarded`; the contract in `allowed` excludes this).
* A read callback that re-installs itself while being fed is told a pending end of stream before the
  bytes that are left (`Async.Example.eof_overtakes`).
* Data delivered reentrantly while a read callback is being fed overtakes older bytes
  (`Async.Example.reentrant_arrival_reorders`; `FizzBase` is not reentrant, C24).
* An error reported inside the read callback's `readErr` is kept and then cleared undelivered.
* While a failure is being reported, `getAppBytesBuffered` still counts writes already failed.

Sockets (`AsyncFizzClient`, `AsyncFizzServer`)
* A client whose context enables early data and that writes before the handshake callback bypasses the
  pending queue: the write goes to the state machine, which fails the connection (a code comment says
  so; C74's `WritesWait`).
* `destroy()` fails pending writes only through the transport's read callback: before reads were
  started (or after they were stopped) write callbacks kept by this layer are never called.
* The callbacks called by `deliverAllErrors` run before the machine is moved to the error state, so
  `good()` may still be true inside them; a write made there is accepted and failed a moment later.
* After a fatal rejection `earlyDataState_` stays set, so `isReplaySafe()` stays false for good.
* A write is counted toward the key update threshold only after its own event loop has ended: writes
  made inside that loop are counted first (C76_bound_inside).
* A server that supports a compression algorithm the client offers, but whose certificate was created
  without a compressor for it, fails the handshake (`std::map::at` throws) instead of sending the plain
  Certificate message (C80_no_fallback).
* Token binding: bytes after the 65 bytes of a P-256 key and after the 64 bytes of its signature are
  ignored, so one key pair has arbitrarily many accepted token binding IDs (C82_malleable); for Ed25519
  the verdict depends on how the key is cut into buffers (C82_fragments); bytes after the parameters in
  the extension body are ignored.
* A `TokenBindingContext` accepts an empty version list; a client with it reads `front()` of an empty
  vector when the extension reaches its handler (C81_unasked).  The client refuses an extension that it did
  not offer (C94_client), so this needs another member of a `MultiClientExtensions` to offer token binding.
* PSP upgrade: a second `start` after a success passes the check and dereferences the state that was
  given up (C83_restart); an error message is written and the transport closed at once with `closeNow`,
  which may discard it; bytes that arrive behind the peer's message are dropped silently
  (`C83_completes` allows them), although they belong to the upgraded stream; a key shorter than the
  version's length is filled up with zeros without complaint.
* Kernel TLS: if the kernel refuses the sending keys the conversion returns an error, "future I/O operations
  on fizzSock are allowed", but the kernel already has the receiving keys, and will decrypt records the
  library then cannot read (C84_half_enabled).
* Kernel TLS: whatever follows a ticket in the data that completes it (another ticket in the same record, a
  KeyUpdate, the beginning of a message) is dropped (C85_dropped).  A ticket the handler fails on, for
  example one whose early_data extension is malformed, throws out of `performReadMsg`, which the caller does
  not expect, where an unconverted client ends the connection with an error (C85_throws).
* Receive-only kernel TLS socket: the callback of an empty write is never called, and an empty write that is
  queued stops every later one (C86_empty_stalls).
* NIST-curve key shares in compressed or hybrid form are accepted, and the length of a share is not compared
  to the group's (C87_forms), although TLS 1.3 has only the uncompressed form.
* GREASE ECH: an empty list in the setting is an error only because `size() - 1` wraps; a computed payload
  size is taken modulo 2^64; the identities of a GREASE PSK are always 16 bytes, whatever the real ones are.
* The server's trace probe is given `std::numeric_limits<Label>::max()` for secrets without a label, which for
  an enumeration is `Label()`, the value of the label RSA (C90_probe).
* `createKeyExchangeFromBuf` returns success and a null key exchange for any other KEM (C90_null_kex).
* `generateDelegatedCredentialPEM` replaces the first 28 bytes of the key text, not the header it found
  (C91_prefix); `loadDCFromPEM` throws `std::out_of_range` when the key labels are in reverse order
  (C91_reversed).
* `getAlpnsFromNpnList` never updates its maximum, so it returns the last list that outweighs the first one
  rather than the highest weighted one (C92_not_highest).
* `OpenSSLCertificateVerifier::setX509Store` installs the store before it computes the authorities; if that
  fails, the new store is in force while certificate requests name the old authorities
  (C93_setStore_fails).

Record-aligned reads (C95)
* While the processing of an event is suspended (asynchronous ticket encryption in the server's Finished
  handler, asynchronous signing, ...) the transport read callback stays installed and `getReadBuffer` keeps
  using the hint of the record just consumed, so up to that many bytes beyond the record boundary are read
  (`C95_suspended`); `ReportHandshakeSuccess` then runs with application data in `transportReadBuf_`, contrary
  to the comment "At this point, we are aligned on a record boundary".  Kernel TLS would miss these bytes.
* `alignedRecordReads_` treats the hint (bytes still missing) as if it were a total: with a header buffered it
  first asks for five bytes less than the body and then for the rest.  Harmless: never more than the hint.

Back-pressure (C97)
* `readZeroCopyDataAvailable` does not call `checkBufLen`: with zero-copy reads and processing suspended the peer
  can make the connection buffer without bound (`C97_zeroCopy_unbounded`).
* `checkBufLen` does nothing while a read callback is installed, although a suspended state machine hands the
  callback nothing: no bound on `transportReadBuf_` either (`C97_installed_unbounded`).
* `attachEventBase` and a nested `setReadCB(nullptr)` from inside a delivery switch reading on over a full buffer; the
  next read is then accepted before the check (the `lateCount` of `C97_bounded`).

Loading credentials (C98)
* `CertUtils::makeSelfCert(vector<X509>, ...)` calls `front()` on the vector it is given without
  checking that it is not empty (`C98_empty`); the PEM entry point does check.  The password callback cuts passwords over 1023
  bytes without an error (`C98_password_cut`), and `readPrivateKey` ignores the result of `readFile`, so that a file that cannot be
  read is treated as an empty one (`C98_keyFile`).

Names (C100)
* The groups x448, SecP256r1MLKEM768 and the Kyber groups, and the batch signature schemes, print a name that `parse` does not
  accept (`C100_group`, `C100_scheme`); the extension `supported_versions` prints as `supported_version`.  Two signature schemes,
  `ed25519` and `ed448`, have names made of hexadecimal digits only; they do not clash with an unknown scheme because of their
  length (`C100_printed_injective`).

Key logs (C101)
* With ECH accepted and early data, the client announces its early secrets (`CLIENT_EARLY_TRAFFIC_SECRET`, `EARLY_EXPORTER_SECRET`)
  when the state holds the random of the outer ClientHello, and the server with that of the inner one, so the lines of the two key
  logs do not go together (`C101_early`; `early_logs` shows it on a whole connection).  All other secrets agree (`C101_agree`).

Tightenings found by the automatic mutants
* `C81_offer` (the parameters a client sets are the ones it offers), `C02_retry`/`C01_retry` (the random of a HelloRetryRequest is the SHA-256
  of its text, with SHA-256 as the specification), `C100_registered` (every name the printers give is the registered one),
  `C83_written`/`C83_signals` (an ERROR/SIGNAL TLV written by PSP is well formed and read back), `C07_count`, `C70_retry_fails`.

Alerts (C102)
* Both ends: what an alert says is always true, except that `unexpected_message` also stands for every failure without an alert of its own
  (a message that cannot be decoded beyond its framing, for instance a malformed extension, is answered with it and not with decode_error).
* The two ends answer the same fault differently: a CertificateVerify with a scheme that was not offered (client: illegal_parameter,
  server: handshake_failure), a wrong Finished (client: bad_record_mac, where RFC 8446, 4.4.4 has decrypt_error; server: no alert),
  handshake data behind a KeyUpdate (client: unexpected_message, server: no alert).

What a 0-RTT client says (C103)

* No deviation found. The clause that the connection is like the session assumes that the cached PSK is of type external or resumption
  (every PSK that comes from a ticket is; an application could put another into its cache).
* After a rejection that fails the connection, `earlyDataState_` stays set, and the accessors go on to answer from the session.

Compatibility records (C104)

* The server sends the change_cipher_spec after its HelloRetryRequest and again after its ServerHello, where RFC 8446, D.4 has it once, "immediately
  after its first handshake message" (`Server/CcsExample.lean`). Clients drop both.

Compression (C80)

* `Compress/Available.lean`: a certificate's compressors do not fail when the library does not (each asks for the room the library says it needs).

Handshake timer (C105)

* The timer is cancelled by full success and by a failure that finds the handshake callback still set. Early success
  uses the callback up without cancelling the timer, so a connection that fails between early and full success keeps
  its timer: it expires later on the dead connection and `deliverAllErrors` runs again (`Sock/TimerExample.lean`); until
  then `isDetachable` is false. That is why C105 excepts early success.

Secret callback (C106)

* A secret callback set from inside the `readErr` or `writeErr` that an error causes is lost: `deliverError` goes on to
  clear the callback after those calls (`Async/SecretsExample.lean`).
