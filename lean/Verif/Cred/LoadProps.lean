import Verif.Cred.Load
import Verif.Cred.EvpProps
import Verif.Compress.Props

/-!
# C98: a credential that loads works, and one that cannot work does not load
-/

namespace Fizz.Cred.Load
open Fizz.Codec Fizz.Cred Fizz.Compress Fizz.Cred.Evp Fizz.Cred.Evp.Spec

variable {K : Type}

/-- The kinds of key TLS 1.3 has a scheme for here: RSA, the three NIST curves, Ed25519. -/
def Supported : KeyKind → Bool
  | .rsa | .p256 | .p384 | .p521 | .ed25519 => true
  | _ => false

/-- The NIST curves: OpenSSL checks the key itself. -/
def Curve : KeyKind → Bool
  | .p256 | .p384 | .p521 => true
  | _ => false

theorem getKeyType_ok {o : Ossl K} {k : K} {t : KeyType} (h : getKeyType o k = .ok t) :
    Supported (o.kind k) = true ∧ ∃ alg, rfc (schemeOf t) = some (o.kind k, alg) := by
  unfold getKeyType at h
  cases hk : o.kind k <;> simp only [hk] at h <;> cases h <;> exact ⟨rfl, _, rfl⟩

theorem getKeyType_total {o : Ossl K} {k : K} (h : Supported (o.kind k) = true) : ∃ t, getKeyType o k = .ok t := by
  unfold getKeyType
  cases hk : o.kind k <;> simp only [hk] at h ⊢ <;> first | exact ⟨_, rfl⟩ | cases h

theorem setKey_ok {o : Ossl K} {t : KeyType} {k : K} {kd alg} (hr : rfc (schemeOf t) = some (kd, alg)) :
    setKey o t k = .ok () ↔ o.kind k = kd ∧ (Curve (o.kind k) = true → o.ecCheck k = true) := by
  cases t <;> simp only [schemeOf, rfc, Option.some.injEq, Prod.mk.injEq] at hr <;> obtain ⟨rfl, -⟩ := hr <;>
    unfold setKey <;> (try unfold validateECKey) <;> (try unfold validateEdKey) <;>
    cases hk : o.kind k <;> simp [hk, Curve] <;> cases o.ecCheck k <;> simp

theorem compressAll_total {m : CertificateMsg} : ∀ {cs : List Compressor} {made},
    (∃ out, compressAll (.ok m) cs made = .ok out) ↔ ∀ c ∈ cs, ∃ cc, c.compress m = .ok cc
  | [], made => by simp [compressAll]
  | c :: cs, made => by
    simp only [compressAll, Res.ok_bind, Res.bind_eq_ok, List.forall_mem_cons]
    constructor
    · rintro ⟨out, cc, h1, h2⟩
      exact ⟨⟨cc, h1⟩, compressAll_total.1 ⟨out, h2⟩⟩
    · rintro ⟨⟨cc, h1⟩, h2⟩
      obtain ⟨out, h3⟩ := compressAll_total.2 h2
      exact ⟨out, cc, h1, h3⟩

/-- The Certificate message a chain stands for. -/
def message (certs : List (X509 K)) (context : Bytes) : CertificateMsg := ⟨context, certs.map fun x => ⟨x.der, []⟩⟩

theorem create_eq {o : Ossl K} {t : KeyType} {key : K} {x : X509 K} {rest : List (X509 K)} {cs : List Compressor}
    {c : Loaded K} : create o t key (x :: rest) cs = .ok c ↔ o.checkPrivateKey x key = true ∧
      ∃ made, compressAll (.ok (message (x :: rest) [])) cs [] = .ok made ∧ setKey o t key = .ok () ∧
        c = ⟨⟨t, key, x, rest⟩, made⟩ := by
  unfold create getCertMessage
  cases hc : o.checkPrivateKey x key with
  | false => simp [hc]
  | true =>
    simp only [hc, Bool.true_eq_false, if_false, Res.bind_eq_ok, Res.pure_eq, true_and]
    constructor
    · rintro ⟨made, h1, u, h2, h3⟩
      cases h3
      exact ⟨made, h1, h2, rfl⟩
    · rintro ⟨made, h1, h2, rfl⟩
      exact ⟨made, h1, (), h2, rfl⟩

/-- **Exactly when.**  A chain and a key become a credential exactly when the first certificate has a public key of a supported
kind, OpenSSL says that the private key belongs to it, the private key is of the same kind (and passes OpenSSL's check, for a
curve), and every compressor can compress the chain's Certificate message. -/
theorem C98_exact (o : Ossl K) (certs : List (X509 K)) (key : K) (cs : List Compressor) :
    (∃ c, makeSelfCert o certs key cs = .ok c) ↔
      ∃ x rest pub, certs = x :: rest ∧ x.pubkey = some pub ∧ Supported (o.kind pub) = true ∧ o.kind key = o.kind pub ∧
        o.checkPrivateKey x key = true ∧ (Curve (o.kind key) = true → o.ecCheck key = true) ∧
        ∀ c ∈ cs, ∃ cc, c.compress (message certs []) = .ok cc := by
  unfold makeSelfCert
  cases certs with
  | nil => simp
  | cons x rest =>
    simp only [List.cons.injEq]
    cases hp : x.pubkey with
    | none =>
      constructor
      · rintro ⟨c, h⟩; cases h
      · rintro ⟨x', rest', pub, ⟨rfl, rfl⟩, h, -⟩; rw [hp] at h; cases h
    | some pub =>
      simp only [Res.bind_eq_ok]
      constructor
      · rintro ⟨c, t, h1, h2⟩
        obtain ⟨h3, made, h4, h5, -⟩ := create_eq.1 h2
        obtain ⟨h6, alg, h7⟩ := getKeyType_ok h1
        obtain ⟨h8, h9⟩ := (setKey_ok h7).1 h5
        exact ⟨x, rest, pub, ⟨rfl, rfl⟩, hp, h6, h8, h3, h9, compressAll_total.1 ⟨made, h4⟩⟩
      · rintro ⟨x', rest', pub', ⟨rfl, rfl⟩, h1, h2, h3, h4, h5, h6⟩
        rw [hp] at h1
        cases h1
        obtain ⟨t, ht⟩ := getKeyType_total h2
        obtain ⟨-, alg, h7⟩ := getKeyType_ok ht
        obtain ⟨made, h8⟩ := compressAll_total.2 h6
        exact ⟨_, t, ht, create_eq.2 ⟨h4, made, h8, (setKey_ok h7).2 ⟨h3, h5⟩, rfl⟩⟩

theorem made_eq {o : Ossl K} {certs : List (X509 K)} {key : K} {cs : List Compressor} {c : Loaded K}
    (h : makeSelfCert o certs key cs = .ok c) :
    ∃ x rest pub, certs = x :: rest ∧ x.pubkey = some pub ∧ getKeyType o pub = .ok c.cert.type ∧
      o.checkPrivateKey x key = true ∧ compressAll (.ok (message certs [])) cs [] = .ok c.compressed ∧
      setKey o c.cert.type key = .ok () ∧ c.cert = ⟨c.cert.type, key, x, rest⟩ := by
  unfold makeSelfCert at h
  cases certs with
  | nil => cases h
  | cons x rest =>
    simp only at h
    cases hp : x.pubkey with
    | none => rw [hp] at h; cases h
    | some pub =>
      simp only [hp, Res.bind_eq_ok] at h
      obtain ⟨t, h1, h2⟩ := h
      obtain ⟨h3, made, h4, h5, rfl⟩ := create_eq.1 h2
      exact ⟨x, rest, pub, rfl, hp, h1, h3, h4, h5, rfl⟩

/-- **What is loaded** is the chain and the key that were given, and it signs with the one scheme RFC 8446 has for the key. -/
theorem C98_loaded {o : Ossl K} {certs : List (X509 K)} {key : K} {cs : List Compressor} {c : Loaded K}
    (h : makeSelfCert o certs key cs = .ok c) :
    c.cert.x509 :: c.cert.rest = certs ∧ c.cert.key = key ∧
      (∃ alg, rfc (schemeOf c.cert.type) = some (o.kind key, alg)) ∧
      ∀ ctx, getCertMessage (c.cert.x509 :: c.cert.rest) ctx = .ok (message certs ctx) := by
  obtain ⟨x, rest, pub, rfl, -, h1, -, -, h2, h3⟩ := made_eq h
  obtain ⟨-, alg, h4⟩ := getKeyType_ok h1
  have h5 := ((setKey_ok h4).1 h2).1
  rw [h3]
  exact ⟨rfl, rfl, ⟨alg, by rw [h5]; exact h4⟩, fun _ => rfl⟩

/-- What is expected of OpenSSL: a private key that `X509_check_private_key` accepts makes the signatures that are valid for the
certificate's key, and its public half passes the check if the private key does. -/
structure Faithful (o : Ossl K) (valid : Alg → K → Bytes → Bytes → Prop) : Prop where
  pair : ∀ x key pub, o.checkPrivateKey x key = true → x.pubkey = some pub →
    (∀ alg m s, valid alg key m s ↔ valid alg pub m s) ∧ (o.ecCheck key = true → o.ecCheck pub = true)

/-- A certificate's encoding is a certificate with the same key. -/
def Readable (o : Ossl K) (x : X509 K) : Prop := x.der ≠ [] ∧ ∃ y, o.d2iX509 x.der = some y ∧ y.pubkey = x.pubkey

theorem makePeer {o : Ossl K} {x : X509 K} {pub : K} {t : KeyType} (hp : x.pubkey = some pub) (ht : getKeyType o pub = .ok t)
    (hs : setKey o t pub = .ok ()) : makePeerCertX509 o x = .ok ⟨t, pub, x⟩ := by
  unfold makePeerCertX509 PlainCert.create
  unfold getKeyType at ht
  simp only [hp]
  cases hk : o.kind pub <;> simp only [hk] at ht ⊢ <;> cases ht <;> simp [hs]

/-- **It works.**  Everything a loaded credential signs is accepted by a peer that is given the credential's Certificate message:
signing succeeds, the peer can read the first certificate, and verifies the signature - under the same scheme, for the same
context and transcript.  Any other signature the peer accepts is valid for that private key, too. -/
theorem C98_works {o : Ossl K} {l : Lib K} {valid : Alg → K → Bytes → Bytes → Prop} (hl : Working o.kind valid l)
    (hf : Faithful o valid) {certs : List (X509 K)} (hr : ∀ x ∈ certs, Readable o x) {key : K} {cs : List Compressor}
    {c : Loaded K} (h : makeSelfCert (ossl o l) certs key cs = .ok c) :
    ∃ first others peer, message certs [] = ⟨[], first :: others⟩ ∧ makePeerCertDer (ossl o l) first.cert_data = .ok peer ∧
      (∀ context tbs, ∃ s, certSign (ossl o l) c.cert.type c.cert.key (schemeOf c.cert.type) context tbs = .ok s ∧
        peer.verify (ossl o l) (schemeOf c.cert.type) context tbs s = .ok ()) ∧
      ∀ scheme context tbs s, peer.verify (ossl o l) scheme context tbs s = .ok () →
        scheme = schemeOf c.cert.type ∧
        ∃ alg, rfc scheme = some (o.kind key, alg) ∧ valid alg key (prepareSignData context tbs) s := by
  obtain ⟨x, rest, pub, rfl, hp, h1, h3, -, h2, hc⟩ := made_eq h
  obtain ⟨-, alg, h4⟩ := getKeyType_ok h1
  obtain ⟨h5, h6⟩ := (setKey_ok h4).1 h2
  obtain ⟨hv, hec⟩ := hf.pair x key pub h3 hp
  obtain ⟨hne, y, hy, hyp⟩ := hr x List.mem_cons_self
  have hk : o.kind key = o.kind pub := h5
  have hset : setKey (ossl o l) c.cert.type pub = .ok () := by
    refine (setKey_ok h4).2 ⟨rfl, fun h => hec (h6 ?_)⟩
    show Curve (o.kind key) = true
    rw [hk]; exact h
  have hkey : c.cert.key = key := by rw [hc]
  refine ⟨⟨x.der, []⟩, rest.map fun x => ⟨x.der, []⟩, ⟨c.cert.type, pub, y⟩, rfl, ?_, ?_, ?_⟩
  · have hy' : (ossl o l).d2iX509 x.der = some y := hy
    unfold makePeerCertDer
    simp only [hy']
    rw [if_neg (by simp [hne])]
    exact makePeer (by rw [hyp, hp]) h1 hset
  · intro context tbs
    obtain ⟨⟨s, hs⟩, -⟩ := C96_exact (t := c.cert.type) (key := key) (data := prepareSignData context tbs) hl h4 hk
    have hval := (C96_valid hl.sound h4 hk).2 hs
    have hver := ((C96_exact (t := c.cert.type) (key := pub) (data := prepareSignData context tbs) hl h4 rfl).2 s).2
      ((hv _ _ _).1 hval)
    refine ⟨s, ?_, ?_⟩
    · unfold certSign
      simp only [if_true, ossl, typeOf_scheme, hkey, hs]
    · unfold PlainCert.verify certVerify
      simp only [if_true, ossl, typeOf_scheme, hver]
  · intro scheme context tbs s hok
    obtain ⟨alg', ha, hver, -⟩ := C96_certificate (o := o) hl.sound (t := c.cert.type) (k := pub) (scheme := scheme)
      (context := context) (tbs := tbs) (s := s) hset
    obtain ⟨e, hval⟩ := hver hok
    exact ⟨e, alg', by rw [e, hk]; exact ha, (hv _ _ _).2 hval⟩

/-- **Compressed.**  The compressed forms made at loading are there for exactly the algorithms of the compressors, and a client
with the matching decompressor gets the Certificate message back (128 KiB at most). -/
theorem C98_compressed {o : Ossl K} {certs : List (X509 K)} {key : K} {cs : List Compressor} {c : Loaded K}
    (h : makeSelfCert o certs key cs = .ok c) (a : UInt16) :
    (∀ cc, getCompressedCert c.compressed a = .ok cc → ∃ k ∈ cs, k.algorithm = a ∧ k.compress (message certs []) = .ok cc) ∧
    ((∀ k ∈ cs, k.algorithm ≠ a) → getCompressedCert c.compressed a = .error .outOfRange) ∧
    ((∃ k ∈ cs, k.algorithm = a) → ∃ cc, getCompressedCert c.compressed a = .ok cc) := by
  obtain ⟨x, rest, pub, rfl, -, -, -, hm, -⟩ := made_eq h
  have key1 : ∀ cc, getCompressedCert c.compressed a = .ok cc →
      ∃ k ∈ cs, k.algorithm = a ∧ k.compress (message (x :: rest) []) = .ok cc := by
    intro cc hcc
    unfold getCompressedCert at hcc
    split at hcc
    · cases hcc
    · rename_i cc' hl
      cases hcc
      exact (compressAll_spec hm a cc hl).resolve_left (by simp [lookup])
  have keep : ∀ {cs : List Compressor} {made out}, compressAll (.ok (message (x :: rest) [])) cs made = .ok out →
      ((∃ k ∈ cs, k.algorithm = a) ∨ (lookup a made).isSome) → (lookup a out).isSome := by
    intro cs
    induction cs with
    | nil =>
      intro made out h1 h2
      cases h1
      exact h2.resolve_left (by simp)
    | cons k ks ih =>
      intro made out h1 h2
      simp only [compressAll, Res.ok_bind, Res.bind_eq_ok] at h1
      obtain ⟨cc, -, h4⟩ := h1
      refine ih h4 ?_
      rw [lookup_assign]
      rcases h2 with ⟨k', hk', rfl⟩ | h2
      · rcases List.mem_cons.1 hk' with rfl | hk'
        · right; rw [if_pos rfl]; rfl
        · exact .inl ⟨k', hk', rfl⟩
      · right
        split
        · rfl
        · exact h2
  refine ⟨key1, fun hn => ?_, fun hy => ?_⟩
  · cases hg : getCompressedCert c.compressed a with
    | ok cc =>
      obtain ⟨k, h1, h2, -⟩ := key1 cc hg
      exact (hn k h1 h2).elim
    | error e =>
      unfold getCompressedCert at hg
      split at hg
      · exact hg.symm
      · cases hg
  · obtain ⟨cc, hcc⟩ := Option.isSome_iff_exists.1 (keep hm (.inl hy))
    exact ⟨cc, by unfold getCompressedCert; rw [hcc]⟩

/-- **From text.**  Loading from PEM text is loading the certificates read and the key read; text without a certificate, or a key
that cannot be read, is an error - and nothing of this is undefined. -/
theorem C98_pem (o : Ossl K) (e : Env K) (certData keyData : Bytes) (password : Option Bytes) (cs : List Compressor) :
    (∀ c, makeSelfCertPem o e certData keyData password cs = .ok c ↔ ∃ certs key, e.bio = true ∧
      e.readCerts certData = some certs ∧ e.readKey keyData (password.map fun p => p.takeWhile (· ≠ 0)) = some key ∧
      makeSelfCert o certs key cs = .ok c) ∧
    ∀ m, makeSelfCertPem o e certData keyData password cs = .error (Failure.ub m) →
      ∃ k ∈ cs, ∃ msg, k.compress msg = .error (Failure.ub m) := by
  constructor
  · intro c
    unfold makeSelfCertPem readPrivateKeyFromBuffer
    cases h1 : e.readCerts certData with
    | none => simp
    | some certs =>
      simp only
      cases certs with
      | nil => simp [makeSelfCert]
      | cons x rest =>
        simp only [List.isEmpty_cons, Bool.false_eq_true, if_false, Res.bind_eq_ok]
        cases h2 : e.bio with
        | false => simp
        | true =>
          simp only [Bool.true_eq_false, if_false]
          cases h3 : e.readKey keyData (password.map fun p => p.takeWhile (· ≠ 0)) with
          | none => simp
          | some k => simp
  · intro m h
    have hcomp : ∀ {cs : List Compressor} {msg made}, compressAll (.ok msg) cs made = .error (Failure.ub m) →
        ∃ k ∈ cs, ∃ msg, k.compress msg = .error (Failure.ub m) := by
      intro cs msg
      induction cs with
      | nil => intro made h; cases h
      | cons k ks ih =>
        intro made h
        simp only [compressAll, Res.ok_bind] at h
        cases hc : k.compress msg with
        | error f => rw [hc] at h; cases h; exact ⟨k, List.mem_cons_self, msg, hc⟩
        | ok cc =>
          rw [hc] at h
          obtain ⟨k', h1, h2⟩ := ih h
          exact ⟨k', List.mem_cons_of_mem _ h1, h2⟩
    have hset : ∀ t key, setKey o t key ≠ .error (Failure.ub m) := by
      intro t key hs
      cases t <;> unfold setKey at hs <;> (try unfold validateECKey at hs) <;> (try unfold validateEdKey at hs) <;>
        cases hk : o.kind key <;> simp only [hk] at hs <;> (repeat' split at hs) <;> cases hs
    unfold makeSelfCertPem readPrivateKeyFromBuffer at h
    split at h
    · cases h
    · rename_i certs _
      cases certs with
      | nil => cases h
      | cons x rest =>
        simp only [List.isEmpty_cons, Bool.false_eq_true, if_false] at h
        split at h
        · cases h
        · split at h
          · cases h
          · rename_i key _
            simp only [Res.ok_bind, makeSelfCert] at h
            split at h
            · cases h
            · rename_i pub _
              cases hk : getKeyType o pub with
              | error f =>
                rw [hk] at h; cases h
                unfold getKeyType at hk
                split at hk <;> cases hk
              | ok t =>
                rw [hk] at h
                simp only [Res.ok_bind, create, getCertMessage] at h
                split at h
                · cases h
                · cases hm : compressAll (.ok (message (x :: rest) [])) cs [] with
                  | error f =>
                    have hm' := hm
                    unfold message at hm'
                    rw [hm'] at h; cases h; exact hcomp hm
                  | ok made =>
                    have hm' := hm
                    unfold message at hm'
                    rw [hm'] at h
                    simp only [Res.ok_bind] at h
                    cases hs : setKey o t key with
                    | error f => rw [hs] at h; cases h; exact absurd hs (hset t key)
                    | ok u => rw [hs] at h; cases h

/-- **Finding.**  An empty vector of certificates is not refused: `front()` is called on it. -/
theorem C98_empty (o : Ossl K) (key : K) (cs : List Compressor) :
    makeSelfCert o [] key cs = .error (Failure.ub "front() of an empty vector") := rfl

/-- **Stored and restored.**  A peer certificate written by the serializer is read back with the same key and type. -/
theorem C98_serialized {o : Ossl K} {x : X509 K} {c : PlainCert K} (hx : makePeerCertX509 o x = .ok c)
    (hd : x.der ≠ []) {y : X509 K} (hy : o.d2iX509 x.der = some y) (hp : y.pubkey = x.pubkey) :
    deserialize o (serialize x) = .ok { c with x509 := y } := by
  unfold deserialize serialize makePeerCertDer
  rw [if_neg (by simp [hd])]
  simp only [hy]
  unfold makePeerCertX509 PlainCert.create at hx ⊢
  rw [hp]
  cases hpk : x.pubkey with
  | none => rw [hpk] at hx; cases hx
  | some k =>
    simp only [hpk] at hx ⊢
    cases hk : o.kind k <;> simp only [hk, Res.bind_eq_ok, Res.pure_eq] at hx ⊢ <;> first
      | (obtain ⟨u, h1, h2⟩ := hx; cases h2; exact ⟨u, h1, rfl⟩)
      | cases hx

/-! ## Passwords and files -/

/-- **Password.**  The callback writes inside the buffer OpenSSL gives it, ends what it writes with a zero byte it does not count,
and hands over the password whole if it fits (1023 bytes) - otherwise its beginning. -/
theorem C98_password (buffer : Bool) (size : Int) (password : Bytes) :
    let a := passwordCallback buffer size password
    ((a.wrote.length : Int) ≤ max size 0) ∧ 0 ≤ a.length ∧ (a.wrote ≠ [] → buffer = true ∧ a.length < size ∧
      a.wrote = password.take a.length.toNat ++ [0]) ∧
    (buffer = true → password ≠ [] → (password.length : Int) < size → a = ⟨password.length, password ++ [0]⟩) := by
  intro a
  show ((a.wrote.length : Int) ≤ max size 0) ∧ _
  have ha : a = passwordCallback buffer size password := rfl
  unfold passwordCallback at ha
  split at ha
  · rename_i h
    rw [ha]
    refine ⟨by simp only [List.length_nil]; omega, by simp, by simp, fun h1 _ h2 => ?_⟩
    rcases h with h | h
    · rw [h1] at h; cases h
    · omega
  · rename_i h
    simp only [not_or] at h
    split at ha
    · rename_i h2
      rw [ha]
      refine ⟨by simp only [List.length_nil]; omega, by simp, by simp, fun _ h1 => ?_⟩
      exact absurd (List.isEmpty_iff.1 h2) h1
    · rename_i h2
      have h2 : password ≠ [] := fun h3 => h2 (by rw [h3]; rfl)
      have hpos : 0 < password.length := List.length_pos_iff.2 h2
      rw [ha]
      simp only
      refine ⟨?_, by omega, ?_, ?_⟩
      · simp only [List.length_append, List.length_take, List.length_singleton]
        omega
      · intro _
        refine ⟨by simpa using h.1, by omega, trivial⟩
      · intro _ _ h3
        have : min (password.length : Int) (size - 1) = password.length := by omega
        rw [this]
        simp

/-- **Finding.**  A longer password is cut, without an error: two passwords that agree in their first 1023 bytes are the same. -/
theorem C98_password_cut (p q : Bytes) (hp : 1023 ≤ p.length) (hq : 1023 ≤ q.length) (h : p.take 1023 = q.take 1023) :
    usedPassword p = usedPassword q := by
  have key : ∀ r : Bytes, 1023 ≤ r.length → usedPassword r = some (r.take 1023) := by
    intro r hr
    have hm : min (r.length : Int) (pemBufSize - 1) = 1023 := by unfold pemBufSize; omega
    have hne : r.isEmpty = false := by
      cases r with
      | nil => simp at hr
      | cons => rfl
    unfold usedPassword passwordCallback
    simp only [hne, Bool.true_eq_false, false_or, Bool.false_eq_true, if_false, hm]
    rw [if_neg (by decide : ¬ pemBufSize < 1)]
    simp only
    rw [if_neg (by omega)]
    rw [show (1023 : Int).toNat = 1023 from rfl, List.take_append_of_le_length (by simp; omega), List.take_take]
    simp
  rw [key p hp, key q hq, h]

/-- **Key file.**  A key is read from a file exactly when OpenSSL reads it from the file's bytes (none, if the file cannot be
read) with the password described above, and there is one kind of failure. -/
theorem C98_keyFile (e : Env K) (filename : Bytes) (password : Option Bytes) :
    (∀ k, readPrivateKey e filename password = .ok k ↔ e.bio = true ∧
      e.readKey ((e.readFile filename).getD []) (password.bind usedPassword) = some k) ∧
    ∀ f, readPrivateKey e filename password = .error f → f = Failure.rt "Failed to read private key from file" := by
  unfold readPrivateKey decryptPrivateKey
  cases hb : e.bio with
  | false => simp [eq_comm]
  | true =>
    simp only [Bool.true_eq_false, if_false]
    cases hk : e.readKey ((e.readFile filename).getD []) (password.bind usedPassword) with
    | none => simp [eq_comm]
    | some k => simp

/-- **Chain file.**  What is read from a chain file is what the file contains, and never an empty chain. -/
theorem C98_chainFile (e : Env K) (filename : Bytes) (certs : List (X509 K)) :
    readChainFile e filename = .ok certs ↔
      certs ≠ [] ∧ ∃ data, e.readFile filename = some data ∧ e.readCerts data = some certs := by
  unfold readChainFile
  cases h1 : e.readFile filename with
  | none => simp
  | some data =>
    simp only
    cases h2 : e.readCerts data with
    | none => simp [h2]
    | some cs =>
      cases cs with
      | nil =>
        simp only [Option.some.injEq, exists_eq_left', h2]
        constructor
        · intro h; cases h
        · rintro ⟨h, rfl⟩; exact absurd rfl h
      | cons x rest =>
        simp only [Option.some.injEq, exists_eq_left', h2, Except.ok.injEq]
        constructor
        · rintro rfl; exact ⟨by simp, rfl⟩
        · exact fun h => h.2

/-! ## A concrete case -/

/-- A certificate for the key `kd`. -/
def toyX (kd : KeyKind) : X509 KeyKind := ⟨[1], some kd, [], 0, 0, 0, 0⟩

/-- OpenSSL with the toy library of C96; there is one certificate, for a P-256 key. -/
def toyO : Ossl KeyKind where
  kind := id
  ecCheck _ := true
  verify _ _ _ _ := false
  sign _ _ _ := none
  d2iX509 b := if b = [1] then some (toyX .p256) else none
  d2iPubkey _ := none
  i2dPubkey _ := none
  checkPrivateKey x k := decide (x.pubkey = some k ∧ x.der = [1] ∧ k = .p256)

theorem toy_loads : makeSelfCert (ossl toyO toy) [toyX .p256] .p256 [] = .ok ⟨⟨.p256, .p256, toyX .p256, []⟩, []⟩ := rfl

example : makeSelfCert (ossl toyO toy) [toyX .p256] .rsa [] = .error (Failure.rt "Cert does not match private key") := rfl
example : makeSelfCert (ossl toyO toy) [toyX .otherCurve] .otherCurve [] = .error (Failure.rt "unknown key type") := rfl
/-- The toy library is faithful, and its certificate readable: `C98_works` applies to the loaded credential. -/
theorem toy_faithful {valid : Alg → KeyKind → Bytes → Bytes → Prop} : Faithful toyO valid := by
  constructor
  intro x key pub h hp
  simp only [toyO, decide_eq_true_eq] at h
  rw [hp] at h
  cases h.1
  exact ⟨fun _ _ _ => Iff.rfl, fun h => h⟩

theorem toy_readable : ∀ x ∈ [toyX .p256], Readable toyO x := by
  intro x hx
  rw [List.mem_singleton.1 hx]
  exact ⟨by simp [toyX], toyX .p256, rfl, rfl⟩

example := C98_works (o := toyO) toy_working toy_faithful toy_readable toy_loads

example : usedPassword [104, 105] = some [104, 105] := rfl

end Fizz.Cred.Load
