import Verif.Server.HelloNeg

/-!
# What a successful ClientHello handler has established: the flight and the state
-/

namespace Fizz.Server
open Fizz.Codec Fizz.Crypto
open Fizz.Ticket (CookieState ResumptionState)
open Fizz.Conn (Trig)
open Spec (Neg)

/-- The key exchange as a ghost value. -/
abbrev Ecdhe := Option (UInt16 × Bytes × Bytes × Bytes)

/-- What the key exchange has computed. -/
structure KexFacts (q : Part2) (e : Ecdhe) (k : KexOut) : Prop where
  ks : k.ks = KS.conc q.hash ⟨.handshake ⟨q.resState.map (·.resumptionSecret), e.map (·.2.2.2)⟩, none⟩
  group : k.group = e.map (·.1)
  share : k.share = e.map (·.2.2.1)

theorem doKex_facts {inp s q group cs k} (ok : q.hash.Ok)
    (hk : q.ks = KS.conc q.hash ⟨stage0 q.resState, none⟩) (h : doKex inp s q group cs = .ok k) :
    ∃ share secret, inp.kex group cs = .ok (share, secret) ∧
      KexFacts q (some (group, cs, share, secret)) k := by
  rw [doKex, Res.bind_eq_ok] at h
  obtain ⟨⟨sh, se⟩, h1, h⟩ := h
  simp only [Res.bind_eq_ok] at h
  obtain ⟨k', h2, h⟩ := h
  cases pure_eq_ok.1 h
  rw [hk] at h2
  exact ⟨sh, se, h1, ks_ecdhe ok h2, rfl, rfl⟩

theorem noKex_facts {q k rs} (ok : q.hash.Ok)
    (hk : q.ks = KS.conc q.hash ⟨stage0 q.resState, none⟩) (hr : q.resState = some rs)
    (h : noKex q = .ok k) : KexFacts q none k := by
  rw [noKex, Res.bind_eq_ok] at h
  obtain ⟨k', h2, h⟩ := h
  cases pure_eq_ok.1 h
  rw [hk, hr] at h2
  refine ⟨?_, rfl, rfl⟩
  rw [hr]
  exact ks_noEcdhe ok h2

/-- The ghost value of a ClientHello step. -/
def ghost (inp : Inp) (h : List Step) (cfg : Cfg) (m : ClientHello) (q : Part2) (e : Ecdhe) (f : Flight) : Neg where
  hash := q.hash
  version := q.p1.version
  cipher := q.p1.cipher
  used := (q.p1.hello.chlo, q.p1.hello.orig)
  before := Spec.beforeHello inp m q.p1.hello.chlo (Spec.transcript cfg h)
  serverHello := f.serverHello
  rest := f.encrypted
  psk := q.resState
  pskType := q.pskType
  ecdhe := e
  alpn := q.alpn
  early := q.earlyDataType = .accepted

theorem getServerHello_eq {v r c psk} {e : Ecdhe} {sid sh}
    (h : getServerHello v r c psk (e.map (·.1)) (e.map (·.2.2.1)) sid = .ok sh) :
    sh = { legacy_version := 0x0303, random := r, legacy_session_id_echo := some sid, cipher_suite := c
           extensions := Codec.Spec.serverSupportedVersionsWire ⟨v⟩ ::
            (Spec.shareExt e ++ (if psk then [Codec.Spec.serverPresharedKeyWire ⟨0⟩] else [])) } := by
  rw [getServerHello] at h
  simp only [Res.bind_eq_ok] at h
  obtain ⟨e1, h1, e2, h2, e3, h3, h⟩ := h
  cases pure_eq_ok.1 h
  have a1 := ((C03_serverSupportedVersions _).1 _ |>.1 h1).2
  have a2 : e2 = Spec.shareExt e := by
    cases e with
    | none => cases h2; rfl
    | some e =>
      obtain ⟨g, a, b, c⟩ := e
      simp only [Option.map_some, keyShareExts, Res.bind_eq_ok] at h2
      obtain ⟨sh, h21, ex, h22, h2⟩ := h2
      cases pure_eq_ok.1 h2
      cases deref_eq_ok.1 h21
      rw [((C03_serverKeyShare _).1 _ |>.1 h22).2]
      rfl
  have a3 : e3 = (if psk then [Codec.Spec.serverPresharedKeyWire ⟨0⟩] else []) := by
    unfold pskExts at h3
    split_ifs at h3 ⊢
    · rw [Res.bind_eq_ok] at h3
      obtain ⟨ex, h32, h3⟩ := h3
      cases pure_eq_ok.1 h3
      rw [((C03_serverPresharedKey _).1 _ |>.1 h32).2]
    · cases h3; rfl
  rw [a1, a2, a3]

/-- What the flight is. -/
structure FlightFacts (cfg : Cfg) (inp : Inp) (s : St) (q : Part2) (e : Ecdhe) (k : KexOut)
    (f : Flight) (g : Neg) : Prop where
  kex : f.kex = k
  sameGroup : s.group = none ∨ s.group = e.map (·.1)
  cookieGroup : ∀ ck, q.p1.cookie = some ck → ∀ a b, ck.group = some a → e.map (·.1) = some b → a = b
  serverHello : ∃ sh, g.serverHello = Codec.Spec.handshake (.serverHello sh) ∧
    Codec.Spec.Encodable (.serverHello sh) ∧
    (q.p1.hello.echStatus ≠ .accepted → sh = Spec.serverHello inp g) ∧
    (q.p1.hello.echStatus = .accepted → inp.echConfirm g.used.1.random (g.before ++ g.used.2) (Spec.serverHello inp g) = .ok sh)
  rest : ∃ ee req cert cv, Spec.RestOk cfg inp q.p1.hello.echStatus g ee req cert cv
  hw : f.handshakeWrite = g.serverHandshake
  hr : f.handshakeRead = g.clientHandshake
  want : f.requestClientAuth = true ↔ Spec.WantsCert cfg g
  ctx : f.ctx = ⟨g.cipher, g.before ++ g.used.2 ++ g.serverHello ++ g.rest⟩
  ks : f.ks = KS.conc g.hash ⟨.master g.inputs, some (g.app 0 0)⟩
  exporter : f.exporterMaster = KS.Spec.masterValue g.hash.spec g.inputs g.thServerFinished .exporterMaster
  appWrite : f.appWrite = g.serverApp 0
  cert : f.cert.clientCert = q.resState.bind (·.clientCert)
  saved : Spec.SavedCert inp g f.cert.serverCert

theorem buildFlight_facts {cfg : Cfg} {inp : Inp} {h : List Step} {s : St} {m p q} {e : Ecdhe} {k f}
    (ok : q.hash.Ok) (f2 : Facts2 cfg inp h s m p q) (kf : KexFacts q e k)
    (hf : buildFlight cfg inp s q k = .ok f) :
    FlightFacts cfg inp s q e k f (ghost inp h cfg m q e f) := by
  unfold buildFlight at hf
  simp only [Res.bind_eq_ok] at hf
  obtain ⟨others, h1, _, h2, sh, h3, sh', h4, esh, h5, hw, h6, hr, h7, ee, h8, hf⟩ := hf
  obtain ⟨⟨reqExts, req⟩, h9, cert, h10, fin, h11, efin, h12, ks1, h13, ex, h14, ks2, h15, aw, h16, hf⟩ := hf
  cases pure_eq_ok.1 hf
  have ectx : q.ctx = ⟨q.p1.cipher,
      Spec.beforeHello inp m q.p1.hello.chlo (Spec.transcript cfg h) ++ q.p1.hello.orig⟩ := by
    rw [f2.ctx, f2.p1]
  rw [ectx] at h6 h7 h10 h11 h14 h15
  rw [kf.ks] at h6 h7 h13
  have e13 := ks_deriveMaster ok h13
  subst e13
  have e14 := ks_getMaster ok (ok.len _) h14
  have e15 := ks_deriveApp ok (ok.len _) h15
  subst e15
  have e16 := ks_getServerApp ok h16
  have e6 := ks_getHandshake ok (ok.len _) h6
  have e7 := ks_getHandshake ok (ok.len _) h7
  rw [finishedData_eq ok (by rw [e6]; exact handshakeValue_len ok _ _ (by simp))] at h11
  have e11 := Except.ok.inj h11
  have e12 := encode_eq h12
  have e5 := encode_eq h5
  rw [kf.group, kf.share] at h3
  have e3 := getServerHello_eq h3
  have want : (decide (cfg.clientAuthMode ≠ .none) && q.resState.isNone) = true ↔
      (cfg.clientAuthMode ≠ .none ∧ q.resState = none) := by
    rw [Bool.and_eq_true, decide_eq_true_eq, Option.isNone_iff_eq_none]
  refine ⟨rfl, ?_, ?_, ?_, ⟨ee, req, cert.certificate, cert.certificateVerify, ?_⟩, ?_, ?_, ?_, ?_, ?_, ?_, ?_, ?_, ?_⟩
  · unfold checkGroups at h2
    simp only [Res.bind_eq_ok, check_eq_ok, decide_eq_true_eq] at h2
    obtain ⟨_, h21, -⟩ := h2
    rw [kf.group] at h21
    exact h21
  · intro ck hck a b ha hb
    unfold checkGroups at h2
    simp only [Res.bind_eq_ok, check_eq_ok] at h2
    obtain ⟨_, -, h22⟩ := h2
    rw [hck, kf.group, hb] at h22
    simpa [ha] using h22
  · refine ⟨sh', e5, encodable h5, ?_, ?_⟩
    · intro hne
      unfold confirmHello at h4
      rw [if_neg hne] at h4
      rw [← Except.ok.inj h4, e3]
      rfl
    · intro he
      unfold confirmHello at h4
      rw [if_pos he, e3, ectx] at h4
      exact h4
  · constructor
    · show ee ++ req ++ cert.certificate ++ cert.certificateVerify ++ efin = _
      rw [e12, ← e11]
      simp only [HsCtx.append, List.append_assoc, ghost]
      rw [e6]
      rfl
    · rw [getEncryptedExt] at h8
      simp only [Res.bind_eq_ok] at h8
      obtain ⟨al, h81, ed, h82, h8⟩ := h8
      have ha : al = Spec.alpnExt q.alpn := by
        cases hq : q.alpn with
        | none => rw [hq] at h81; cases h81; rfl
        | some a =>
          rw [hq, alpnExts, Res.bind_eq_ok] at h81
          obtain ⟨ax, h83, h81⟩ := h81
          cases pure_eq_ok.1 h81
          rw [((C03_protocolNameList _).1 _ |>.1 h83).2]; rfl
      refine ⟨others, h1, ?_⟩
      rw [encode_eq h8, ha, ((C03_serverEarlyData _).1 _ |>.1 h82).2]
      simp [ghost]
    · intro hwant
      rw [getCertificateRequest, if_pos (want.2 hwant)] at h9
      simp only [Res.bind_eq_ok] at h9
      obtain ⟨exts, h91, enc, h92, h9⟩ := h9
      cases pure_eq_ok.1 h9
      rw [certReqExts, Res.bind_eq_ok] at h91
      obtain ⟨sa, h93, h91⟩ := h91
      rw [((C03_signatureAlgorithms _).1 _ |>.1 h93).2] at h91
      split_ifs at h91
      · rw [Res.bind_eq_ok] at h91
        obtain ⟨es, -, h91⟩ := h91
        cases pure_eq_ok.1 h91
        exact ⟨es, encode_eq h92⟩
      · cases pure_eq_ok.1 h91
        exact ⟨[], encode_eq h92⟩
    · intro hn
      rw [getCertificateRequest, if_neg (fun hh => hn (want.1 hh))] at h9
      cases h9; rfl
    · intro hp
      have hp : q.resState = none := hp
      unfold certPart at h10
      rw [hp] at h10
      simp only [Res.bind_eq_ok] at h10
      obtain ⟨⟨c, sc⟩, ha, comp, hb, enc, hc, sig, hd, cv, he, h10⟩ := h10
      cases pure_eq_ok.1 h10
      rw [chooseCert, Res.bind_eq_ok] at ha
      obtain ⟨algos, ha1, ha⟩ := ha
      cases algos with
      | none => cases ha
      | some algos =>
        simp only [Res.bind_eq_ok] at ha
        obtain ⟨sni, ha2, oc, ha3, ha⟩ := ha
        cases oc with
        | none => cases ha
        | some oc =>
          cases pure_eq_ok.1 ha
          refine ⟨algos, sni, c, sc, comp, sig, ha1, ha2, ha3, ?_, hc, ?_, encode_eq he⟩
          · rintro a rfl
            rw [negotiateCompression, Res.bind_eq_ok] at hb
            obtain ⟨l, hb1, hb⟩ := hb
            cases l with
            | none => cases pure_eq_ok.1 hb
            | some l => exact ⟨l, hb1, (Negotiate.C14_flat _ _).1 _ |>.1 (pure_eq_ok.1 hb)⟩
          · rw [← hd]
            rfl
    · intro hp
      unfold certPart at h10
      cases hq : q.resState with
      | none => exact absurd hq hp
      | some rs =>
        rw [hq] at h10
        cases h10
        exact ⟨rfl, rfl⟩
  · exact e6
  · exact e7
  · exact want
  · simp only [HsCtx.append, ghost, ectx, List.append_assoc]
  · show _ = KS.conc q.hash _
    simp only [Neg.inputs, Neg.app, Neg.thServerFinished, ghost, transcriptHash, HsCtx.append,
      List.append_assoc]
  · rw [e14]
    simp only [Neg.inputs, Neg.thServerFinished, ghost, transcriptHash, HsCtx.append,
      List.append_assoc]
  · rw [e16]
    simp only [Neg.serverApp, Neg.app, Neg.inputs, Neg.thServerFinished, ghost, transcriptHash, HsCtx.append,
      List.append_assoc]
  · unfold certPart at h10
    cases hq : q.resState with
    | none =>
      rw [hq] at h10
      simp only [Res.bind_eq_ok] at h10
      obtain ⟨⟨c, sc⟩, ha, comp, hb, enc, hc, sig, hd, cv, he, h10⟩ := h10
      cases pure_eq_ok.1 h10
      rfl
    | some rs =>
      rw [hq] at h10
      cases h10
      rfl
  · unfold certPart at h10
    cases hq : q.resState with
    | none =>
      refine ⟨fun rs hrs => ?_, fun _ => ?_⟩
      · have hrs : q.resState = some rs := hrs
        rw [hq] at hrs; cases hrs
      rw [hq] at h10
      simp only [Res.bind_eq_ok] at h10
      obtain ⟨⟨c, sc⟩, ha, comp, hb, enc, hc, sig, hd, cv, he, h10⟩ := h10
      cases pure_eq_ok.1 h10
      rw [chooseCert, Res.bind_eq_ok] at ha
      obtain ⟨algos, ha1, ha⟩ := ha
      cases algos with
      | none => cases ha
      | some algos =>
        simp only [Res.bind_eq_ok] at ha
        obtain ⟨sni, ha2, oc, ha3, ha⟩ := ha
        cases oc with
        | none => cases ha
        | some oc =>
          cases pure_eq_ok.1 ha
          exact ⟨algos, sni, c, sc, ha1, ha2, ha3, rfl⟩
    | some rs =>
      refine ⟨fun rs' hrs => ?_, fun hn => ?_⟩
      · have hrs : q.resState = some rs' := hrs
        rw [hq] at hrs; cases hrs
        rw [hq] at h10
        cases h10
        rfl
      · have hn : q.resState = none := hn
        rw [hq] at hn; cases hn

end Fizz.Server
