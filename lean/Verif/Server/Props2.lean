import Verif.Server.Props

/-!
# C44, C45, C47 … C49: what the server sends, with which keys, after which negotiation
-/

namespace Fizz.Server
open Fizz.Codec Fizz.Crypto
open Fizz.Ticket (CookieState ResumptionState)
open Fizz.Conn (Trig)
open Spec (Neg)

/-- The three ways to deal with a ClientHello that do not fail. -/
theorem hello_cases {cfg : Cfg} (hok : ∀ c a, cfg.hashOf c = .ok a → a.Ok) {h : List Step} {x : Step}
    (hrun : Run cfg h x.pre) {u m orig}
    (ht : x.trig = .sock) (hs : x.env.sock = .event (.handshake (.clientHello m) orig) u)
    (hst : x.pre.state = .expectingClientHello)
    (hsh : HelloShape cfg x.env.inp x.pre u m orig x.acts) :
    ((Spec.post x).state = .error ∧ Spec.contents x = []) ∨
    (∃ v c gr w k, Spec.SentRetry cfg h x v c gr ∧ x.pre.hs = none ∧ x.pre.write = some w ∧
      (Spec.post x).state = .expectingClientHello ∧ (Spec.post x).hs ≠ none ∧
      Spec.contents x = ⟨w, 22, [Spec.sent x]⟩ :: k ∧
      ∀ c ∈ k, c = ⟨⟨.plaintext, []⟩, 20, [[1]]⟩) ∨
    (∃ g, Spec.Negotiated cfg h x g ∧ After cfg x.env.inp g (Spec.post x)) := by
  have hi := run_inv hok hrun
  have hinv := (hello_inv hok hi ht hs hst hsh).1
  obtain ⟨pre, hwr, hrd, hks, quiet⟩ := hi.hello hst
  generalize hacts : x.acts = acts at hsh
  cases hsh with
  | fallback =>
    refine .inl ⟨?_, ?_⟩
    · rw [Spec.post, hacts]; rfl
    · rw [Spec.contents, hacts]; rfl
  | @retry p1 p2 group _ h1 h2 h3 h4 h5 =>
    refine .inr (.inl ?_)
    unfold sendRetry at h5
    simp only [Res.bind_eq_ok, check_eq_ok, Bool.and_eq_true, Option.isNone_iff_eq_none] at h5
    obtain ⟨_, ⟨hg, hck⟩, mh, -, hrr, -, hrr', -, enc, -, w, hw, h5⟩ := h5
    have h5 := (pure_eq_ok.1 h5).symm
    have hpost : Spec.post x = { saveRetry p2 group
        (if p2.earlyDataType = .accepted then .rejected else p2.earlyDataType)
        ⟨p2.p1.cipher, mh ++ enc⟩ x.pre with state := .expectingClientHello } := by
      rw [Spec.post, hacts, h5]; rfl
    have hfresh : x.pre.hs = none := by
      cases hh : x.pre.hs with
      | none => rfl
      | some c => exact absurd hg (pre.retried _ hh).2.2.2.2.1
    have hst' : (Spec.post x).state = .expectingClientHello := by rw [hpost]
    have hhs : (Spec.post x).hs = some ⟨p2.p1.cipher, mh ++ enc⟩ := by rw [hpost]; rfl
    obtain ⟨pre', -⟩ := hinv.hello hst'
    obtain ⟨-, -, -, -, -, ⟨n, r, o, v, gr, e1, -, -, e2, -⟩, -⟩ := pre'.retried _ hhs
    have hx : r = x ∧ o = h := by
      cases n with
      | nil => simp only [List.nil_append, List.cons.injEq] at e1; exact ⟨e1.1.symm, e1.2.symm⟩
      | cons a n =>
        simp only [List.cons_append, List.cons.injEq] at e1
        have := (fresh_run hrun (.inr ⟨hst, hfresh⟩) r (by rw [e1.2]; simp)).1
        obtain ⟨m', o', hm, -⟩ := e2
        rw [hm] at this; cases this
    obtain ⟨rfl, rfl⟩ := hx
    refine ⟨v, _, gr, w, ccs p2.p1.hello.chlo.legacy_session_id, e2, hfresh, derefPtr_eq_ok.1 hw, hst',
      by rw [hhs]; simp, ?_, ccs_eq⟩
    have : (ccs p2.p1.hello.chlo.legacy_session_id).filter (·.type = 22) = [] := by
      rw [List.filter_eq_nil_iff]; intro k hk; rw [ccs_type k hk]; decide
    simp only [Spec.sent, Spec.contents, Spec.handshakeBytes, Spec.writes, hacts, h5, transition, content]
    simp [this]
  | @noKex p1 p2 k f w h1 h2 h3 h4 h5 h6 =>
    have f1 := part1_facts h1
    have f2 := part2_facts hok pre f1 h2
    have ok := hok _ _ f2.hash
    cases hr : p2.resState with
    | none => rw [(f2.noPsk hr).1] at h3; cases h3
    | some rs =>
      exact .inr (.inr (flight_step hok pre ht hs hst h1 h2 (noKex_facts ok f2.ks hr h4) h5 h6 hacts
        (by simp) (fun _ => h3)))
  | @kex p1 p2 k f w group share h1 h2 h3 h4 h5 h6 h7 =>
    have f1 := part1_facts h1
    have f2 := part2_facts hok pre f1 h2
    have ok := hok _ _ f2.hash
    obtain ⟨sh, se, hk, kf⟩ := doKex_facts ok f2.ks h5
    obtain ⟨groups, shares, g1, g2, g3, g4, -⟩ := group_facts h4
    exact .inr (.inr (flight_step hok pre ht hs hst h1 h2 kf h6 h7 hacts
      (by
        rintro e' he; cases he
        exact ⟨hk, groups, shares, g1, g2, g3, g4 _ rfl⟩) (by simp)))

/-! ## C44: everything the server says in the handshake -/

/-- The NewSessionTicket message a step sends. -/
def Spec.SentTicket (cfg : Cfg) (h : List Step) (y : Step) (g : Neg) (rms : Bytes) : Prop :=
  ∃ rs ticket lifetime exts, y.env.inp.ticketEncrypt rs = .ok (some (ticket, lifetime)) ∧
    Spec.sent y = Codec.Spec.handshake (.newSessionTicket
      ⟨UInt32.ofInt lifetime, rs.ticketAgeAdd, some [], ticket, exts⟩) ∧
    Spec.contents y = [⟨⟨.appTraffic, g.serverApp (Spec.updatesSent h)⟩, 22, [Spec.sent y]⟩] ∧
    rs.version = g.version ∧ rs.cipher = g.cipher ∧ rs.alpn = g.alpn ∧
    rs.resumptionSecret = Crypto.Spec.ExpandLabel g.hash.spec rms (KS.Spec.ascii "resumption") []
      (UInt16.ofNat g.hash.hashLen) ∧
    rs.clientCert = (Spec.post y).clientCert ∧ rs.ticketIssueTime = y.env.inp.now ∧
    Spec.Origin cfg h g rs.serverCert rs.handshakeTime ∧
    exts = (if cfg.acceptEarlyData g.version then [Codec.Spec.ticketEarlyDataWire ⟨cfg.maxEarlyDataSize⟩]
      else [])

/-- The resumption master secret (RFC 8446 section 7.1): over the transcript through the client's
Finished. -/
def Spec.ResumptionMaster (cfg : Cfg) (h : List Step) (g : Neg) (rms : Bytes) : Prop :=
  ∃ newer z older m orig, h = newer ++ z :: older ∧ Spec.received z = some (.finished m, orig) ∧
    rms = KS.Spec.masterValue g.hash.spec g.inputs
      (g.hash.digest (Spec.transcript cfg older ++ orig)) .resumptionMaster

/-- A KeyUpdate message sent by a step: protected by the key in force, which is replaced. -/
def Spec.SentKeyUpdate (h : List Step) (y : Step) (g : Neg) (r : UInt8) : Prop :=
  Spec.contents y = [⟨⟨.appTraffic, g.serverApp (Spec.updatesSent h)⟩, 22,
    [Codec.Spec.handshake (.keyUpdate ⟨r⟩)]⟩] ∧
  (Spec.post y).write = some ⟨.appTraffic, g.serverApp (Spec.updatesSent h + 1)⟩ ∧
  (y.trig = .app (.keyUpdate r) ∨
    (r = 0 ∧ ∃ m orig, Spec.received y = some (.keyUpdate m, orig) ∧ m.request_update ≠ 0))

theorem ticketState_facts {cfg : Cfg} (hok : ∀ c a, cfg.hashOf c = .ok a → a.Ok) {inp s rms tok rs}
    (h : ticketState cfg inp s rms tok = .ok rs) {g : Neg} (hh : cfg.hashOf g.cipher = .ok g.hash)
    (hc : s.cipher = some g.cipher) (hv : s.version = some g.version) (ha : s.alpn = g.alpn)
    (hl : rms.length = g.hash.hashLen) :
    rs.version = g.version ∧ rs.cipher = g.cipher ∧ rs.alpn = g.alpn ∧
    rs.resumptionSecret = Crypto.Spec.ExpandLabel g.hash.spec rms (KS.Spec.ascii "resumption") []
      (UInt16.ofNat g.hash.hashLen) ∧
    rs.clientCert = s.clientCert ∧ rs.ticketIssueTime = inp.now ∧ rs.ticketAgeAdd = inp.ticketAgeAdd ∧
    rs.serverCert = s.serverCert ∧ s.handshakeTime = some rs.handshakeTime := by
  unfold ticketState at h
  simp only [Res.bind_eq_ok] at h
  obtain ⟨_, -, ci, h1, hA, h2, sec, h3, v, h4, t, h5, h⟩ := h
  cases pure_eq_ok.1 h
  rw [hc, deref_eq_ok, Option.some.injEq] at h1
  subst h1
  rw [hh, Except.ok.injEq] at h2
  subst h2
  rw [hv, deref_eq_ok, Option.some.injEq] at h4
  subst h4
  refine ⟨rfl, rfl, ha, ?_, rfl, rfl, rfl, rfl, deref_eq_ok.1 h5⟩
  have := (KS.C21_traffic_key g.hash (hok _ _ hh) rms [] 0 0 hl (by omega) (by omega) (by omega)
    (by omega) (by simp)).2
  rw [this] at h3
  exact (Except.ok.inj h3).symm

theorem sentTicket {cfg : Cfg} (hok : ∀ c a, cfg.hashOf c = .ok a → a.Ok) {h : List Step} {y : Step}
    {rms tok acts} (hg : generateTicket cfg y.env.inp y.pre rms tok = .ok acts)
    (hw : Spec.contents y = Spec.writes acts) (hne : Spec.sent y ≠ []) {g : Neg}
    (hf : cfg.hashOf g.cipher = .ok g.hash) (hc : y.pre.cipher = some g.cipher)
    (hv : y.pre.version = some g.version) (ha : y.pre.alpn = g.alpn) (hl : rms.length = g.hash.hashLen)
    (hwr : y.pre.write = some ⟨.appTraffic, g.serverApp (Spec.updatesSent h)⟩)
    (hcc : (Spec.post y).clientCert = y.pre.clientCert)
    (ho : ∃ t, y.pre.handshakeTime = some t ∧ Spec.Origin cfg h g y.pre.serverCert t) :
    Spec.SentTicket cfg h y g rms := by
  rcases ticket_shape hg with rfl | ⟨w, rs, tk, lt, exts, e1, e2, e3, e4, rfl⟩
  · exact absurd (by rw [Spec.sent, hw]; rfl) hne
  · obtain ⟨a1, a2, a3, a4, a5, a6, a7, a8, a9⟩ := ticketState_facts hok e2 hf hc hv ha hl
    rw [hwr, Option.some.injEq] at e1
    subst e1
    have hs : Spec.sent y = Codec.Spec.handshake (.newSessionTicket
        ⟨UInt32.ofInt lt, y.env.inp.ticketAgeAdd, some [], tk, exts⟩) := by
      rw [Spec.sent, hw]
      simp [Spec.writes, Spec.handshakeBytes, content]
    obtain ⟨t, o1, o2⟩ := ho
    rw [a9, Option.some.injEq] at o1
    subst o1
    refine ⟨rs, tk, lt, exts, e3, by rw [hs, a7], ?_, a1, a2, a3, a4, by rw [a5, hcc], a6, a8 ▸ o2, ?_⟩
    · rw [hw, hs]; rfl
    · rw [a1] at e4
      unfold ticketExts at e4
      split_ifs at e4 with hh
      · rw [Res.bind_eq_ok] at e4
        obtain ⟨e, he, e4⟩ := e4
        rw [if_pos hh, ← pure_eq_ok.1 e4, ((C03_ticketEarlyData _).1 _ |>.1 he).2]
      · rw [if_neg hh]; exact (Except.ok.inj e4).symm

theorem ResumptionMaster.len {cfg : Cfg} (hok : ∀ c a, cfg.hashOf c = .ok a → a.Ok) {h g rms}
    (hf : cfg.hashOf (Neg.cipher g) = .ok g.hash) (hr : Spec.ResumptionMaster cfg h g rms) :
    rms.length = g.hash.hashLen := by
  obtain ⟨_, _, _, _, _, -, -, rfl⟩ := hr
  exact DeriveSecret_len (hok _ _ hf) _ _ _

/-- C44: every handshake message the server ever sends is one of: a HelloRetryRequest for its preferred
parameters, in answer to the first ClientHello; the flight from ServerHello to Finished in answer to a
ClientHello, in which the CertificateVerify signs and the Finished authenticates the transcript of all
messages so far (`Negotiated`); after its flight, NewSessionTickets and KeyUpdates. -/
theorem C44_sent {cfg : Cfg} (hok : ∀ c a, cfg.hashOf c = .ok a → a.Ok) {newer y older s}
    (hr : Run cfg (newer ++ y :: older) s) (hs : Spec.sent y ≠ []) :
    (∃ v c gr, Spec.SentRetry cfg older y v c gr ∧ ∀ r ∈ older, Spec.received r = none) ∨
    (∃ g, Spec.Negotiated cfg older y g) ∨
    (∃ g rms, Spec.Fixed cfg older g ∧ Spec.ResumptionMaster cfg (y :: older) g rms ∧
      Spec.SentTicket cfg older y g rms ∧ Spec.IdentityOk cfg g older (Spec.post y).clientCert) ∨
    (∃ g r, Spec.Fixed cfg older g ∧ .reportHandshakeSuccess ∈ actions older ∧
      Spec.SentKeyUpdate older y g r) := by
  obtain ⟨r1, r2, r3, -⟩ := hr.split
  have hi := run_inv hok r1
  have hi' := run_inv hok r2
  clear hr
  generalize hT : y.trig = T at r3
  generalize hA : y.acts = A at r3
  have hcont : Spec.contents y = Spec.writes A := by rw [Spec.contents, hA]
  have hpost : Spec.post y = applyAll A y.pre := by rw [Spec.post, hA]
  have no : Spec.writes A = [] → False := fun hh => hs (by rw [Spec.sent, hcont, hh]; rfl)
  cases r3 with
  | nothing => exact (no rfl).elim
  | @fail _ a _ =>
    refine absurd ?_ hs
    rw [Spec.sent, hcont, Spec.handshakeBytes, List.flatMap_eq_nil_iff]
    intro c hc
    rw [List.mem_filter] at hc
    obtain ⟨hc, ht⟩ := hc
    obtain ⟨t, cs, f, h1, h2⟩ := mem_writes hc
    simp only [List.mem_cons, List.mem_append] at h1
    rcases h1 with h1 | h1 | h1
    · cases h1
    · obtain ⟨w, d, -, h1⟩ := alertWrites_mem h1
      cases h1
      simp only [List.mem_singleton] at h2
      subst h2
      simp [alertContent, content] at ht
    · simp at h1
  | wait _ => exact (no rfl).elim
  | closed _ => exact (no rfl).elim
  | accept _ => exact (no rfl).elim
  | v2 => exact (no rfl).elim
  | earlyData _ _ => exact (no rfl).elim
  | data _ _ => exact (no rfl).elim
  | endOfEarlyData _ _ _ => exact (no rfl).elim
  | noCertificate _ _ _ _ _ => exact (no rfl).elim
  | certificate _ _ _ _ _ _ => exact (no rfl).elim
  | certificateVerify _ _ _ _ _ _ _ _ => exact (no rfl).elim
  | keyUpdate _ _ _ _ _ => exact (no rfl).elim
  | expectedCloseNotify _ _ => exact (no rfl).elim
  | closeNow _ => exact absurd (by rw [Spec.sent, hcont]; simp [Spec.writes, Spec.handshakeBytes, alertContent, content]) hs
  | close _ => exact absurd (by rw [Spec.sent, hcont]; simp [Spec.writes, Spec.handshakeBytes, alertContent, content]) hs
  | closeNotify _ _ _ => exact absurd (by rw [Spec.sent, hcont]; simp [Spec.writes, Spec.handshakeBytes, alertContent, content, transition]) hs
  | appWrite _ _ => exact absurd (by rw [Spec.sent, hcont]; simp [Spec.writes, Spec.handshakeBytes, content]) hs
  | @hello m orig u _ h1 h2 h3 =>
    subst hA
    rcases hello_cases hok r1 hT h2 h1 h3 with ⟨-, h⟩ | ⟨v, c, gr, w, k, e1, e2, -⟩ | ⟨g, hg, -⟩
    · exact (no (hcont ▸ h)).elim
    · exact .inl ⟨v, c, gr, e1, fun r hr => (fresh_run r1 (.inr ⟨h1, e2⟩) r hr).1⟩
    · exact .inr (.inl ⟨g, hg⟩)
  | @ticket tok _ h1 h2 =>
    obtain ⟨g, hg⟩ := hi.data h1
    have hf := hg.fixed
    obtain ⟨_, _, _, -, hn⟩ := hg.fixed
    obtain ⟨n, z, o, m, orig, rfl, e1, e2⟩ := hg.rms
    have hrm : Spec.ResumptionMaster cfg (y :: (n ++ z :: o)) g y.pre.resumptionMasterSecret :=
      ⟨y :: n, z, o, m, orig, rfl, e1, e2⟩
    have hpp : Spec.post y = y.pre := by rw [hpost, (ticket_plain h2).1]
    refine .inr (.inr (.inl ⟨g, _, hf, hrm, sentTicket hok h2 hcont hs hn.hash hg.cipher hg.version hg.alpn
      (ResumptionMaster.len hok hn.hash hrm) hg.write (by rw [hpp]) hg.origin, ?_⟩))
    rw [hpp]; exact hg.auth
  | @finished m orig ctx secret ha hc ks ks' cipher version read rms nst h1 h2 h3 h4 h5 h6 h7 h8 h9 h10 h11 h12 h13 h14 =>
    obtain ⟨g, hg⟩ := hi.mid (.inr (.inr (.inr h1)))
    have hf := hg.fixed
    obtain ⟨_, _, _, -, hn⟩ := hg.fixed
    rw [hg.hs, Option.some.injEq] at h3
    subst h3
    rw [hg.cipher, Option.some.injEq] at h9
    subst h9
    rw [hn.hash, Except.ok.injEq] at h5 h10
    subst h5; subst h10
    rw [hg.ks, Option.some.injEq] at h8
    subst h8
    have ok := hok _ _ hn.hash
    have e12 := ks_getMaster ok (ok.len _) h12
    have hrcv : Spec.received y = some (.finished m, orig) := by
      have := received_sock (s := y.pre) (acts := y.acts) h2 (by
        rw [hA]; exact (finishedActions_facts (finishedTicket_plain h14)).2.1)
      rw [← hT] at this; exact this
    have hrm : Spec.ResumptionMaster cfg (y :: older) g rms :=
      ⟨[], y, older, m, orig, rfl, hrcv, by rw [e12]; rfl⟩
    unfold finishedTicket at h14
    unfold finishedActions at hcont hpost
    have hcc : (Spec.post y).clientCert = y.pre.clientCert := by
      rw [Spec.post, hA, (finishedActions_facts (finishedTicket_plain (cfg := cfg) (s := y.pre) h14)).1]; rfl
    split_ifs at h14 hcont hpost with hsn
    · refine .inr (.inr (.inl ⟨g, rms, hf, hrm, sentTicket hok h14 (hcont.trans (by simp [Spec.writes, transition]))
        hs hn.hash hg.cipher hg.version hg.alpn (ResumptionMaster.len hok hn.hash hrm)
        (by rw [hg.updates.2]; exact hg.write) hcc hg.origin, ?_⟩))
      rw [hcc]; exact hg.auth h1
    · exact absurd (by rw [Spec.sent, hcont]; simp [Spec.writes, Spec.handshakeBytes, transition]) hs
  | @keyUpdateInitiation r enc w h ks ks' secret h1 h2 h3 h4 h5 h6 =>
    obtain ⟨g, hg⟩ := hi.data h1
    refine .inr (.inr (.inr ⟨g, r, hg.fixed, hg.success, ?_, ?_, .inl hT⟩))
    · rw [hg.write, Option.some.injEq] at h4
      subst h4
      rw [hcont, encode_eq h3]; rfl
    · have := (init_live hok hg h3 h5 h6 (i := y.env) (w := w)).write
      rw [hpost, this, updatesSent_one]
      rw [Spec.sent, Spec.contents, encode_eq h3]
      simp [Spec.writes, Spec.handshakeBytes, content, Codec.Spec.handshake, Codec.Spec.typeByte]
  | @keyUpdateAnswered m orig h ks ks' ks'' enc w read write h1 h2 h3 h4 h5 h6 h7 h8 =>
    obtain ⟨g, hg⟩ := hi.data h1
    refine .inr (.inr (.inr ⟨g, 0, hg.fixed, hg.success, ?_, ?_, .inr ⟨rfl, m, orig, ?_, h3⟩⟩))
    · rw [hg.write, Option.some.injEq] at h7
      subst h7
      rw [hcont, encode_eq h6]; rfl
    · have := (answer_live hok hg h2 h4 h5 h6 h8 (w := w)).write
      rw [hpost, this, updatesSent_one]
      rw [Spec.sent, Spec.contents, encode_eq h6]
      simp [Spec.writes, Spec.handshakeBytes, content, Codec.Spec.handshake, Codec.Spec.typeByte]
    · have := received_sock (s := y.pre) (acts := y.acts) h2 (by rw [hA]; simp)
      rw [← hT] at this; exact this

/-! ## C45: keys -/

/-- C45: in every state the record layers are keyed with the secrets of RFC 8446 section 7.1, computed
from the PSK, the (EC)DHE secret and the transcript of this connection. -/
theorem C45_layers {cfg : Cfg} (hok : ∀ c a, cfg.hashOf c = .ok a → a.Ok) {h s} (hr : Run cfg h s) :
    (s.state = .expectingClientHello → s.write = some ⟨.plaintext, []⟩ ∧
      ∃ skip, s.read = some ⟨.plaintext, [], skip⟩) ∧
    (s.state = .acceptingEarlyData → ∃ g, Spec.Fixed cfg h g ∧ g.early = true ∧
      s.write = some ⟨.appTraffic, g.serverApp 0⟩ ∧ s.read = some ⟨.earlyData, g.clientEarly, false⟩) ∧
    (s.state = .expectingCertificate ∨ s.state = .expectingCertificateVerify ∨
      s.state = .expectingFinished → ∃ g skip, Spec.Fixed cfg h g ∧
      s.write = some ⟨.appTraffic, g.serverApp 0⟩ ∧
      s.read = some ⟨.handshake, g.clientHandshake, skip⟩) ∧
    (s.state = .acceptingData → ∃ g, Spec.Fixed cfg h g ∧
      s.write = some ⟨.appTraffic, g.serverApp (Spec.updatesSent h)⟩ ∧
      s.read = some ⟨.appTraffic, g.clientApp (Spec.updatesReceived h), false⟩ ∧
      s.exporterMasterSecret =
        some (KS.Spec.masterValue g.hash.spec g.inputs g.thServerFinished .exporterMaster) ∧
      Spec.ResumptionMaster cfg h g s.resumptionMasterSecret) ∧
    (s.state = .expectingCloseNotify ∨ s.state = .closed → s.write = none) := by
  have hi := run_inv hok hr
  refine ⟨fun hs => ?_, fun hs => ?_, fun hs => ?_, fun hs => ?_, hi.closing⟩
  · obtain ⟨-, h1, h2, -⟩ := hi.hello hs
    exact ⟨h1, h2⟩
  · obtain ⟨g, hg⟩ := hi.mid (.inl hs)
    obtain ⟨e1, e2, -⟩ := hg.early hs
    exact ⟨g, hg.fixed, e1, hg.write, e2⟩
  · obtain ⟨g, hg⟩ := hi.mid (.inr hs)
    obtain ⟨skip, h1, -⟩ := hg.late (by rcases hs with h | h | h <;> rw [h] <;> simp)
    exact ⟨g, skip, hg.fixed, hg.write, h1⟩
  · obtain ⟨g, hg⟩ := hi.data hs
    exact ⟨g, hg.fixed, hg.write, hg.read, hg.exporter, hg.rms⟩

/-- C45: every record the server writes is protected by the write key in force, except the encrypted
part of its flight, which is protected by its handshake key, and the empty-handed change_cipher_spec of
the compatibility mode, which is sent in the clear.  Application data is always protected by the current
generation of the application key. -/
theorem C45_protect {cfg : Cfg} (hok : ∀ c a, cfg.hashOf c = .ok a → a.Ok) {newer y older s}
    (hr : Run cfg (newer ++ y :: older) s) {c : Content} (hc : c ∈ Spec.contents y) :
    (y.pre.write = some c.layer ∨ c = ⟨⟨.plaintext, []⟩, 20, [[1]]⟩ ∨
      ∃ g, Spec.Negotiated cfg older y g ∧ c.layer = ⟨.handshake, g.serverHandshake⟩ ∧ c.type = 22) ∧
    (c.type = 23 → (∃ tok d f, y.trig = .app (.appWrite tok d f) ∧ c.data = [d]) ∧
      ∃ g, Spec.Fixed cfg older g ∧ c.layer = ⟨.appTraffic, g.serverApp (Spec.updatesSent older)⟩) := by
  obtain ⟨r1, r2, r3, -⟩ := hr.split
  have hi := run_inv hok r1
  obtain ⟨T, i, p, A⟩ := y
  simp only at *
  have hc' : c ∈ Spec.writes A := hc
  cases r3 with
  | nothing => simp [Spec.writes] at hc'
  | fail _ =>
    obtain ⟨t, cs, f, h1, h2⟩ := mem_writes hc'
    simp only [List.mem_cons, List.mem_append] at h1
    rcases h1 with h1 | h1 | h1
    · cases h1
    · obtain ⟨w, d, hw, h1⟩ := alertWrites_mem h1
      cases h1
      simp only [List.mem_singleton] at h2
      subst h2
      exact ⟨.inl hw, fun ht => absurd ht (by simp [alertContent, content])⟩
    · simp at h1
  | closeNow hw =>
    simp only [Spec.writes, List.flatMap_cons, List.flatMap_nil, List.nil_append,
      List.append_nil, List.mem_singleton] at hc'
    subst hc'
    exact ⟨.inl hw, fun ht => absurd ht (by simp [alertContent, content])⟩
  | close hw =>
    simp only [Spec.writes, List.flatMap_cons, List.flatMap_nil, List.nil_append,
      List.append_nil, List.mem_singleton] at hc'
    subst hc'
    exact ⟨.inl hw, fun ht => absurd ht (by simp [alertContent, content])⟩
  | closeNotify hst hsock hw =>
    simp only [Spec.writes, transition, List.flatMap_cons, List.flatMap_nil, List.nil_append,
      List.append_nil, List.mem_singleton] at hc'
    subst hc'
    exact ⟨.inl hw, fun ht => absurd ht (by simp [alertContent, content])⟩
  | @appWrite tok d f w hst hw =>
    simp only [Spec.writes, List.flatMap_cons, List.flatMap_nil, List.nil_append,
      List.append_nil, List.mem_singleton] at hc'
    subst hc'
    refine ⟨.inl hw, fun _ => ⟨⟨tok, d, f, rfl, rfl⟩, ?_⟩⟩
    rcases hst with hst | hst | hst
    · obtain ⟨g, hg⟩ := hi.mid (.inl hst)
      rw [hg.write, Option.some.injEq] at hw
      subst hw
      exact ⟨g, hg.fixed, by rw [hg.updates.2]; rfl⟩
    · obtain ⟨g, hg⟩ := hi.mid (.inr (.inr (.inr hst)))
      rw [hg.write, Option.some.injEq] at hw
      subst hw
      exact ⟨g, hg.fixed, by rw [hg.updates.2]; rfl⟩
    · obtain ⟨g, hg⟩ := hi.data hst
      rw [hg.write, Option.some.injEq] at hw
      subst hw
      exact ⟨g, hg.fixed, rfl⟩
  | @hello m orig u _ h1 h2 h3 =>
    have hty := helloShape_types h3 c hc'
    refine ⟨?_, fun ht => by rcases hty with h | h <;> (rw [ht] at h; exact absurd h (by decide))⟩
    rcases hello_cases (x := ⟨.sock, i, p, A⟩) hok r1 rfl h2 h1 h3 with ⟨-, h⟩ |
      ⟨v, c', gr, w, k, -, -, hw, -, -, hcs, hk⟩ | ⟨g, hg, -⟩
    · rw [h] at hc; cases hc
    · rw [hcs] at hc
      rcases List.mem_cons.1 hc with rfl | hc
      · exact .inl hw
      · exact .inr (.inl (hk _ hc))
    · obtain ⟨w, cs, enc, hw, hcs, -, hk⟩ := hg.flight
      rw [hcs] at hc
      simp only [List.mem_cons, List.mem_append, List.not_mem_nil, or_false] at hc
      rcases hc with rfl | hc | rfl
      · exact .inl hw
      · exact .inr (.inl (hk _ hc))
      · exact .inr (.inr ⟨g, hg, rfl, rfl⟩)
  | @ticket tok _ h1 h2 =>
    rcases ticket_shape h2 with rfl | ⟨w, rs, tk, lt, exts, hw, -, -, -, rfl⟩
    · cases hc'
    · simp only [Spec.writes, List.flatMap_cons, List.flatMap_nil, List.append_nil,
        List.mem_singleton] at hc'
      subst hc'
      exact ⟨.inl hw, fun ht => absurd ht (by simp [content])⟩
  | finished h1 h2 h3 h4 h5 h6 h7 h8 h9 h10 h11 h12 h13 h14 =>
    unfold finishedTicket at h14
    unfold finishedActions at hc'
    split_ifs at h14 hc'
    · rcases ticket_shape h14 with rfl | ⟨w, rs, tk, lt, exts, hw, -, -, -, rfl⟩
      · simp [Spec.writes, transition] at hc'
      · simp only [Spec.writes, transition, List.flatMap_cons, List.flatMap_nil, List.append_nil,
          List.flatMap_append, List.nil_append, List.mem_singleton] at hc'
        subst hc'
        exact ⟨.inl hw, fun ht => absurd ht (by simp [content])⟩
    · simp [Spec.writes, transition] at hc'
  | keyUpdateInitiation h1 h2 h3 hw =>
    simp only [Spec.writes, List.flatMap_cons, List.flatMap_nil, List.nil_append,
      List.append_nil, List.mem_singleton] at hc'
    subst hc'
    exact ⟨.inl hw, fun ht => absurd ht (by simp [content])⟩
  | keyUpdateAnswered h1 h2 h3 h4 h5 h6 hw =>
    simp only [Spec.writes, List.flatMap_cons, List.flatMap_nil, List.nil_append,
      List.append_nil, List.mem_singleton] at hc'
    subst hc'
    exact ⟨.inl hw, fun ht => absurd ht (by simp [content])⟩
  | _ => simp [Spec.writes, onAccept, transition] at hc'

/-! ## C47: HelloRetryRequest -/

/-- The step answers a ClientHello by asking for another one. -/
def Spec.Retried (y : Step) : Prop :=
  (∃ m orig, Spec.received y = some (.clientHello m, orig)) ∧ (Spec.post y).state = .expectingClientHello

theorem applyAll_received_hello {cfg : Cfg} {y : Step} (hsh : Shape cfg y.env y.pre y.trig y.acts)
    (hr : Spec.Retried y) : ∃ m orig u, y.trig = .sock ∧ y.pre.state = .expectingClientHello ∧
      y.env.sock = .event (.handshake (.clientHello m) orig) u ∧
      HelloShape cfg y.env.inp y.pre u m orig y.acts := by
  obtain ⟨⟨m, orig, hrec⟩, hst⟩ := hr
  obtain ⟨T, i, p, A⟩ := y
  simp only at *
  unfold Spec.received at hrec
  split_ifs at hrec with hA
  split at hrec
  · rename_i m' o' u ht hs
    have ht : T = .sock := ht
    have hs : i.sock = _ := hs
    subst ht
    simp only [Option.some.injEq, Prod.mk.injEq] at hrec
    obtain ⟨rfl, rfl⟩ := hrec
    generalize hT : (Trig.sock) = T' at hsh
    cases hsh with
    | @hello m' o' u' A h1 h2 h3 => exact ⟨m', o', u', rfl, h1, h2, h3⟩
    | nothing => simp at hA
    | fail _ => rw [Spec.post, fail_state] at hst; cases hst
    | wait h => rw [h] at hs; cases hs
    | data _ h => rw [h] at hs; cases hs
    | earlyData _ h => rw [h] at hs; cases hs
    | endOfEarlyData _ h => rw [h] at hs; cases hs
    | noCertificate _ h => rw [h] at hs; cases hs
    | certificate _ h => rw [h] at hs; cases hs
    | certificateVerify _ h => rw [h] at hs; cases hs
    | finished _ h => rw [h] at hs; cases hs
    | keyUpdate _ h => rw [h] at hs; cases hs
    | keyUpdateAnswered _ h => rw [h] at hs; cases hs
    | closeNotify _ h => rw [h] at hs; cases hs
    | expectedCloseNotify _ h => rw [h] at hs; cases hs
    | _ => cases hT
  · cases hrec

theorem sentRetry_unique {cfg : Cfg} {o1 o2 : List Step} {r : Step} {v c gr v' c' gr'} (h1 : Spec.SentRetry cfg o1 r v c gr)
    (h2 : Spec.SentRetry cfg o2 r v' c' gr') : v = v' ∧ c = c' ∧ gr = gr' := by
  obtain ⟨m, o, a1, -, -, ⟨vs, a2, a3⟩, a4, ⟨gs, sh, a5, -, a6, -⟩, -⟩ := h1
  obtain ⟨m', o', b1, -, -, ⟨vs', b2, b3⟩, b4, ⟨gs', sh', b5, -, b6, -⟩, -⟩ := h2
  rw [a1] at b1
  simp only [Option.some.injEq, Prod.mk.injEq, HsMsg.clientHello.injEq] at b1
  obtain ⟨rfl, rfl⟩ := b1
  rw [a2] at b2
  simp only [Except.ok.injEq, Option.some.injEq] at b2
  subst b2
  rw [a5] at b5
  simp only [Except.ok.injEq, Option.some.injEq] at b5
  subst b5
  rw [a4] at b4
  have c1 := ((Negotiate.C14_flat _ _).1 _).2 a3
  rw [((Negotiate.C14_flat _ _).1 _).2 b3] at c1
  have c2 := ((Negotiate.C14_flat _ _).1 _).2 a6
  rw [((Negotiate.C14_flat _ _).1 _).2 b6] at c2
  exact ⟨(Option.some.inj c1).symm, Option.some.inj b4, (Option.some.inj c2).symm⟩

/-- C47: at most one HelloRetryRequest is sent, and only in answer to the first ClientHello; what it
asks for (version, cipher, group) is what is used in the end. -/
theorem C47_retry {cfg : Cfg} (hok : ∀ c a, cfg.hashOf c = .ok a → a.Ok) {newer y older s}
    (hr : Run cfg (newer ++ y :: older) s) (hy : Spec.Retried y) :
    (∀ r ∈ older, Spec.received r = none) ∧ (∀ z ∈ newer, ¬ Spec.Retried z) ∧
    ∃ v c gr, Spec.SentRetry cfg older y v c gr ∧
      ∀ n z o g, newer = n ++ z :: o → Spec.Negotiated cfg (o ++ y :: older) z g →
        g.version = v ∧ g.cipher = c ∧ g.ecdhe.map (·.1) = some gr ∧ g.early = false := by
  obtain ⟨r1, r2, r3, -⟩ := hr.split
  obtain ⟨m, orig, u, ht, hst, hs, hsh⟩ := applyAll_received_hello r3 hy
  have hx := hello_cases hok r1 ht hs hst hsh
  have hold : ∀ r ∈ older, Spec.received r = none := by
    rcases hx with ⟨h, -⟩ | ⟨v, c, gr, w, k, -, e2, -⟩ | ⟨g, -, ha⟩
    · rw [hy.2] at h; cases h
    · exact fun r hr => (fresh_run r1 (.inr ⟨hst, e2⟩) r hr).1
    · exfalso
      rcases ha.phase with ⟨-, -, h, -⟩ | ⟨-, skip, -, -, ⟨-, -, h⟩ | ⟨-, -, h⟩ | ⟨-, -, h⟩⟩ <;>
        (rw [hy.2] at h; cases h)
  have key : ∀ n z o, newer = n ++ z :: o → ∀ m u orig, z.trig = .sock →
      z.pre.state = .expectingClientHello →
      z.env.sock = .event (.handshake (.clientHello m) orig) u → z.pre.hs ≠ none := by
    intro n z o hn m u orig h1 h2 h3 h4
    have hr' : Run cfg (n ++ z :: (o ++ y :: older)) s := by
      rw [hn] at hr; simpa using hr
    obtain ⟨q1, -, -, -⟩ := hr'.split
    have := (fresh_run q1 (.inr ⟨h2, h4⟩) y (by simp)).1
    obtain ⟨⟨m, o, hrec⟩, -⟩ := hy
    rw [hrec] at this; cases this
  have single : ∀ z ∈ newer, ¬ Spec.Retried z := by
    intro z hz hzr
    obtain ⟨n, o, hn⟩ := List.append_of_mem hz
    have hr' : Run cfg (n ++ z :: (o ++ y :: older)) s := by
      rw [hn] at hr; simpa using hr
    obtain ⟨q1, -, q3, -⟩ := hr'.split
    obtain ⟨m', orig', u', ht', hst', hs', hsh'⟩ := applyAll_received_hello q3 hzr
    have hne := key n z o hn m' u' orig' ht' hst' hs'
    rcases hello_cases hok q1 ht' hs' hst' hsh' with ⟨h, -⟩ | ⟨v, c, gr, w, k, -, e2, -⟩ | ⟨g, -, ha⟩
    · rw [hzr.2] at h; cases h
    · exact hne e2
    · rcases ha.phase with ⟨-, -, h, -⟩ | ⟨-, skip, -, -, ⟨-, -, h⟩ | ⟨-, -, h⟩ | ⟨-, -, h⟩⟩ <;>
        (rw [hzr.2] at h; cases h)
  refine ⟨hold, single, ?_⟩
  rcases hx with ⟨h, -⟩ | ⟨v, c, gr, w, k, e1, e2, -⟩ | ⟨g, -, ha⟩
  · rw [hy.2] at h; cases h
  · refine ⟨v, c, gr, e1, ?_⟩
    intro n z o g hn hg
    have hr' : Run cfg (n ++ z :: (o ++ y :: older)) s := by
      rw [hn] at hr; simpa using hr
    obtain ⟨q1, -, -, -⟩ := hr'.split
    obtain ⟨pre, -⟩ := (run_inv hok q1).hello hg.state
    obtain ⟨m', orig', h1, h2, -, -, hearly, -⟩ := hg.hello
    have hne := key n z o hn m' false orig' h1 hg.state h2
    cases hc : z.pre.hs with
    | none => exact absurd hc hne
    | some ctx =>
      obtain ⟨-, p2, p3, -, -, ⟨n', r, o', v', gr', f1, f2, f3, f4, -⟩, -⟩ := pre.retried _ hc
      have hry : r = y := by
        have hmem : r ∈ o ++ y :: older := by rw [f1]; simp
        obtain ⟨m'', o'', hrec, hpst, -⟩ := f4
        rcases List.mem_append.1 hmem with hm | hm
        · exfalso
          have : ¬ Spec.Retried r := single r (by rw [hn]; simp [hm])
          exact this ⟨⟨m'', o'', hrec⟩, hpst⟩
        · rcases List.mem_cons.1 hm with rfl | hm
          · rfl
          · rw [hold r hm] at hrec; cases hrec
      subst hry
      obtain ⟨rfl, rfl, rfl⟩ := sentRetry_unique f4 e1
      refine ⟨?_, ?_, ?_, ?_⟩
      · rcases hg.sameVersion with h | h <;> rw [f2] at h <;> cases h; rfl
      · rcases hg.sameCipher with h | h <;> rw [p2] at h
        · cases h
        · exact (Option.some.inj h).symm
      · rcases hg.sameGroup with h | h <;> rw [f3] at h
        · cases h
        · exact h.symm
      · cases he : g.early with
        | false => rfl
        | true =>
          obtain ⟨-, -, -, a4, -⟩ := hearly he
          exact absurd a4 hne
  · exfalso
    rcases ha.phase with ⟨-, -, h, -⟩ | ⟨-, skip, -, -, ⟨-, -, h⟩ | ⟨-, -, h⟩ | ⟨-, -, h⟩⟩ <;>
      (rw [hy.2] at h; cases h)

/-! ## C48: key updates -/

/-- C48: a KeyUpdate received after the handshake moves the client's key by exactly one generation; it is
answered with a KeyUpdate (that requests nothing) exactly if it asks for one, and then our key moves by
one generation too; otherwise our key stays. -/
theorem C48_received {cfg : Cfg} (hok : ∀ c a, cfg.hashOf c = .ok a → a.Ok) {newer y older s}
    (hr : Run cfg (newer ++ y :: older) s) {m orig} (hm : Spec.received y = some (.keyUpdate m, orig))
    (hne : (Spec.post y).state ≠ .error) :
    ∃ g, Spec.Fixed cfg older g ∧ .reportHandshakeSuccess ∈ actions older ∧
      y.pre.read = some ⟨.appTraffic, g.clientApp (Spec.updatesReceived older), false⟩ ∧
      (Spec.post y).read = some ⟨.appTraffic, g.clientApp (Spec.updatesReceived older + 1), false⟩ ∧
      y.pre.write = some ⟨.appTraffic, g.serverApp (Spec.updatesSent older)⟩ ∧
      (m.request_update = 0 → Spec.contents y = [] ∧ (Spec.post y).write = y.pre.write) ∧
      (m.request_update ≠ 0 → Spec.SentKeyUpdate older y g 0) := by
  obtain ⟨r1, r2, r3, -⟩ := hr.split
  have hi := run_inv hok r1
  have hi' := run_inv hok r2
  have hup := updatesReceived_one (x := y) (h := older) hm
  have hm' := hm
  unfold Spec.received at hm'
  split_ifs at hm' with hA
  split at hm'
  · rename_i m' o' u ht hs
    simp only [Option.some.injEq, Prod.mk.injEq] at hm'
    obtain ⟨rfl, rfl⟩ := hm'
    obtain ⟨T, i, p, A⟩ := y
    simp only at *
    subst ht
    generalize hT : (Trig.sock) = T' at r3
    have fin : ∀ g, Live cfg older g p → (Spec.post ⟨.sock, i, p, A⟩).state = .acceptingData →
        ∃ g', Live cfg (⟨.sock, i, p, A⟩ :: older) g' (Spec.post ⟨.sock, i, p, A⟩) :=
      fun _ _ h => hi'.data h
    cases r3 with
    | nothing => simp at hA
    | fail _ => exact absurd fail_state hne
    | @keyUpdate m' o' ha ks ks' secret h1 h2 h3 h4 h5 =>
      rw [h2] at hs
      simp only [SockIn.event.injEq, Record.Event.handshake.injEq, HsMsg.keyUpdate.injEq] at hs
      obtain ⟨⟨rfl, rfl⟩, rfl⟩ := hs
      obtain ⟨g, hg⟩ := hi.data h1
      have hl := update_live hok hg h2 h4 h5 (i := i)
      refine ⟨g, hg.fixed, hg.success, hg.read, ?_, hg.write, fun _ => ⟨rfl, rfl⟩, fun h => absurd h3 h⟩
      rw [← hup]; exact hl.read
    | @keyUpdateAnswered m' o' ha ks ks' ks'' enc w read write h1 h2 h3 h4 h5 h6 h7 h8 =>
      rw [h2] at hs
      simp only [SockIn.event.injEq, Record.Event.handshake.injEq, HsMsg.keyUpdate.injEq] at hs
      obtain ⟨⟨rfl, rfl⟩, rfl⟩ := hs
      obtain ⟨g, hg⟩ := hi.data h1
      have hl := answer_live hok hg h2 h4 h5 h6 h8 (i := i) (w := w)
      refine ⟨g, hg.fixed, hg.success, hg.read, ?_, hg.write, fun h => absurd h h3, fun _ => ⟨?_, ?_, ?_⟩⟩
      · rw [← hup]; exact hl.read
      · rw [hg.write, Option.some.injEq] at h7
        subst h7
        rw [encode_eq h6]; rfl
      · have := hl.write
        rw [updatesSent_one] at this
        · exact this
        · rw [Spec.sent, Spec.contents, encode_eq h6]
          simp [Spec.writes, Spec.handshakeBytes, content, Codec.Spec.handshake, Codec.Spec.typeByte]
      · exact .inr ⟨rfl, m', o', hm, h3⟩
    | wait h => rw [h] at hs; cases hs
    | hello _ h => rw [h] at hs; cases hs
    | data _ h => rw [h] at hs; cases hs
    | earlyData _ h => rw [h] at hs; cases hs
    | endOfEarlyData _ h => rw [h] at hs; cases hs
    | noCertificate _ h => rw [h] at hs; cases hs
    | certificate _ h => rw [h] at hs; cases hs
    | certificateVerify _ h => rw [h] at hs; cases hs
    | finished _ h => rw [h] at hs; cases hs
    | closeNotify _ h => rw [h] at hs; cases hs
    | expectedCloseNotify _ h => rw [h] at hs; cases hs
    | _ => cases hT
  · cases hm'

/-- C48: a KeyUpdate is only ever sent after the handshake, under the key in force, which it replaces by
the next generation — at the application's request, or in answer to one. -/
theorem C48_sent {cfg : Cfg} (hok : ∀ c a, cfg.hashOf c = .ok a → a.Ok) {newer y older s}
    (hr : Run cfg (newer ++ y :: older) s) (hs : (Spec.sent y).head? = some 24) :
    ∃ g r, Spec.Fixed cfg older g ∧ .reportHandshakeSuccess ∈ actions older ∧
      Spec.SentKeyUpdate older y g r := by
  rcases C44_sent hok hr (by intro h; rw [h] at hs; cases hs) with ⟨v, c, gr, ⟨m, o, -, -, -, -, -, -, hrr, h1, -⟩, -⟩ |
    ⟨g, hg⟩ | ⟨g, rms, -, -, ⟨rs, t, l, e, -, h1, -⟩, -⟩ | h
  · rw [h1, handshake_head] at hs; simp [Codec.Spec.typeByte] at hs
  · obtain ⟨sh, hsh, -⟩ := hg.serverHello
    rw [flight_sent hg, hsh, List.head?_append_of_ne_nil _ (by simp [Codec.Spec.handshake]),
      handshake_head] at hs
    simp [Codec.Spec.typeByte] at hs
  · rw [h1, handshake_head] at hs; simp [Codec.Spec.typeByte] at hs
  · exact h

/-! ## C49: tickets -/

/-- C49: a NewSessionTicket is only sent after the client's Finished was verified (in the step that
verifies it, or later), and the ticket it carries says exactly what was negotiated on this connection:
version, cipher, ALPN, the authenticated client certificate, server certificate and time of the original
full handshake, and the PSK derived from this connection's resumption master secret with the nonce in the
message. -/
theorem C49_ticket {cfg : Cfg} (hok : ∀ c a, cfg.hashOf c = .ok a → a.Ok) {newer y older s}
    (hr : Run cfg (newer ++ y :: older) s) (hs : (Spec.sent y).head? = some 4) :
    ∃ g rms, Spec.Fixed cfg older g ∧ Spec.ResumptionMaster cfg (y :: older) g rms ∧
      Spec.SentTicket cfg older y g rms ∧ Spec.IdentityOk cfg g older (Spec.post y).clientCert := by
  rcases C44_sent hok hr (by intro h; rw [h] at hs; cases hs) with ⟨v, c, gr, ⟨m, o, -, -, -, -, -, -, hrr, h1, -⟩, -⟩ |
    ⟨g, hg⟩ | h | ⟨g, r, -, -, h1, -⟩
  · rw [h1, handshake_head] at hs; simp [Codec.Spec.typeByte] at hs
  · obtain ⟨sh, hsh, -⟩ := hg.serverHello
    rw [flight_sent hg, hsh, List.head?_append_of_ne_nil _ (by simp [Codec.Spec.handshake]),
      handshake_head] at hs
    simp [Codec.Spec.typeByte] at hs
  · exact h
  · rw [Spec.sent, h1] at hs
    simp [Spec.handshakeBytes, Codec.Spec.handshake, Codec.Spec.typeByte] at hs

/-! ## C46: what the accessors say -/

/-- C46: from the server's flight on, until the connection ends, the accessors report the version, cipher
suite, group, application protocol, PSK type, client random, application token, exporter secrets and
early data status of the negotiation, and the certificate and time of the handshake it goes back to; from
the verified Finished on, the client certificate is the one the client has proved to have, or the one of
the resumed session. -/
theorem C46_info {cfg : Cfg} (hok : ∀ c a, cfg.hashOf c = .ok a → a.Ok) {h s} (hr : Run cfg h s)
    (hs : s.state = .acceptingEarlyData ∨ s.state = .expectingCertificate ∨
      s.state = .expectingCertificateVerify ∨ s.state = .expectingFinished ∨ s.state = .acceptingData) :
    ∃ g, Spec.Fixed cfg h g ∧ Spec.Info g s ∧
      (∃ t, s.handshakeTime = some t ∧ Spec.Origin cfg h g s.serverCert t) ∧
      (s.state = .acceptingData → Spec.IdentityOk cfg g h s.clientCert) := by
  have hi := run_inv hok hr
  by_cases hd : s.state = .acceptingData
  · obtain ⟨g, hg⟩ := hi.data hd
    exact ⟨g, hg.fixed, hg.info, hg.origin, fun _ => hg.auth⟩
  · obtain ⟨g, hg⟩ := hi.mid (by unfold midState; rcases hs with h | h | h | h | h <;> simp_all)
    exact ⟨g, hg.fixed, hg.info, hg.origin, fun h => absurd h hd⟩

/-! ## C50: announced secrets -/

theorem announced_ticket {cfg inp s rms tok acts} (h : generateTicket cfg inp s rms tok = .ok acts) :
    acts.flatMap Spec.announcement = [] := by
  rcases ticket_shape h with rfl | ⟨w, rs, tk, lt, exts, -, -, -, -, rfl⟩ <;> rfl

theorem helloActions_state {cfg q f w} (s : St) :
    (applyAll (helloActions cfg q f w) s).state ≠ .error ∧
    (applyAll (helloActions cfg q f w) s).state ≠ .expectingClientHello := by
  unfold helloActions applyAll
  cases q.early with
  | none =>
    simp only [List.foldl_append, List.foldl_cons, List.foldl_nil, Action.apply, transition]
    split_ifs <;> simp
  | some e =>
    simp only
    split_ifs <;> simp [Action.apply, transition]

/-- C50: the secrets handed to the application's callback are the right ones, under the right names: with
the flight, those of the negotiation; with the client's Finished, the client's first application secret;
with a key update, the next generation of the direction that is updated. -/
theorem C50_announced {cfg : Cfg} (hok : ∀ c a, cfg.hashOf c = .ok a → a.Ok) {newer y older s}
    (hr : Run cfg (newer ++ y :: older) s) (hs : Spec.announced y ≠ []) :
    (∃ g, Spec.Negotiated cfg older y g) ∨
    ∃ g, Spec.Fixed cfg older g ∧
      ((.reportHandshakeSuccess ∈ y.acts ∧ Spec.announced y = [(.clientAppTraffic, g.clientApp 0)]) ∨
       ((∃ r, y.trig = .app (.keyUpdate r)) ∧
         Spec.announced y = [(.serverAppTraffic, g.serverApp (Spec.updatesSent older + 1))]) ∨
       (∃ m orig, Spec.received y = some (.keyUpdate m, orig) ∧ m.request_update = 0 ∧
         Spec.announced y = [(.clientAppTraffic, g.clientApp (Spec.updatesReceived older + 1))]) ∨
       (∃ m orig, Spec.received y = some (.keyUpdate m, orig) ∧ m.request_update ≠ 0 ∧
         Spec.announced y = [(.serverAppTraffic, g.serverApp (Spec.updatesSent older + 1)),
           (.clientAppTraffic, g.clientApp (Spec.updatesReceived older + 1))])) := by
  obtain ⟨r1, r2, r3, -⟩ := hr.split
  have hi := run_inv hok r1
  obtain ⟨T, i, p, A⟩ := y
  simp only at *
  unfold Spec.announced at hs ⊢
  simp only at hs ⊢
  cases r3 with
  | nothing => simp at hs
  | @fail _ a _ =>
    exfalso; apply hs
    simp only [List.flatMap_cons, List.flatMap_append, alertWrites]
    repeat' split
    all_goals rfl
  | wait => exact absurd rfl hs
  | closeNow => exact absurd rfl hs
  | close => exact absurd rfl hs
  | closed => exact absurd rfl hs
  | accept => exact absurd rfl hs
  | v2 => exact absurd rfl hs
  | earlyData => exact absurd rfl hs
  | data => exact absurd rfl hs
  | appWrite => exact absurd rfl hs
  | endOfEarlyData => exact absurd rfl hs
  | noCertificate => exact absurd rfl hs
  | certificate => exact absurd rfl hs
  | certificateVerify => exact absurd rfl hs
  | closeNotify => exact absurd rfl hs
  | expectedCloseNotify => exact absurd rfl hs
  | ticket h1 h2 => exact absurd (announced_ticket h2) hs
  | hello hst hs' hsh =>
    have hx := hello_cases hok (x := ⟨.sock, i, p, A⟩) r1 rfl hs' hst hsh
    have key : ∀ {q f w}, A = helloActions cfg q f w → ∃ g, Spec.Negotiated cfg older ⟨.sock, i, p, A⟩ g := by
      intro q f w hA
      have hne := helloActions_state (cfg := cfg) (q := q) (f := f) (w := w) p
      rw [← hA] at hne
      rcases hx with ⟨h, -⟩ | ⟨_, _, _, _, _, -, -, -, h, -⟩ | ⟨g, hg, -⟩
      · exact absurd h hne.1
      · exact absurd h hne.2
      · exact ⟨g, hg⟩
    cases hsh with
    | fallback => exact absurd rfl hs
    | retry h1 h2 h3 h4 h5 =>
      exfalso; apply hs
      unfold sendRetry at h5
      simp only [Res.bind_eq_ok] at h5
      obtain ⟨_, -, mh, -, hrr, -, hrr', -, enc, -, w, -, h5⟩ := h5
      rw [← pure_eq_ok.1 h5]
      rfl
    | noKex => exact .inl (key rfl)
    | kex => exact .inl (key rfl)
  | @finished m orig ctx secret ha hc ks ks' cipher version read rms nst h1 h2 h3 h4 h5 h6 h7 h8 h9 h10 h11 h12 h13 h14 =>
    obtain ⟨g, hg⟩ := hi.mid (.inr (.inr (.inr h1)))
    have hn : nst.flatMap Spec.announcement = [] := by
      unfold finishedTicket at h14
      split_ifs at h14
      · exact announced_ticket h14
      · cases h14; rfl
    have hread : read = g.clientApp 0 := by
      rw [hg.ks, Option.some.injEq] at h8
      subst h8
      have ok : g.hash.Ok := by
        obtain ⟨_, _, _, -, hn⟩ := hg.fixed; exact hok _ _ hn.hash
      exact ks_getClientApp ok h11
    refine .inr ⟨g, hg.fixed, .inl ⟨(finishedActions_facts (finishedTicket_plain h14)).2.2.1, ?_⟩⟩
    rw [← hread]
    unfold finishedActions
    split_ifs
    · rw [List.flatMap_append, List.flatMap_append]
      simp only [List.flatMap_cons, List.flatMap_nil, transition, List.append_nil, List.nil_append]
      simp [hn, Spec.announcement]
    · rfl
  | keyUpdateInitiation h1 h2 h3 h4 h5 h6 =>
    obtain ⟨g, hg⟩ := hi.data h1
    have hl := init_live hok hg h3 h5 h6 (i := i) (w := ⟨.plaintext, []⟩)
    have hw := hl.write
    rw [updatesSent_one (by
      rw [Spec.sent, Spec.contents, encode_eq h3]
      simp [Spec.writes, Spec.handshakeBytes, content, Codec.Spec.handshake, Codec.Spec.typeByte])] at hw
    refine .inr ⟨g, hg.fixed, .inr (.inl ⟨⟨_, rfl⟩, ?_⟩)⟩
    simp only [applyAll, List.foldl_cons, List.foldl_nil, Action.apply, saveWrite, Option.some.injEq,
      WLayer.mk.injEq, true_and] at hw
    rw [← hw]; rfl
  | @keyUpdate m o ha ks ks' secret h1 h2 h3 h4 h5 =>
    obtain ⟨g, hg⟩ := hi.data h1
    have hl := update_live hok hg h2 h4 h5 (i := i)
    have hw := hl.read
    have hrec : Spec.received ⟨.sock, i, p, [.mutate (saveRead ks' secret),
      .secretAvailable .clientAppTraffic secret]⟩ = some (.keyUpdate m, o) := received_sock h2 (by simp)
    rw [updatesReceived_one hrec] at hw
    refine .inr ⟨g, hg.fixed, .inr (.inr (.inl ⟨m, o, hrec, h3, ?_⟩))⟩
    simp only [applyAll, List.foldl_cons, List.foldl_nil, Action.apply, saveRead, Option.some.injEq,
      RLayer.mk.injEq, true_and, and_true] at hw
    rw [← hw]; rfl
  | @keyUpdateAnswered m o ha ks ks' ks'' enc w read write h1 h2 h3 h4 h5 h6 h7 h8 =>
    obtain ⟨g, hg⟩ := hi.data h1
    have hl := answer_live hok hg h2 h4 h5 h6 h8 (i := i) (w := w)
    have hr1 := hl.read
    have hw := hl.write
    have hrec : Spec.received ⟨.sock, i, p, [.mutate (saveBoth ks'' read write),
      .secretAvailable .serverAppTraffic write, .secretAvailable .clientAppTraffic read,
      .write none [content w 22 enc] 0]⟩ = some (.keyUpdate m, o) := received_sock h2 (by simp)
    rw [updatesReceived_one hrec] at hr1
    rw [updatesSent_one (by
      rw [Spec.sent, Spec.contents, encode_eq h6]
      simp [Spec.writes, Spec.handshakeBytes, content, Codec.Spec.handshake, Codec.Spec.typeByte])] at hw
    refine .inr ⟨g, hg.fixed, .inr (.inr (.inr ⟨m, o, hrec, h3, ?_⟩))⟩
    simp only [applyAll, List.foldl_cons, List.foldl_nil, Action.apply, saveBoth, Option.some.injEq,
      RLayer.mk.injEq, WLayer.mk.injEq, true_and, and_true] at hw hr1
    rw [← hw, ← hr1]; rfl

end Fizz.Server
