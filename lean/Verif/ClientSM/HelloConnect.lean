import Verif.ClientSM.HelloWire

/-!
# What a successful Connect offers
-/

namespace Fizz.ClientSM
open Fizz.Codec Fizz.Crypto
open Fizz.Server (Level RLayer WLayer Content KeyExchangeType HsCtx SockIn PeerCert content
  deref derefPtr check ksState ksSecret transcriptHash finishedData
  derefPtr_eq_ok deref_eq_ok check_eq_ok pure_eq_ok ks_deriveEarly ks_getEarly finishedData_eq
  DeriveSecret_len frame_eq encode_eq encodable)
open Fizz.Server.Spec (messageHash finishedMac)
open Fizz.Client (CachedPsk PskType)
open Fizz.Conn (Trig)
open Spec (Offer PskOffer Public Neg)

/-- The early secrets over the first ClientHello. -/
def EarlyOk (cfg : Cfg) (o : Offer) (es : Bytes × Bytes) : Prop :=
  Spec.earlySecret cfg o .clientEarlyTraffic = some es.1 ∧ Spec.earlySecret cfg o .earlyExporter = some es.2

theorem offer_facts {cfg : Cfg} (hok : ∀ c a, cfg.hashOf c = .ok a → a.Ok) {inp : Inp} {o : Offer}
    (hn : o.psk = none) {early psk chlo enc es}
    (h : offer cfg inp (o.hello cfg) early psk = .ok (chlo, enc, es)) :
    ∃ q : Option PskOffer, chlo = ({ o with psk := q } : Offer).hello cfg ∧
      enc = ({ o with psk := q } : Offer).encoded cfg ∧ ({ o with psk := q } : Offer).pskOf = psk ∧
      (∀ p, psk = some p → ∃ h, cfg.hashOf p.cipher = .ok h ∧
        Spec.PskOk cfg h inp.now2 [] { o with psk := q }) ∧
      es.isSome = (early && psk.isSome) ∧
      (∀ e, es = some e → EarlyOk cfg { o with psk := q } e) ∧ Codec.Spec.Encodable (.clientHello chlo) := by
  cases psk with
  | none =>
    rw [offer, Res.bind_eq_ok] at h
    obtain ⟨e, h1, h⟩ := h
    cases pure_eq_ok.1 h
    have ho : ({ o with psk := none } : Offer) = o := by rw [← hn]
    refine ⟨none, ?_, ?_, rfl, by simp, by simp, by simp, encodable h1⟩
    · rw [ho]
    · rw [ho]; exact encode_eq h1
  | some psk =>
    rw [offer] at h
    simp only [Res.bind_eq_ok] at h
    obtain ⟨ha, h1, b, h2, s, h3, h⟩ := h
    cases pure_eq_ok.1 h
    have ok := hok _ _ h1
    obtain ⟨p, e1, e2, e3, e4, e5, e6, e7⟩ := binders_facts ok hn h1 rfl h2
    refine ⟨some p, e2, e3, by simp [Offer.pskOf, e1], ?_, ?_, ?_, e7⟩
    · intro p' hp
      cases Option.some.inj hp
      exact ⟨ha, h1, e6⟩
    · unfold optEarlySecrets at h3
      split_ifs at h3 with he
      · rw [Res.bind_eq_ok] at h3
        obtain ⟨q, -, h3⟩ := h3
        cases pure_eq_ok.1 h3
        simp [he]
      · cases h3; simp [he]
    · intro e hs
      subst hs
      unfold optEarlySecrets at h3
      split_ifs at h3 with he
      · rw [Res.bind_eq_ok] at h3
        obtain ⟨q, h4, h3⟩ := h3
        have h3 := Option.some.inj (pure_eq_ok.1 h3)
        subst h3
        unfold earlySecrets at h4
        simp only [Res.bind_eq_ok] at h4
        obtain ⟨t, h5, x, h6, h4⟩ := h4
        cases pure_eq_ok.1 h4
        rw [e4] at h5 h6
        have f5 := ks_getEarly ok (ok.len _) h5
        have f6 := ks_getEarly ok (ok.len _) h6
        have htr : b.ctx.transcript = ({ o with psk := some p } : Offer).encoded cfg := by
          rw [e5, e3]; simp [HsCtx.append]
        unfold EarlyOk Spec.earlySecret
        simp only [e1, h1]
        rw [f5, f6]
        simp only [transcriptHash, htr, and_self]
      · cases h3

theorem getEarlyDataParams_iff {cfg : Cfg} {psk : Option Psk} :
    (getEarlyDataParams cfg psk).isSome = true ↔ ∃ p, psk = some p ∧ Spec.WantsEarly cfg p := by
  cases psk with
  | none => simp [getEarlyDataParams]
  | some p =>
    unfold getEarlyDataParams Spec.WantsEarly
    simp only [Option.some.injEq, exists_eq_left']
    cases h1 : cfg.sendEarlyData <;> simp only [Bool.true_eq_false, Bool.false_eq_true, if_false, if_true, false_and,
      Option.isSome_none, true_and]
    by_cases h2 : p.maxEarlyDataSize = 0
    · simp [h2]
    · rw [if_neg h2]
      cases h3 : p.alpn with
      | none => simp [h2]
      | some a => by_cases h4 : a ∈ cfg.supportedAlpns <;> simp [h2, h4]

theorem getEarlyDataParams_eq {cfg : Cfg} {psk : Option Psk} {e : EarlyDataParams}
    (h : getEarlyDataParams cfg psk = some e) : ∃ p, psk = some p ∧
      e = ⟨p.version, p.cipher, p.serverCert, p.clientCert, p.alpn, []⟩ := by
  cases psk with
  | none => simp [getEarlyDataParams] at h
  | some p =>
    refine ⟨p, rfl, ?_⟩
    unfold getEarlyDataParams at h
    simp only at h
    split_ifs at h
    exact (Option.some.inj h).symm

/-- What the client knows after the first ClientHello. -/
structure Ready (cfg : Cfg) (inp : Inp) (c : Connected) (o : Offer) (p : Public) : Prop where
  psk : c.psk = o.pskOf
  shares : c.shares = o.shares
  sessionId : c.sessionId = o.sessionId
  early : c.params.isSome = o.early
  params : ∀ e, c.params = some e → ∃ p, o.pskOf = some p ∧
    e = ⟨p.version, p.cipher, p.serverCert, p.clientCert, p.alpn, []⟩
  secrets : c.early.isSome = o.early ∧ ∀ e, c.early = some e → EarlyOk cfg o e
  requested : ∀ t ∈ c.requested, t ∈ (o.extensions cfg).map (·.extension_type) ∨
    (t = 0xfe0d ∧ cfg.greaseEch = some .computed)
  plain : cfg.hasEchConfigs = false → c.final.ech = none ∧ c.final.random = o.random ∧ c.final.sni = o.sni
  ech : cfg.hasEchConfigs = true → c.final.random = p.random ∧ c.final.sni = some p.name ∧
    ∃ grease, c.final.ech = some { encodedInner := some (o.encoded cfg), sni := o.sni, random := o.random
                                   greasePsk := grease }

/-- The ClientHello of a successful Connect. -/
structure Hello1 (cfg : Cfg) (inp : Inp) (o : Offer) (p : Public) (sent inner : Bytes) : Prop where
  random : o.random = inp.random
  sessionId : o.sessionId = if cfg.compatMode then inp.sessionId.val else []
  sni : o.sni = cfg.sni
  shares : Spec.SharesFor inp (Spec.firstGroups cfg o.pskOf) o.shares
  early : o.early = true ↔ ∃ psk, o.pskOf = some psk ∧ Spec.WantsEarly cfg psk
  cookie : o.cookie = none
  extra : Spec.ExtraOk cfg inp o
  ech : (cfg.hasEchConfigs = true ∧ o.ech = [⟨0xfe0d, [1]⟩]) ∨
    (cfg.hasEchConfigs = false ∧ cfg.greaseEch = some .uniformRandom ∧
      ∃ b, inp.greaseEch 0 = .ok b ∧ o.ech = [⟨0xfe0d, b⟩]) ∨
    (cfg.hasEchConfigs = false ∧ cfg.greaseEch ≠ some .uniformRandom ∧ o.ech = [])
  psk : ∀ psk, o.pskOf = some psk ↔ Spec.Usable cfg inp.now psk
  binder : ∀ psk, o.pskOf = some psk → ∃ h, cfg.hashOf psk.cipher = .ok h ∧
    Spec.PskOk cfg h inp.now2 [] o
  name : cfg.hasEchConfigs = true → inp.echSetup = .ok p.name ∧ p.random = inp.random2
  wire : Spec.Wire cfg inp true o p sent inner

theorem firstEchExt_facts {cfg : Cfg} {inp : Inp} {l} (h : firstEchExt cfg inp = .ok l) :
    (cfg.hasEchConfigs = true ∧ l = [⟨0xfe0d, [1]⟩]) ∨
    (cfg.hasEchConfigs = false ∧ cfg.greaseEch = some .uniformRandom ∧
      ∃ b, inp.greaseEch 0 = .ok b ∧ l = [⟨0xfe0d, b⟩]) ∨
    (cfg.hasEchConfigs = false ∧ cfg.greaseEch ≠ some .uniformRandom ∧ l = []) := by
  unfold firstEchExt at h
  split_ifs at h with h1 h2
  · exact .inl ⟨h1, (Except.ok.inj h).symm⟩
  · rcases optExt_eq h with ⟨-, e, h3, h4⟩ | ⟨h3, -⟩
    · unfold echExt at h3
      rw [Res.bind_eq_ok] at h3
      obtain ⟨b, h5, h3⟩ := h3
      refine .inr (.inl ⟨by simpa using h1, h2, b, h5, ?_⟩)
      rw [h4, ← pure_eq_ok.1 h3]
    · cases h3
  · exact .inr (.inr ⟨by simpa using h1, h2, (Except.ok.inj h).symm⟩)

theorem sub_type {l : List Extension} (h : l = [] ∨ ∃ b, l = [⟨0xfe0d, b⟩]) :
    (l.map (·.extension_type)).Sublist [0xfe0d] := by
  rcases h with rfl | ⟨b, rfl⟩ <;> simp

/-- A successful Connect. -/
theorem connect_facts {cfg : Cfg} (hok : ∀ c a, cfg.hashOf c = .ok a → a.Ok) {inp : Inp} {c : Connected}
    (h : prepareConnect cfg inp = .ok c) :
    ∃ o p, Hello1 cfg inp o p c.final.encoded ((c.final.ech.bind (·.encodedInner)).getD []) ∧
      Ready cfg inp c o p := by
  unfold prepareConnect at h
  simp only [Res.bind_eq_ok] at h
  obtain ⟨psk, h1, shares, h2, name, h3, chlo, h4, ech, h5, ⟨chlo', enc, es⟩, h6, fin, h7, h⟩ := h
  cases pure_eq_ok.1 h
  obtain ⟨extra, hx, rfl⟩ := getClientHello_eq h4
  have he : ({ Offer.hello cfg ⟨inp.random, sessionId cfg inp, cfg.sni, shares,
        (getEarlyDataParams cfg psk).isSome, none, extra, [], none⟩ with
      extensions := (Offer.hello cfg ⟨inp.random, sessionId cfg inp, cfg.sni, shares,
        (getEarlyDataParams cfg psk).isSome, none, extra, [], none⟩).extensions ++ ech } : ClientHello) =
      Offer.hello cfg ⟨inp.random, sessionId cfg inp, cfg.sni, shares,
        (getEarlyDataParams cfg psk).isSome, none, extra, ech, none⟩ := by
    unfold Offer.hello
    simp only
    rw [extensions_ech ech rfl rfl]
  rw [he] at h6
  obtain ⟨q, e1, e2, e3, e4, e5, e6, hencb⟩ := offer_facts hok rfl h6
  rw [e1] at hencb
  have hech := firstEchExt_facts h5
  have hsub : (ech.map (·.extension_type)).Sublist [0xfe0d] := by
    apply sub_type
    rcases hech with ⟨-, h⟩ | ⟨-, -, b, -, h⟩ | ⟨-, -, h⟩
    · exact .inr ⟨_, h⟩
    · exact .inr ⟨_, h⟩
    · exact .inl h
  have hearly : es.isSome = (getEarlyDataParams cfg psk).isSome := by
    rw [e5]
    cases hp : getEarlyDataParams cfg psk with
    | none => rfl
    | some e =>
      obtain ⟨p, hp', -⟩ := getEarlyDataParams_eq hp
      rw [hp']; rfl
  simp only at e1 e2 e3 e4 e6 hencb
  generalize ho : (⟨inp.random, sessionId cfg inp, cfg.sni, shares,
        (getEarlyDataParams cfg psk).isSome, none, extra, ech, q⟩ : Offer) = o at e1 e2 e3 e4 e6 hencb
  have o1 : o.random = inp.random := by rw [← ho]
  have o2 : o.sessionId = sessionId cfg inp := by rw [← ho]
  have o3 : o.sni = cfg.sni := by rw [← ho]
  have o4 : o.shares = shares := by rw [← ho]
  have o5 : o.early = (getEarlyDataParams cfg psk).isSome := by rw [← ho]
  have o6 : o.cookie = none := by rw [← ho]
  have o7 : o.extra = extra := by rw [← ho]
  have o8 : o.ech = ech := by rw [← ho]
  have hreq : ∀ t ∈ requestedTypes (Offer.hello cfg ⟨inp.random, sessionId cfg inp, cfg.sni, shares,
        (getEarlyDataParams cfg psk).isSome, none, extra, [], none⟩) ech psk,
      t ∈ (o.extensions cfg).map (·.extension_type) := by
    have hexts : o.extensions cfg = Offer.extensions cfg ⟨inp.random, sessionId cfg inp, cfg.sni, shares,
        (getEarlyDataParams cfg psk).isSome, none, extra, [], none⟩ ++ ech ++ Spec.opt PskOffer.ext q := by
      rw [← ho]
      unfold Offer.extensions
      simp [Spec.opt]
    intro t ht
    unfold requestedTypes at ht
    rw [hexts]
    simp only [List.map_append, List.mem_append] at ht ⊢
    rcases ht with (ht | ht) | ht
    · exact .inl (.inl ht)
    · refine .inl (.inr ?_)
      rcases hech with ⟨-, h⟩ | ⟨-, -, b, -, h⟩ | ⟨-, -, h⟩ <;> rw [h] at ht ⊢ <;> simpa using ht
    · refine .inr ?_
      split_ifs at ht with hp
      · have hps : o.pskOf.isSome = true := by rw [e3]; exact hp
        rw [← ho] at hps
        cases q with
        | none => simp [Offer.pskOf] at hps
        | some q =>
          simp only [List.mem_singleton] at ht
          subst ht
          simp only [Spec.opt, List.map_cons, List.map_nil, List.mem_singleton]
          rfl
      · simp at ht
  have hxo : Spec.ExtraOk cfg inp o := by
    unfold Spec.ExtraOk; rw [o7]; exact hx
  have hpsk : ∀ p, o.pskOf = some p ↔ Spec.Usable cfg inp.now p := by
    intro p; rw [e3]; exact validatePsk_iff h1 p
  have hsh : Spec.SharesFor inp (Spec.firstGroups cfg o.pskOf) o.shares := by
    rw [o4, e3, ← firstGroups_eq]; exact makeShares_facts h2
  have hwe : o.early = true ↔ ∃ p, o.pskOf = some p ∧ Spec.WantsEarly cfg p := by
    rw [o5, e3]; exact getEarlyDataParams_iff
  have hbi : ∀ p, o.pskOf = some p → ∃ h, cfg.hashOf p.cipher = .ok h ∧
      Spec.PskOk cfg h inp.now2 [] o := by
    intro p hp; rw [e3] at hp; exact e4 p hp
  have mk : ∀ {p sent inner}, (cfg.hasEchConfigs = true → inp.echSetup = .ok p.name ∧ p.random = inp.random2) →
      Spec.Wire cfg inp true o p sent inner → Hello1 cfg inp o p sent inner := fun {p sent inner} hn hw =>
    { random := o1, sessionId := o2, sni := o3, shares := hsh, early := hwe, cookie := o6, extra := hxo
      ech := by rw [o8]; exact hech, psk := hpsk, binder := hbi, name := hn, wire := hw }
  unfold setupEch at h3
  by_cases hc : cfg.hasEchConfigs = true
  · rw [if_pos hc, Res.bind_eq_ok] at h3
    obtain ⟨n, h31, h3⟩ := h3
    have h3 := (pure_eq_ok.1 h3).symm
    subst h3
    unfold finalHello at h7
    simp only at h7
    unfold echConnect at h7
    simp only [Res.bind_eq_ok] at h7
    obtain ⟨gr, h71, outer, h72, e, h73, h7⟩ := h7
    have h7 := (pure_eq_ok.1 h7).symm
    subst h7
    rw [e1] at h72
    have hout := outer_facts (by rw [o8]; exact hsub) h72
    refine ⟨o, ⟨inp.random2, n⟩, mk (fun _ => ⟨h31, rfl⟩) ?_, ?_⟩
    · unfold Spec.Wire
      rw [if_pos hc]
      exact ⟨hencb, e2, outer, encode_eq h73, encodable h73, hout⟩
    · refine
        { psk := e3.symm, shares := o4.symm, sessionId := o2.symm, early := o5.symm, params := ?_
          secrets := ⟨by rw [o5]; exact hearly, e6⟩, requested := ?_
          plain := fun h => by rw [hc] at h; cases h
          ech := fun _ => ⟨rfl, rfl, gr, ?_⟩ }
      · intro e he; rw [e3]; exact getEarlyDataParams_eq he
      · intro t ht; simp only [List.append_nil] at ht; exact .inl (hreq t ht)
      · simp only [e2, o3, o1]
  · rw [if_neg hc] at h3
    have h3 := (Except.ok.inj h3).symm
    subst h3
    have hcf : cfg.hasEchConfigs = false := by simpa using hc
    unfold finalHello at h7
    simp only at h7
    split_ifs at h7 with hg
    · unfold greaseConnect at h7
      simp only [Res.bind_eq_ok] at h7
      obtain ⟨g, h71, e, h72, h7⟩ := h7
      have h7 := (pure_eq_ok.1 h7).symm
      subst h7
      unfold echExt at h71
      rw [Res.bind_eq_ok] at h71
      obtain ⟨b, h73, h71⟩ := h71
      have h71 := (pure_eq_ok.1 h71).symm
      subst h71
      refine ⟨o, ⟨inp.random2, []⟩, mk (fun h => absurd h hc) ?_, ?_⟩
      · unfold Spec.Wire
        rw [if_neg hc, if_pos ⟨hg, rfl⟩]
        have h74 := encodable h72
        rw [e1] at h74
        refine ⟨hencb, rfl, b, by rw [← e2]; exact h73, h74, ?_⟩
        simp only
        rw [encode_eq h72, e1]
        rfl
      · refine
          { psk := e3.symm, shares := o4.symm, sessionId := o2.symm, early := o5.symm, params := ?_
            secrets := ⟨by rw [o5]; exact hearly, e6⟩, requested := ?_
            plain := fun _ => ⟨rfl, o1.symm, o3.symm⟩
            ech := fun h => absurd h hc }
        · intro e he; rw [e3]; exact getEarlyDataParams_eq he
        · intro t ht
          simp only [List.mem_append, List.mem_singleton] at ht
          rcases ht with ht | rfl
          · exact .inl (hreq t ht)
          · exact .inr ⟨rfl, hg⟩
    · have h7 := (Except.ok.inj h7).symm
      subst h7
      refine ⟨o, ⟨inp.random2, []⟩, mk (fun h => absurd h hc) ?_, ?_⟩
      · unfold Spec.Wire
        rw [if_neg hc, if_neg (fun h => hg h.1)]
        exact ⟨hencb, rfl, e2⟩
      · refine
          { psk := e3.symm, shares := o4.symm, sessionId := o2.symm, early := o5.symm, params := ?_
            secrets := ⟨by rw [o5]; exact hearly, e6⟩, requested := ?_
            plain := fun _ => ⟨rfl, o1.symm, o3.symm⟩
            ech := fun h => absurd h hc }
        · intro e he; rw [e3]; exact getEarlyDataParams_eq he
        · intro t ht
          simp only [List.append_nil] at ht
          exact .inl (hreq t ht)

end Fizz.ClientSM
