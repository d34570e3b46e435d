import Verif.ClientSM.Ccs

/-!
# C31 flattened, C59, C60: what a client offers, and what an ECH client shows
-/

namespace Fizz.ClientSM
open Fizz.Codec Fizz.Crypto
open Fizz.Server (Level RLayer WLayer Content KeyExchangeType HsCtx SockIn PeerCert content alertContent)
open Fizz.Conn (Trig)
open Spec (Offer PskOffer Public Neg Does)

/-- C31 in one sentence: when success is reported, the version and the cipher suite are configured ones; the
group is one the last ClientHello had a share for; the PSK is the one it offered, of the same version and a cipher suite
with the same hash, in a mode that was offered; the application protocol is one it offered; a
HelloRetryRequest, of which there was at most one, had named the same version and cipher suite. -/
theorem C31_offered {cfg : Cfg} (hok : ∀ c a, cfg.hashOf c = .ok a → a.Ok) {newer y older s}
    (hr : Run cfg (newer ++ y :: older) s) {b : Bool} (hs : .reportHandshakeSuccess b ∈ y.acts) :
    ∃ v c o o1 p, (Spec.post y).version = some v ∧ v ∈ cfg.supportedVersions ∧
      (Spec.post y).cipher = some c ∧ c ∈ cfg.supportedCiphers ∧
      Spec.Offered cfg (y :: older) o1 o p ∧
      (∀ g, (Spec.post y).group = some g → g ∈ o.shares.map (·.1)) ∧
      (∀ m, (Spec.post y).pskMode = some m → m ∈ cfg.supportedPskModes ∧ ∃ psk, o.pskOf = some psk ∧
        psk.version = v ∧ sameHash cfg c psk.cipher = .ok true ∧ (Spec.post y).pskType = some psk.type) ∧
      (∀ a, (Spec.post y).alpn = some a → a ∈ cfg.supportedAlpns) ∧
      (Spec.retries (y :: older)).length ≤ 1 ∧
      ∀ r ∈ Spec.retries (y :: older), r.cipher_suite = c ∧
        getServerSupportedVersions r.extensions = .ok (some ⟨v⟩) := by
  obtain ⟨g, n, x, o, p, early, e1, ho, hn, hen, hinfo, hc, hsame, -⟩ := C31_negotiated hok hr hs
  obtain ⟨p', hof, -⟩ := hinfo.sni
  obtain ⟨m, -, -, -, -, -, -, -, -, -, hpsk, hnp, hec, hne, -, -⟩ := hn.message
  obtain ⟨t, ht, ht1, ht2⟩ := hinfo.pskType
  refine ⟨g.version, g.cipher, g.offer, g.first, p', hinfo.version, hn.version, hinfo.cipher, hn.cipher, hof, ?_, ?_,
    ?_, hc, ?_⟩
  · intro gr hg
    rw [hinfo.group] at hg
    cases he : g.ecdhe with
    | none => rw [he] at hg; cases hg
    | some e =>
      rw [he] at hg
      cases Option.some.inj hg
      exact List.mem_map.2 ⟨_, (hec e he).offered, rfl⟩
  · intro md hm
    rw [hinfo.pskMode] at hm
    cases hp : g.psk with
    | none => rw [hp] at hm; cases hm
    | some psk =>
      rw [hp] at hm
      cases Option.some.inj hm
      have := hpsk psk hp
      exact ⟨this.mode, psk, this.offered, this.version, this.cipher, by rw [ht, ht1 psk hp]⟩
  · intro a ha
    obtain ⟨_, _, _, _, _, -, -, -, -, -, h, -⟩ := hen
    exact (h a ha).2
  · exact hsame

/-- C59: `connect` either fails or sends the ClientHello of `Spec.First`: with the configured versions, groups,
signature schemes, application protocols and cipher suites, a share for exactly the groups chosen,
the cached PSK exactly if it is usable, with the right age and binder; early data exactly if wanted. -/
theorem C59_connect {cfg : Cfg} (hok : ∀ c a, cfg.hashOf c = .ok a → a.Ok) {newer y older s}
    (hr : Run cfg (newer ++ y :: older) s) (hc : Spec.connects y) :
    y.acts = [] ∨ (Spec.post y).state = .error ∨
    ∃ o p, Spec.First cfg y o p ∧ Spec.ConnectShows cfg y o ∧ (Spec.post y).state = .expectingServerHello := by
  obtain ⟨r1, -, r3, -⟩ := hr.split
  have hi := run_inv hok r1
  obtain ⟨t, i, s, acts⟩ := y
  obtain ⟨hc, hst⟩ := hc
  simp only at hc hst hi r3
  subst hc
  cases r3 with
  | nothing => exact .inl rfl
  | fail => exact .inr (.inl fail_state)
  | report hs => exact absurd (hs.symm.trans hst) (by simp)
  | @connect c _ hp =>
    obtain ⟨o, p, h1, -, -, h2⟩ := connect_before (x := ⟨.accept, i, s, connectActions cfg c⟩) hok (hi.uninit hst) rfl hp rfl
    refine .inr (.inr ⟨o, p, h1, h2, ?_⟩)
    unfold Spec.post connectActions
    dsimp only
    split <;> rfl

/-- C59: a HelloRetryRequest is either rejected or answered by the ClientHello of `Spec.Second`. -/
theorem C59_retry {cfg : Cfg} (hok : ∀ c a, cfg.hashOf c = .ok a → a.Ok) {newer y older s}
    (hr : Run cfg (newer ++ y :: older) s) {m orig}
    (hm : Spec.received y = some (.helloRetryRequest m, orig)) :
    (Spec.post y).state = .error ∨
    ∃ o1 o p, Spec.Offered cfg older o1 o1 p ∧ Spec.Second cfg older y m orig o1 o p ∧
      (Spec.post y).state = .expectingServerHello := by
  obtain ⟨r1, -, r3, -⟩ := hr.split
  obtain ⟨ht, ⟨u, hs⟩, hn⟩ := received_inv hm
  have hi := run_inv hok r1
  obtain ⟨t, i, s, acts⟩ := y
  simp only at ht hs hn hi r3
  subst ht
  have bad : ∀ {e u'}, i.sock = .event e u' → e ≠ .handshake (.helloRetryRequest m) orig → False := by
    intro e u' h1 h2
    rw [hs] at h1
    cases h1
    exact h2 rfl
  cases r3 with
  | nothing => exact absurd rfl hn
  | fail => exact .inl fail_state
  | report hs => exact .inl hs
  | wait h => rw [hs] at h; cases h
  | @retry m' orig' u r w hst hs' hp hw =>
    rw [hs] at hs'
    cases hs'
    obtain ⟨o1, o, p, hb⟩ := hi.before hst
    rw [hb.write] at hw
    cases Option.some.inj hw
    obtain ⟨o', h1, -, -⟩ := retry_before (x := ⟨.sock, i, s, [.mutate (saveRetry cfg r),
      .write none (firstCcs cfg s ++ [content ⟨.plaintext, []⟩ 22 r.encoded]) 0,
      transition .expectingServerHello]⟩) hok hb hst rfl hs hp rfl
    have hf := h1.first
    obtain rfl := (hb.new hf).1
    exact .inr ⟨_, o', p, hb.offered, h1, rfl⟩
  | serverHello _ h _ => exact (bad h (by simp)).elim
  | encryptedExtensions _ h _ _ _ _ _ _ _ _ => exact (bad h (by simp)).elim
  | certificateRequest _ h _ _ _ _ _ => exact (bad h (by simp)).elim
  | certificate _ h _ _ => exact (bad h (by simp)).elim
  | compressedCertificate _ h _ _ _ _ => exact (bad h (by simp)).elim
  | certificateVerify _ h _ _ _ _ _ _ => exact (bad h (by simp)).elim
  | finished _ h _ => exact (bad h (by simp)).elim
  | ticket _ h _ => exact (bad h (by simp)).elim
  | data _ h => exact (bad h (by simp)).elim
  | keyUpdate _ h _ _ _ => exact (bad h (by simp)).elim
  | keyUpdateAnswered _ h _ _ _ _ _ _ => exact (bad h (by simp)).elim
  | closeNotify _ h _ => exact (bad h (by simp)).elim
  | expectedCloseNotify _ h => exact (bad h (by simp)).elim

/-- The extensions of an ECH client's outer ClientHello. -/
theorem outer_ext {cfg : Cfg} {inp first o p outer} (h : Spec.Outer cfg inp first o p outer)
    (hx : ∀ x ∈ o.extra, Spec.common first x = true) :
    ∀ e ∈ outer.extensions,
      (e ∈ o.extensions cfg ∧ Spec.common first e = true) ∨
      e = Codec.Spec.serverNameListWire ⟨[{ hostname := p.name }]⟩ ∨
      (∃ base grease body, inp.echEncrypt (o.hello cfg) { outer with extensions := base } grease = .ok body ∧
        e = ⟨0xfe0d, body⟩) ∨
      ∃ base grease body, inp.echEncrypt (o.hello cfg) { outer with extensions := base } (some grease) = .ok body ∧
        e = Codec.Spec.clientPresharedKeyWire grease := by
  obtain ⟨base, body, grease, h1, h2, h3, -, h4⟩ := h.extensions
  intro e he
  rw [h2, List.mem_append, List.mem_append] at he
  rcases he with (he | he) | he
  · cases hc : Spec.common first e with
    | true =>
      have : e ∈ base.filter (Spec.common first) := List.mem_filter.2 ⟨he, hc⟩
      rw [h3] at this
      exact .inl ⟨(List.mem_filter.1 this).1, rfl⟩
    | false =>
      rcases h4 e he hc with h | ⟨x, hx1, hx2⟩
      · exact .inr (.inl h)
      · have := hx x hx1
        unfold Spec.common at this hc
        rw [hx2, hc] at this
        cases this
  · rw [List.mem_singleton] at he
    exact .inr (.inr (.inl ⟨base, grease, body, h1, he⟩))
  · cases grease with
    | none => cases he
    | some g =>
      rw [show Spec.opt Codec.Spec.clientPresharedKeyWire (some g) = [Codec.Spec.clientPresharedKeyWire g] from rfl,
        List.mem_singleton] at he
      exact .inr (.inr (.inr ⟨base, g, body, h1, he⟩))

/-- The server name in the clear. -/
theorem outer_name {cfg : Cfg} {inp first o p outer} (h : Spec.Outer cfg inp first o p outer) :
    getServerNameList outer.extensions = .ok (some ⟨[{ hostname := p.name }]⟩) := by
  obtain ⟨base, body, grease, h1, h2, h3, h4, -⟩ := h.extensions
  have hf : ∀ (l l' : List Extension) e, findExtension l 0 = some e → findExtension (l ++ l') 0 = some e := by
    intro l l' e
    induction l with
    | nil => intro h; cases h
    | cons a l ih =>
      intro h
      rw [findExtension] at h
      rw [List.cons_append, findExtension]
      split_ifs at h ⊢
      · exact h
      · exact ih h
  rw [h2, List.append_assoc]
  unfold getServerNameList getExtension at h4 ⊢
  change (match findExtension base 0 with | none => _ | some e => _) = _ at h4
  cases hb : findExtension base 0 with
  | none => rw [hb] at h4; cases h4
  | some e =>
    have : findExtension (base ++ ([⟨0xfe0d, body⟩] ++ Spec.opt Codec.Spec.clientPresharedKeyWire grease))
      ExtensionType.server_name = some e := hf _ _ _ hb
    rw [this]
    rw [hb] at h4
    exact h4

/-- C60: every ClientHello of a client that has ECH configs is an outer one.  Its server name is the config's
public name and its random number one drawn for it; unless the application itself adds extensions of the types
server_name, pre_shared_key, early_data or encrypted_client_hello, what is in the clear is: the
extensions the inner ClientHello has of all other types, that server name, the encryption and possibly a GREASE PSK.
Everything of these four types in the real ClientHello goes into the encryption only. -/
theorem C60_outer {cfg : Cfg} (hok : ∀ c a, cfg.hashOf c = .ok a → a.Ok) (hech : cfg.hasEchConfigs = true)
    {newer y older s} (hr : Run cfg (newer ++ y :: older) s) {c : Content} (hc : c ∈ Spec.contents y)
    (ht : c.type = 22) (hl : c.layer.level = .plaintext) :
    ∃ first o1 o p outer, Spec.Offered cfg (y :: older) o1 o p ∧ (first = true ↔ Spec.connects y) ∧
      c.data = [Codec.Spec.handshake (.clientHello outer)] ∧ outer.random = p.random ∧
      getServerNameList outer.extensions = .ok (some ⟨[{ hostname := p.name }]⟩) ∧
      Spec.Outer cfg y.env.inp first o p outer ∧
      ((∀ x ∈ o.extra, Spec.common first x = true) → ∀ e ∈ outer.extensions,
        (e ∈ o.extensions cfg ∧ Spec.common first e = true) ∨
        e = Codec.Spec.serverNameListWire ⟨[{ hostname := p.name }]⟩ ∨
        (∃ base grease body, y.env.inp.echEncrypt (o.hello cfg) { outer with extensions := base } grease = .ok body ∧
          e = ⟨0xfe0d, body⟩) ∨
        ∃ base grease body, y.env.inp.echEncrypt (o.hello cfg) { outer with extensions := base } (some grease) =
          .ok body ∧ e = Codec.Spec.clientPresharedKeyWire grease) := by
  rcases C57_protect hok hr hc with h | h | ⟨-, -, h2, h | h⟩ | ⟨-, g, th, early, rms, flight, -, -, -, h⟩ |
    ⟨-, g, th, early, r, -, -, h⟩ | h | h
  · rw [h.1] at ht; cases ht
  · rw [h.1] at ht; cases ht
  · obtain ⟨o, p, h⟩ := h
    have h3 := h.wire
    unfold Spec.Wire at h3
    rw [if_pos hech] at h3
    obtain ⟨-, -, outer, h5, -, h6⟩ := h3
    exact ⟨true, o, o, p, outer, .first h, ⟨fun _ => h.connects, fun _ => rfl⟩, by rw [h2, h5], h6.random,
      outer_name h6, h6, outer_ext h6⟩
  · obtain ⟨m, orig, o1, o, p, h0, h⟩ := h
    have h3 := h.wire
    unfold Spec.Wire at h3
    rw [if_pos hech] at h3
    obtain ⟨-, -, outer, h5, -, h6⟩ := h3
    refine ⟨false, o1, o, p, outer, .second h0 h, ⟨(fun hh => by cases hh), fun hh => ?_⟩, by rw [h2, h5], h6.random,
      outer_name h6, h6, outer_ext h6⟩
    have := (received_inv h.received).1
    rw [hh.1] at this; cases this
  · rcases h with h | ⟨-, k, -, h⟩ <;> (rw [h] at hl; cases hl)
  · rw [h] at hl; cases hl
  · rw [h.1] at ht; cases ht
  · rw [h.1] at ht; cases ht

end Fizz.ClientSM
