import Verif.ClientSM.Spec
import Verif.ClientSM.Shape
import Verif.Server.HelloNeg
import Verif.Codec.ExtProps

/-!
# What a successful Connect has put together
-/

namespace Fizz.ClientSM
open Fizz.Codec Fizz.Crypto
open Fizz.Server (Level RLayer WLayer Content KeyExchangeType HsCtx SockIn PeerCert content
  deref derefPtr check ksState ksSecret transcriptHash finishedData
  derefPtr_eq_ok deref_eq_ok check_eq_ok pure_eq_ok ks_deriveEarly ks_getEarly finishedData_eq
  DeriveSecret_len frame_eq encode_eq encodable)
open Fizz.Server.Spec (messageHash finishedMac)
open Fizz.Client (CachedPsk PskType)
open Fizz.Conn (Trig)
open Spec (Offer PskOffer Public Neg)

theorem checked_ok {v r : Int} (h : Time.checked v = .ok r) : r = v := by
  unfold Time.checked at h
  split_ifs at h
  exact (Except.ok.inj h).symm

theorem freshPsk_iff {cfg now psk b} (h : freshPsk cfg now psk = .ok b) :
    b = true ↔ (psk.type = .resumption → now ≤ psk.ticketExpirationTime ∧
      now - psk.ticketHandshakeTime ≤ cfg.maxPskHandshakeLife ∧ psk.ticketHandshakeTime ≤ now) := by
  unfold freshPsk at h
  split_ifs at h with h1 h2
  · cases h
    constructor
    · intro h; cases h
    · intro h; have := (h h1).1; omega
  · rw [Res.bind_eq_ok] at h
    obtain ⟨age, h3, h⟩ := h
    have h3 := checked_ok h3
    subst h3
    split_ifs at h with h4
    · cases pure_eq_ok.1 h
      constructor
      · intro h; cases h
      · intro h; have := (h h1).2.1; omega
    · cases pure_eq_ok.1 h
      rw [decide_eq_true_eq]
      constructor
      · intro h _; exact ⟨by omega, by omega, h⟩
      · intro h; exact (h h1).2.2
  · cases h
    simp [h1]

theorem validatePsk_iff {cfg now r} (h : validatePsk cfg now = .ok r) (psk : Psk) :
    r = some psk ↔ Spec.Usable cfg now psk := by
  unfold validatePsk at h
  unfold Spec.Usable
  cases hc : cfg.cachedPsk with
  | none => rw [hc] at h; cases h; simp
  | some p =>
    rw [hc] at h
    simp only at h
    by_cases h1 : p.version ∈ cfg.supportedVersions
    · rw [if_neg (by simpa using h1)] at h
      by_cases h2 : p.cipher ∈ cfg.supportedCiphers
      · rw [if_neg (by simpa using h2), Res.bind_eq_ok] at h
        obtain ⟨b, h3, h⟩ := h
        cases pure_eq_ok.1 h
        have := freshPsk_iff h3
        split_ifs with hb
        · rw [Option.some.injEq]
          constructor
          · rintro rfl; exact ⟨rfl, h1, h2, this.1 hb⟩
          · rintro ⟨h, -⟩; exact h
        · constructor
          · intro h; cases h
          · rintro ⟨h, -, -, h4⟩
            cases Option.some.inj h
            exact absurd (this.2 h4) hb
      · rw [if_pos h2] at h
        cases h
        constructor
        · intro h; cases h
        · rintro ⟨h, -, h3, -⟩
          cases Option.some.inj h
          exact absurd h3 h2
    · rw [if_pos h1] at h
      cases h
      constructor
      · intro h; cases h
      · rintro ⟨h, h3, -⟩
        cases Option.some.inj h
        exact absurd h3 h1

/-! ## Shares -/

theorem insertShare_mem {g b} {l : List (UInt16 × Bytes)} (x : UInt16 × Bytes) :
    x ∈ insertShare g b l → x = (g, b) ∨ x ∈ l := by
  induction l with
  | nil => simp [insertShare]
  | cons p l ih =>
    obtain ⟨g', b'⟩ := p
    simp only [insertShare]
    split_ifs
    · simp
    · intro h; exact .inr h
    · rw [List.mem_cons]
      rintro (h | h)
      · exact .inr (by rw [h]; simp)
      · rcases ih h with h | h
        · exact .inl h
        · exact .inr (List.mem_cons_of_mem _ h)

theorem insertShare_groups {g b} {l : List (UInt16 × Bytes)} (x : UInt16) :
    x ∈ (insertShare g b l).map (·.1) ↔ x = g ∨ x ∈ l.map (·.1) := by
  induction l with
  | nil => simp [insertShare]
  | cons p l ih =>
    obtain ⟨g', b'⟩ := p
    simp only [insertShare]
    split_ifs with h1 h2
    · simp
    · simp [h2]
    · rw [List.map_cons, List.mem_cons, ih]
      simp only [List.map_cons, List.mem_cons]
      constructor
      · rintro (h | h | h)
        · exact .inr (.inl h)
        · exact .inl h
        · exact .inr (.inr h)
      · rintro (h | h | h)
        · exact .inr (.inl h)
        · exact .inl h
        · exact .inr (.inr h)

theorem insertShare_sorted {g b} {l : List (UInt16 × Bytes)} (h : (l.map (·.1)).Pairwise (· < ·)) :
    ((insertShare g b l).map (·.1)).Pairwise (· < ·) := by
  induction l with
  | nil => simp [insertShare]
  | cons p l ih =>
    obtain ⟨g', b'⟩ := p
    simp only [List.map_cons, List.pairwise_cons] at h
    simp only [insertShare]
    split_ifs with h1 h2
    · simp only [List.map_cons, List.pairwise_cons, List.mem_cons]
      refine ⟨?_, h.1, h.2⟩
      rintro x (rfl | hx)
      · exact h1
      · exact UInt16.lt_trans h1 (h.1 x hx)
    · simpa using h
    · simp only [List.map_cons, List.pairwise_cons]
      refine ⟨fun x hx => ?_, ih h.2⟩
      rcases (insertShare_groups x).1 hx with rfl | hx
      · rcases UInt16.lt_or_lt_of_ne h2 with h | h
        · exact absurd h h1
        · exact h
      · exact h.1 x hx

theorem makeShares_acc {inp gs acc r} (h : makeShares inp gs acc = .ok r) :
    (∀ g, g ∈ r.map (·.1) ↔ g ∈ gs ∨ g ∈ acc.map (·.1)) ∧
    ((acc.map (·.1)).Pairwise (· < ·) → (r.map (·.1)).Pairwise (· < ·)) ∧
    ∀ s ∈ r, inp.keyShare s.1 = .ok s.2 ∨ s ∈ acc := by
  induction gs generalizing acc with
  | nil =>
    rw [makeShares] at h
    cases h
    exact ⟨by simp, id, fun _ h => .inr h⟩
  | cons g gs ih =>
    rw [makeShares, Res.bind_eq_ok] at h
    obtain ⟨b, h1, h⟩ := h
    obtain ⟨a1, a2, a3⟩ := ih h
    refine ⟨fun x => ?_, fun hs => a2 (insertShare_sorted hs), fun s hs => ?_⟩
    · rw [a1, insertShare_groups, List.mem_cons]
      constructor
      · rintro (h | h | h)
        · exact .inl (.inr h)
        · exact .inl (.inl h)
        · exact .inr h
      · rintro ((h | h) | h)
        · exact .inr (.inl h)
        · exact .inl h
        · exact .inr (.inr h)
    · rcases a3 s hs with h | h
      · exact .inl h
      · rcases insertShare_mem s h with rfl | h
        · exact .inl h1
        · exact .inr h

theorem makeShares_facts {inp gs r} (h : makeShares inp gs [] = .ok r) :
    Spec.SharesFor inp gs r := by
  obtain ⟨a1, a2, a3⟩ := makeShares_acc h
  refine ⟨fun g => by simpa using a1 g, ?_, fun s hs => by simpa using a3 s hs⟩
  exact (a2 (by simp)).imp fun h => UInt16.ne_of_lt h

theorem firstGroups_eq (cfg : Cfg) (psk : Option Psk) : selectShares cfg psk = Spec.firstGroups cfg psk := by
  unfold selectShares Spec.firstGroups
  cases psk with
  | none => rfl
  | some p =>
    cases hg : p.group with
    | none => simp [hg]
    | some g =>
      simp only [Option.map_some, hg]
      by_cases h1 : cfg.sendKeyShare = .alwaysDefaultShares <;> by_cases h2 : g ∈ cfg.supportedGroups <;>
        simp [h1, h2]

/-! ## The ClientHello -/

theorem optExt_eq {b r l} (h : optExt b r = .ok l) : (b = true ∧ ∃ e, r = .ok e ∧ l = [e]) ∨ (b = false ∧ l = []) := by
  unfold optExt at h
  split_ifs at h with hb
  · rw [Res.bind_eq_ok] at h
    obtain ⟨e, h1, h⟩ := h
    exact .inl ⟨hb, e, h1, (pure_eq_ok.1 h).symm⟩
  · exact .inr ⟨by simpa using hb, (Except.ok.inj h).symm⟩

theorem isEmpty_false {α} {l : List α} : (!l.isEmpty) = false ↔ l = [] := by cases l <;> simp
theorem isEmpty_true {α} {l : List α} : (!l.isEmpty) = true ↔ l ≠ [] := by cases l <;> simp

theorem helloExtensions_eq {cfg inp shares sni early cookie exts}
    (h : helloExtensions cfg inp shares sni early cookie = .ok exts) {o : Offer}
    (h1 : o.sni = sni) (h2 : o.shares = shares) (h3 : o.early = early) (h4 : o.cookie = cookie)
    (h5 : o.ech = []) (h6 : o.psk = none) (hx : ∀ l, extraExt cfg inp = .ok l → o.extra = l) :
    exts = o.extensions cfg := by
  unfold helloExtensions at h
  simp only [Res.bind_eq_ok] at h
  obtain ⟨e1, a1, e2, a2, e3, a3, e4, a4, e5, a5, e6, a6, e7, a7, e8, a8, e9, a9, e10, a10, e11, a11, h⟩ := h
  rw [← pure_eq_ok.1 h]
  unfold Offer.extensions
  rw [h1, h2, h3, h4, h5, h6, hx _ a11]
  rw [((C03_supportedVersions _).1 _ |>.1 a2).2, ((C03_supportedGroups _).1 _ |>.1 a3).2,
    ((C03_clientKeyShare _).1 _ |>.1 a4).2, ((C03_signatureAlgorithms _).1 _ |>.1 a5).2]
  have b1 : e1 = Spec.opt (fun n => Codec.Spec.serverNameListWire ⟨[{ hostname := n }]⟩) sni := by
    unfold sniExt at a1
    cases sni with
    | none => cases a1; rfl
    | some n =>
      rcases optExt_eq a1 with ⟨-, e, h1, rfl⟩ | ⟨h1, -⟩
      · rw [((C03_serverNameList _).1 _ |>.1 h1).2]; rfl
      · cases h1
  have b6 : e6 = if cfg.supportedAlpns = [] then [] else
      [Codec.Spec.protocolNameListWire ⟨cfg.supportedAlpns.map fun n => ⟨n⟩⟩] := by
    rcases optExt_eq a6 with ⟨h0, e, h1, rfl⟩ | ⟨h0, rfl⟩
    · rw [if_neg (isEmpty_true.1 h0), ((C03_protocolNameList _).1 _ |>.1 h1).2]
    · rw [if_pos (isEmpty_false.1 h0)]
  have b7 : e7 = if cfg.supportedPskModes = [] then [] else
      [Codec.Spec.pskKeyExchangeModesWire ⟨cfg.supportedPskModes⟩] := by
    rcases optExt_eq a7 with ⟨h0, e, h1, rfl⟩ | ⟨h0, rfl⟩
    · rw [if_neg (isEmpty_true.1 h0), ((C03_pskKeyExchangeModes _).1 _ |>.1 h1).2]
    · rw [if_pos (isEmpty_false.1 h0)]
  have b8 : e8 = if early = true then [Codec.Spec.clientEarlyDataWire ⟨⟩] else [] := by
    rcases optExt_eq a8 with ⟨h0, e, h1, rfl⟩ | ⟨h0, rfl⟩
    · rw [if_pos h0, ((C03_clientEarlyData _).1 _ |>.1 h1).2]
    · rw [if_neg (by simp [h0])]
  have b9 : e9 = Spec.opt (fun c => Codec.Spec.cookieWire ⟨c⟩) cookie := by
    unfold cookieExt at a9
    cases cookie with
    | none => cases a9; rfl
    | some n =>
      rcases optExt_eq a9 with ⟨-, e, h1, rfl⟩ | ⟨h1, -⟩
      · rw [((C03_cookie _).1 _ |>.1 h1).2]; rfl
      · cases h1
  have b10 : e10 = if cfg.decompressionAlgorithms = [] then [] else
      [Codec.Spec.certificateCompressionAlgorithmsWire ⟨cfg.decompressionAlgorithms⟩] := by
    rcases optExt_eq a10 with ⟨h0, e, h1, rfl⟩ | ⟨h0, rfl⟩
    · rw [if_neg (isEmpty_true.1 h0), ((C03_certificateCompressionAlgorithms _).1 _ |>.1 h1).2]
    · rw [if_pos (isEmpty_false.1 h0)]
  rw [b1, b6, b7, b8, b9, b10]
  simp [Spec.opt]

theorem getClientHello_eq {cfg inp random shares sni early sid cookie c}
    (h : getClientHello cfg inp random shares sni early sid cookie = .ok c) :
    ∃ extra, extraExt cfg inp = .ok extra ∧
      c = Offer.hello cfg ⟨random, sid, sni, shares, early, cookie, extra, [], none⟩ := by
  unfold getClientHello at h
  rw [Res.bind_eq_ok] at h
  obtain ⟨exts, h1, h⟩ := h
  have h1' := h1
  unfold helloExtensions at h1'
  simp only [Res.bind_eq_ok] at h1'
  obtain ⟨e1, a1, e2, a2, e3, a3, e4, a4, e5, a5, e6, a6, e7, a7, e8, a8, e9, a9, e10, a10, e11, a11, -⟩ := h1'
  refine ⟨e11, a11, ?_⟩
  rw [← pure_eq_ok.1 h]
  rw [helloExtensions_eq h1 (o := ⟨random, sid, sni, shares, early, cookie, e11, [], none⟩) rfl rfl rfl rfl
    rfl rfl (by intro l hl; rw [a11] at hl; exact Except.ok.inj hl)]
  rfl

theorem extensions_ech {cfg : Cfg} {o : Offer} (e : List Extension) (h1 : o.ech = []) (h2 : o.psk = none) :
    o.extensions cfg ++ e = ({ o with ech := e } : Offer).extensions cfg := by
  unfold Offer.extensions
  rw [h1, h2]
  simp [Spec.opt]

theorem extensions_psk {cfg : Cfg} {o : Offer} (p : PskOffer) (h2 : o.psk = none) :
    o.extensions cfg ++ [p.ext] = ({ o with psk := some p } : Offer).extensions cfg := by
  unfold Offer.extensions
  rw [h2]
  simp [Spec.opt]

/-! ## Binders -/

theorem clientHello_encode {c : ClientHello} {b : Bytes} (h : encodeHandshake (.clientHello c) = .ok b) :
    b = Codec.Spec.handshake (.clientHello c) ∧ ∃ body, encodeClientHello c = .ok body ∧
      b = 1 :: vec .u24 body := by
  refine ⟨encode_eq h, ?_⟩
  rw [encodeHandshake, Res.bind_eq_ok] at h
  obtain ⟨body, h1, h⟩ := h
  exact ⟨body, h1, frame_eq h⟩

theorem take_framed {body : Bytes} {n : Nat} (hn : n ≤ body.length) :
    (1 :: vec .u24 body : Bytes).take ((1 :: vec .u24 body : Bytes).length - n) =
      1 :: (beEnc 3 body.length ++ body.take (body.length - n)) := by
  have hl : (1 :: vec .u24 body : Bytes).length - n = 1 + (3 + (body.length - n)) := by
    simp [vec, Width.bytes]; omega
  rw [hl, Nat.add_comm, List.take_succ_cons]
  congr 1
  show (beEnc 3 body.length ++ body).take _ = _
  rw [List.take_append]
  congr 1
  · exact List.take_of_length_le (by simp)
  · simp

/-- A ClientHello with a PSK and its binder. -/
theorem binders_facts {cfg : Cfg} {h hp : HashAlg} (ok : h.Ok) {o : Offer} (hn : o.psk = none) {psk : Psk}
    {ctx : HsCtx} {now : Int} {b : Bound}
    (hhp : cfg.hashOf psk.cipher = .ok hp) (hlen : hp.hashLen = h.hashLen)
    (hb : encodeAndAddBinders cfg h (o.hello cfg) psk ctx now = .ok b) :
    ∃ p : PskOffer, p.psk = psk ∧ b.chlo = ({ o with psk := some p } : Offer).hello cfg ∧
      b.encoded = ({ o with psk := some p } : Offer).encoded cfg ∧
      b.ks = KS.conc h ⟨.early (some psk.secret), none⟩ ∧ b.ctx = ctx.append b.encoded ∧
      Spec.PskOk cfg h now ctx.transcript { o with psk := some p } ∧ Codec.Spec.Encodable (.clientHello b.chlo) := by
  unfold encodeAndAddBinders at hb
  simp only [Res.bind_eq_ok] at hb
  obtain ⟨ks, h1, key, h2, age, h3, hp', h4, ext, h5, n, h6, pre, h7, bind, h8, ext2, h9, enc, h10, hb⟩ := hb
  rw [hhp] at h4
  cases h4
  rw [← pure_eq_ok.1 hb]
  have e1 := ks_deriveEarly ok h1
  subst e1
  have e2 := ks_getEarly ok (by rw [ok.blank]; exact ok.len _) h2
  have hkl : key.length = h.hashLen := by
    rw [e2]
    unfold KS.Spec.earlyValue
    split_ifs <;> exact DeriveSecret_len ok _ _ _
  rw [finishedData_eq ok hkl] at h8
  have e8 := Except.ok.inj h8
  have hbl : bind.length = h.hashLen := by
    rw [← e8]; exact ok.len _
  have e5 := ((C03_clientPresharedKey _).1 _ |>.1 h5).2
  have e9 := ((C03_clientPresharedKey _).1 _ |>.1 h9).2
  obtain ⟨a7, body, c7, d7⟩ := clientHello_encode h7
  obtain ⟨a10, body2, c10, d10⟩ := clientHello_encode h10
  obtain ⟨n', f1, f2, f3⟩ := C41_binder_independent (addExt (o.hello cfg) ext) (addExt (o.hello cfg) ext2)
    (o.extensions cfg) _ _ ext ext2 body body2 h5 h9 rfl rfl rfl
    (by simp [pskOffer, Codec.Spec.pskBinder, vec, hlen, hbl]) c7 c10
  rw [h6] at f1
  cases f1
  obtain ⟨n1, g1, g2, g3⟩ := C41_binder_truncation (addExt (o.hello cfg) ext) (o.extensions cfg) _ ext body h5 rfl c7
  obtain ⟨n2, k1, k2, k3⟩ := C41_binder_truncation (addExt (o.hello cfg) ext2) (o.extensions cfg) _ ext2 body2 h9 rfl c10
  rw [h6] at g1
  cases g1
  rw [f2] at k1
  cases k1
  have hll : body.length = body2.length := by
    have := congrArg List.length f3
    simp only [List.length_take] at this
    omega
  have htk : pre.take (pre.length - n) = enc.take (enc.length - n) := by
    rw [d7, d10, take_framed g2, take_framed k2, f3, hll]
  have hch : addExt (o.hello cfg) ext2 = ({ o with psk := some ⟨psk, age, bind⟩ } : Offer).hello cfg := by
    have := extensions_psk (cfg := cfg) (o := o) ⟨psk, age, bind⟩ hn
    unfold addExt Offer.hello
    rw [e9]
    simp only
    rw [← this]
    rfl
  have henc : enc = ({ o with psk := some ⟨psk, age, bind⟩ } : Offer).encoded cfg := by
    unfold Offer.encoded; rw [← hch]; exact a10
  refine ⟨⟨psk, age, bind⟩, rfl, hch, henc, rfl, ?_, ?_, encodable h10⟩
  · show (ctx.append _).append _ = _
    unfold HsCtx.append
    simp only [List.append_assoc]
    rw [htk, List.take_append_drop]
  · intro p hp
    cases Option.some.inj hp
    refine ⟨?_, n, ?_, ?_⟩
    · unfold obfuscatedAge at h3
      simp only
      split_ifs at h3 with ht
      · rw [Res.bind_eq_ok] at h3
        obtain ⟨a, h31, h3⟩ := h3
        rw [if_pos ht, ← pure_eq_ok.1 h3, checked_ok h31]
      · rw [if_neg ht]; exact (Except.ok.inj h3).symm
    · rw [← hch]; exact f2
    · rw [← henc, ← htk, ← e8, e2, ok.blank]
      rfl

end Fizz.ClientSM
