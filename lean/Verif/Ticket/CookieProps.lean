import Verif.Ticket.Cookie
import Verif.Ticket.TokenProps
import Verif.Ticket.TicketCodecProps
import Verif.Codec.ExtProps
import Mathlib.Tactic.SplitIfs

/-! # C18: stateless cookies decode to the state they encode -/

namespace Fizz.Ticket
open Fizz.Codec Fizz.Negotiate

/-! ## Specification -/

/-- The ECH fields come together: a state either has suite, config id and encapsulated key, or none
of them. -/
def CookieState.Consistent (s : CookieState) : Prop :=
  (s.echCipherSuite = none → s.echConfigId = none ∧ s.echEnc = []) ∧
  (s.echCipherSuite ≠ none → s.echConfigId ≠ none)

/-- All variable parts fit their 16-bit length. -/
def CookieState.Fits (s : CookieState) : Prop :=
  s.chloHash.length < 2 ^ 16 ∧ s.appToken.length < 2 ^ 16 ∧
  (s.echCipherSuite ≠ none → s.echEnc.length < 2 ^ 16)

/-- Presence byte and group. -/
def Spec.cookieGroup : Option UInt16 → Bytes
  | none => [0]
  | some g => [1] ++ beEnc 2 g.toNat

/-- Presence byte and ECH fields. -/
def Spec.cookieEch : Option EchSuite → Option UInt8 → Bytes → Bytes
  | some cs, some id, enc =>
    [1] ++ beEnc 2 cs.kdf.toNat ++ beEnc 2 cs.aead.toNat ++ [id] ++ beEnc 2 enc.length ++ enc
  | _, _, _ => [0]

/-- The layout of a cookie plaintext. -/
def Spec.cookieWire (s : CookieState) : Bytes :=
  beEnc 2 s.version.toNat ++ beEnc 2 s.cipher.toNat ++ Spec.cookieGroup s.group ++
    beEnc 2 s.chloHash.length ++ s.chloHash ++ beEnc 2 s.appToken.length ++ s.appToken ++
    Spec.cookieEch s.echCipherSuite s.echConfigId s.echEnc

/-! ## Lemmas -/

theorem readU8_cons (b : UInt8) (x : Bytes) : readU8 (b :: x) = .ok ((b, 1), x) := by
  rw [readU8_eq_ok]; exact ⟨by simp [beEnc], rfl⟩

theorem readU16_append (v : UInt16) (x : Bytes) :
    readU16 (beEnc 2 v.toNat ++ x) = .ok ((v, 2), x) := by
  rw [readU16_eq_ok]; exact ⟨rfl, rfl⟩

theorem readBuf16_append {b : Bytes} (h : b.length < 2 ^ 16) (x : Bytes) :
    readBuf .u16 (beEnc 2 b.length ++ (b ++ x)) = .ok ((b, 2 + b.length), x) := by
  rw [readBuf_eq_ok]
  exact ⟨by simpa [Width.bytes] using h, by simp [vec, Width.bytes], rfl⟩

theorem readGroup_wire (g : Option UInt16) (x : Bytes) :
    readGroup (Spec.cookieGroup g ++ x) = .ok (g, x) := by
  unfold readGroup
  cases g with
  | none =>
    rw [Rd.bind_eq_ok]
    exact ⟨(0, 1), x, readU8_cons 0 x, by simp⟩
  | some g =>
    rw [Rd.bind_eq_ok]
    refine ⟨(1, 1), beEnc 2 g.toNat ++ x, ?_, ?_⟩
    · simp only [Spec.cookieGroup, List.cons_append, List.nil_append]; exact readU8_cons 1 _
    · simp only [if_true]
      rw [Rd.bind_eq_ok]
      exact ⟨(g, 2), x, readU16_append g x, by simp⟩

theorem readEch_wire (s : CookieState) (cs : Option EchSuite) (id : Option UInt8) (enc : Bytes)
    (x : Bytes) (h1 : cs = none → id = none ∧ enc = []) (h2 : cs ≠ none → id ≠ none)
    (h3 : cs ≠ none → enc.length < 2 ^ 16)
    (hs : s.echCipherSuite = none ∧ s.echConfigId = none ∧ s.echEnc = []) :
    readEch s (Spec.cookieEch cs id enc ++ x) =
      .ok ({ s with echCipherSuite := cs, echConfigId := id, echEnc := enc }, x) := by
  unfold readEch
  cases cs with
  | none =>
    obtain ⟨rfl, rfl⟩ := h1 rfl
    rw [Rd.bind_eq_ok]
    refine ⟨(0, 1), x, readU8_cons 0 x, ?_⟩
    obtain ⟨e1, e2, e3⟩ := hs
    simp [← e1, ← e2, ← e3]
  | some cs =>
    cases id with
    | none => exact absurd rfl (h2 (by simp))
    | some id =>
      have h3 := h3 (by simp)
      rw [Rd.bind_eq_ok]
      refine ⟨(1, 1), beEnc 2 cs.kdf.toNat ++ (beEnc 2 cs.aead.toNat ++ (id :: (beEnc 2 enc.length ++
        (enc ++ x)))), ?_, ?_⟩
      · rw [← readU8_cons]; simp [Spec.cookieEch]
      · simp only [if_true]
        rw [Rd.bind_eq_ok]; refine ⟨_, _, readU16_append _ _, ?_⟩
        rw [Rd.bind_eq_ok]; refine ⟨_, _, readU16_append _ _, ?_⟩
        rw [Rd.bind_eq_ok]; refine ⟨_, _, readU8_cons _ _, ?_⟩
        rw [Rd.bind_eq_ok]; refine ⟨_, _, readBuf16_append h3 _, ?_⟩
        rfl

theorem readCookieState_wire (s : CookieState) (hc : s.Consistent) (hf : s.Fits) (x : Bytes) :
    readCookieState (Spec.cookieWire s ++ x) = .ok (s, x) := by
  unfold readCookieState Spec.cookieWire
  simp only [List.append_assoc]
  rw [Rd.bind_eq_ok]; refine ⟨_, _, readU16_append _ _, ?_⟩
  rw [Rd.bind_eq_ok]; refine ⟨_, _, readU16_append _ _, ?_⟩
  rw [Rd.bind_eq_ok]; refine ⟨_, _, readGroup_wire _ _, ?_⟩
  rw [Rd.bind_eq_ok]; refine ⟨_, _, readBuf16_append hf.1 _, ?_⟩
  rw [Rd.bind_eq_ok]; refine ⟨_, _, readBuf16_append hf.2.1 _, ?_⟩
  exact readEch_wire _ _ _ _ _ hc.1 hc.2 hf.2.2 ⟨rfl, rfl, rfl⟩

theorem beEnc_one (u : UInt8) : beEnc 1 u.toNat = [u] := by simp [beEnc]

theorem writeU8_eq (u : UInt8) : writeU8 u = .ok [u] := by rw [writeU8, beEnc_one]

theorem writeGroup_eq (g : Option UInt16) : writeGroup g = .ok (Spec.cookieGroup g) := by
  cases g <;> rfl

theorem writeEch_eq_ok {s : CookieState} {b} : writeEch s = .ok b ↔
    ((s.echCipherSuite ≠ none → s.echConfigId ≠ none ∧ s.echEnc.length < 2 ^ 16) ∧
      b = Spec.cookieEch s.echCipherSuite s.echConfigId s.echEnc) := by
  unfold writeEch
  cases h : s.echCipherSuite with
  | none => simp [writeU8_eq, Spec.cookieEch, eq_comm]
  | some cs =>
    cases hi : s.echConfigId with
    | none => simp [derefOpt, writeU8, writeU16]
    | some id =>
      simp only [writeU8_eq, writeU16, derefOpt, Res.ok_bind, Res.bind_eq_ok, writeBuf_eq_ok,
        Res.pure_eq, Except.ok.injEq, Spec.cookieEch]
      constructor
      · rintro ⟨_, ⟨h1, rfl⟩, rfl⟩
        exact ⟨fun _ => ⟨by simp, by simpa [Width.bytes] using h1⟩, by simp [vec, Width.bytes]⟩
      · rintro ⟨h1, rfl⟩
        exact ⟨_, ⟨by simpa [Width.bytes] using (h1 (by simp)).2, rfl⟩, by simp [vec, Width.bytes]⟩

/-! ## Theorems -/

/-- C18: `encodeCookie` succeeds exactly when every part fits and the config id is there whenever
the suite is, and then writes this layout. -/
theorem C18_encode_iff (s : CookieState) (e : Bytes) :
    encodeCookieState s = .ok e ↔
      (s.Fits ∧ (s.echCipherSuite ≠ none → s.echConfigId ≠ none) ∧ e = Spec.cookieWire s) := by
  simp only [encodeCookieState, writeU16, writeGroup_eq, Res.ok_bind, Res.bind_eq_ok,
    writeBuf_eq_ok, writeEch_eq_ok, Res.pure_eq, Except.ok.injEq, CookieState.Fits]
  constructor
  · rintro ⟨_, ⟨h1, rfl⟩, _, ⟨h2, rfl⟩, _, ⟨h3, rfl⟩, rfl⟩
    refine ⟨⟨by simpa [Width.bytes] using h1, by simpa [Width.bytes] using h2,
      fun h => (h3 h).2⟩, fun h => (h3 h).1, by simp [Spec.cookieWire, vec, Width.bytes]⟩
  · rintro ⟨⟨h1, h2, h3⟩, h4, rfl⟩
    exact ⟨_, ⟨by simpa [Width.bytes] using h1, rfl⟩, _, ⟨by simpa [Width.bytes] using h2, rfl⟩, _,
      ⟨fun h => ⟨h4 h, h3 h⟩, rfl⟩, by simp [Spec.cookieWire, vec, Width.bytes]⟩

/-- C18: a cookie decodes to the state it was made from, also with bytes behind it. -/
theorem C18_roundtrip (s : CookieState) (hc : s.Consistent) (e junk : Bytes)
    (h : encodeCookieState s = .ok e) : decodeCookieState (e ++ junk) = .ok s := by
  obtain ⟨hf, -, rfl⟩ := (C18_encode_iff s e).1 h
  unfold decodeCookieState
  rw [readCookieState_wire s hc hf]

/-- C18: hence different states have different cookies. -/
theorem C18_injective (s t : CookieState) (hs : s.Consistent) (ht : t.Consistent) (e : Bytes)
    (h1 : encodeCookieState s = .ok e) (h2 : encodeCookieState t = .ok e) : s = t := by
  have a := C18_roundtrip s hs e [] h1
  have b := C18_roundtrip t ht e [] h2
  rw [a] at b
  exact Except.ok.inj b

theorem Truncatable.ite {α} {c : Prop} [Decidable c] {a b : Rd α} (ha : Truncatable a)
    (hb : Truncatable b) : Truncatable (if c then a else b) := by
  split <;> assumption

theorem Truncatable.readCookieState : Truncatable readCookieState := by
  refine .bind .readU16 fun _ => .bind .readU16 fun _ => .bind ?_ fun _ => .bind (.readBuf _)
    fun _ => .bind (.readBuf _) fun _ => ?_
  · exact .bind .readU8 fun _ => .ite (.bind .readU16 fun _ => .pure _) (.pure _)
  · exact .bind .readU8 fun _ => .ite (.bind .readU16 fun _ => .bind .readU16 fun _ =>
      .bind .readU8 fun _ => .bind (.readBuf _) fun _ => .pure _) (.pure _)

/-- C18: a truncated cookie plaintext is rejected with `std::out_of_range`. -/
theorem C18_truncated (s : CookieState) (hc : s.Consistent) (e p x : Bytes)
    (h : encodeCookieState s = .ok e) (hsplit : e = p ++ x) (hx : x ≠ []) :
    decodeCookieState p = .error .outOfRange := by
  obtain ⟨hf, -, rfl⟩ := (C18_encode_iff s e).1 h
  have hr := readCookieState_wire s hc hf []
  rw [List.append_nil, hsplit] at hr
  unfold decodeCookieState
  rcases Truncatable.readCookieState p x _ _ hr with ⟨r', h1, h2⟩ | h1
  · exact absurd (List.append_eq_nil_iff.mp h2.symm).2 hx
  · rw [h1]

/-! ## From the retry to the second ClientHello -/

theorem getCookieState_facts {ctx chlo orig appToken s}
    (h : getCookieState ctx chlo orig appToken = .ok s) :
    s.appToken = appToken ∧ ctx.transcriptHash s.cipher orig = .ok s.chloHash ∧ s.Consistent := by
  simp only [getCookieState, Res.bind_eq_ok] at h
  obtain ⟨ov, -, h⟩ := h
  cases ov with
  | none => cases h
  | some v =>
    simp only at h
    cases hv : negotiateFlat ctx.supportedVersions v.versions with
    | none => rw [hv] at h; cases h
    | some version =>
      rw [hv] at h
      simp only at h
      cases hcs : negotiateTiers ctx.supportedCiphers chlo.cipher_suites with
      | none => rw [hcs] at h; cases h
      | some cipher =>
        rw [hcs] at h
        simp only [Res.bind_eq_ok] at h
        obtain ⟨g, -, ch, h1, h⟩ := h
        cases h
        exact ⟨rfl, h1, by simp [CookieState.Consistent]⟩

/-- What the state in a retry cookie must be for a ClientHello: version and cipher are negotiated from
it, and a group is asked for exactly if the server's most preferred common group is one the client sent
no share for. -/
structure Spec.StateFor (ctx : CookieContext) (chlo : ClientHello) (s : CookieState) : Prop where
  version : ∃ vs, getSupportedVersions chlo.extensions = .ok (some vs) ∧
    FirstIn ctx.supportedVersions (· ∈ vs.versions) s.version
  cipher : negotiateTiers ctx.supportedCiphers chlo.cipher_suites = some s.cipher
  group : ∀ g, s.group = some g ↔
    ∃ groups shares, getSupportedGroups chlo.extensions = .ok (some groups) ∧
      FirstIn ctx.supportedGroups (· ∈ groups.named_group_list) g ∧
      getClientKeyShare chlo.extensions = .ok (some shares) ∧
      ∀ share ∈ shares.client_shares, share.group ≠ g
  noEch : s.echCipherSuite = none ∧ s.echConfigId = none ∧ s.echEnc = []

theorem getHrrGroup_iff {sg chlo r} (h : getHrrGroup sg chlo = .ok r) (g : UInt16) :
    r = some g ↔ ∃ groups shares, getSupportedGroups chlo.extensions = .ok (some groups) ∧
      FirstIn sg (· ∈ groups.named_group_list) g ∧
      getClientKeyShare chlo.extensions = .ok (some shares) ∧
      ∀ share ∈ shares.client_shares, share.group ≠ g := by
  simp only [getHrrGroup, Res.bind_eq_ok] at h
  obtain ⟨og, h1, h⟩ := h
  cases og with
  | none => cases h; simp [h1]
  | some groups =>
    simp only at h
    have hfl := (C14_flat sg groups.named_group_list).1
    cases hn : negotiateFlat sg groups.named_group_list with
    | none =>
      rw [hn] at h hfl; cases h
      simp only [h1, Except.ok.injEq, Option.some.injEq, ← hfl]
      constructor
      · rintro ⟨⟩
      · rintro ⟨_, _, rfl, h, -⟩
        rw [← hfl] at h; cases h
    | some neg =>
      rw [hn] at h hfl
      simp only [Res.bind_eq_ok] at h
      obtain ⟨os, h2, h⟩ := h
      cases os with
      | none => cases h
      | some shares =>
        simp only at h
        have hu : ∀ g, FirstIn sg (· ∈ groups.named_group_list) g ↔ neg = g := fun g => by
          rw [← hfl g, Option.some.injEq]
        split_ifs at h with hc
        · cases h
          simp only [h1, h2, Except.ok.injEq, Option.some.injEq]
          constructor
          · rintro ⟨⟩
          · rintro ⟨_, _, rfl, hg, rfl, hall⟩
            rw [hu] at hg; subst hg
            obtain ⟨x, hx, hxe⟩ := List.any_eq_true.1 hc
            exact absurd (by simpa using hxe) (hall x hx)
        · cases h
          simp only [h1, h2, Except.ok.injEq, Option.some.injEq]
          constructor
          · rintro rfl
            refine ⟨_, _, rfl, (hu _).2 rfl, rfl, fun x hx he => hc ?_⟩
            exact List.any_eq_true.2 ⟨x, hx, by simpa using he⟩
          · rintro ⟨_, _, rfl, hg, rfl, -⟩
            exact (hu g).1 hg

/-- C18: the state put into a retry cookie is the one the ClientHello calls for. -/
theorem C18_state {ctx chlo orig appToken s} (h : getCookieState ctx chlo orig appToken = .ok s) :
    Spec.StateFor ctx chlo s ∧ s.appToken = appToken ∧
      ctx.transcriptHash s.cipher orig = .ok s.chloHash := by
  have hf := getCookieState_facts h
  refine ⟨?_, hf.1, hf.2.1⟩
  simp only [getCookieState, Res.bind_eq_ok] at h
  obtain ⟨ov, h0, h⟩ := h
  cases ov with
  | none => cases h
  | some v =>
    simp only at h
    cases hv : negotiateFlat ctx.supportedVersions v.versions with
    | none => rw [hv] at h; cases h
    | some version =>
      rw [hv] at h
      simp only at h
      cases hcs : negotiateTiers ctx.supportedCiphers chlo.cipher_suites with
      | none => rw [hcs] at h; cases h
      | some cipher =>
        rw [hcs] at h
        simp only [Res.bind_eq_ok] at h
        obtain ⟨g, hg, ch, h1, h⟩ := h
        cases h
        exact ⟨⟨v, h0, ((C14_flat _ _).1 _).1 hv⟩, hcs, getHrrGroup_iff hg, rfl, rfl, rfl⟩

theorem getStatelessHelloRetryRequest_facts {version cipher group cookie msg}
    (h : getStatelessHelloRetryRequest version cipher group cookie = .ok msg) :
    ∃ hrr, encodeHandshake (.helloRetryRequest hrr) = .ok msg ∧ hrr.cipher_suite = cipher ∧
      getServerSupportedVersions hrr.extensions = .ok (some ⟨version⟩) ∧
      getHelloRetryRequestKeyShare hrr.extensions = .ok (group.map fun g => ⟨g⟩) ∧
      getCookie hrr.extensions = .ok (some ⟨cookie⟩) := by
  unfold getStatelessHelloRetryRequest at h
  cases group with
  | none =>
    simp only [Res.bind_eq_ok, Res.pure_eq, Except.ok.injEq] at h
    obtain ⟨e1, h1, _, rfl, e3, h3, h⟩ := h
    have t1 := ((C03_serverSupportedVersions _).1 _ |>.1 h1).2
    have t3 := ((C03_cookie _).1 _ |>.1 h3).2
    refine ⟨_, h, rfl, ?_, ?_, ?_⟩
    · exact ((C03_serverSupportedVersions _).2.1 _).2 ⟨e1, [], [e3], h1, rfl, by simp⟩
    · refine ((C03_helloRetryRequestKeyShare ⟨0⟩).2.2 _).2 ?_
      subst t1 t3
      simp [Spec.serverSupportedVersionsWire, Codec.Spec.cookieWire]
    · refine ((C03_cookie _).2.1 _).2 ⟨e3, [e1], [], h3, rfl, ?_⟩
      subst t1
      simp [Spec.serverSupportedVersionsWire]
  | some g =>
    simp only [Res.bind_eq_ok, Res.pure_eq, Except.ok.injEq] at h
    obtain ⟨e1, h1, e2, h2, _, rfl, e3, h3, h⟩ := h
    have t1 := ((C03_serverSupportedVersions _).1 _ |>.1 h1).2
    have t2 := ((C03_helloRetryRequestKeyShare _).1 _ |>.1 h2).2
    refine ⟨_, h, rfl, ?_, ?_, ?_⟩
    · exact ((C03_serverSupportedVersions _).2.1 _).2 ⟨e1, [], [e2, e3], h1, rfl, by simp⟩
    · refine ((C03_helloRetryRequestKeyShare _).2.1 _).2 ⟨e2, [e1], [e3], h2, rfl, ?_⟩
      subst t1
      simp [Spec.serverSupportedVersionsWire]
    · refine ((C03_cookie _).2.1 _).2 ⟨e3, [e1, e2], [], h3, rfl, ?_⟩
      subst t1 t2
      simp [Spec.serverSupportedVersionsWire, Spec.helloRetryRequestKeyShareWire]

/-- C18: a retry issued by `getTokenOrRetry` is the HelloRetryRequest for a state that records the
negotiated parameters, the hash of this ClientHello and the app token; its cookie extension holds
that state encrypted.  Any server whose secrets in force contain the issuing secret gets exactly
that state back from the cookie, recomputes exactly the HelloRetryRequest that was issued, and
answers every ClientHello carrying the cookie with the app token.  (`hno`: no newer secret accepts
the cookie by accident.) -/
theorem C18_end_to_end (A : TokenAlg) (ok : A.Ok) (ctxs : List Bytes)
    (issuerCalls readerCalls : List (List Bytes)) (first : Bytes) (others newer older : List Bytes)
    (hi : Spec.installed issuerCalls [] = first :: others)
    (hr : Spec.installed readerCalls [] = newer ++ first :: older)
    (hu : ∀ s ∈ newer ++ first :: older, UsableSecret A ctxs s)
    (issuer reader : TokenCipher)
    (hissuer : (TokenCipher.make ctxs).afterCalls A issuerCalls = .ok issuer)
    (hreader : (TokenCipher.make ctxs).afterCalls A readerCalls = .ok reader)
    (ctx ctx2 : CookieContext) (salt : Bytes) (hsalt : salt.length = A.hash.hashLen)
    (buf1 appToken data : Bytes)
    (h : getTokenOrRetry A issuer ctx salt buf1 appToken = .ok (.retry data)) :
    ∃ chlo orig st lyr state cookie hrr msg,
      Record.readEvent ⟨.plain {}, []⟩ buf1 = .done (.handshake (.clientHello chlo) orig) st lyr ∧
      Spec.StateFor ctx chlo state ∧
      state.appToken = appToken ∧ ctx.transcriptHash state.cipher orig = .ok state.chloHash ∧
      encodeHandshake (.helloRetryRequest hrr) = .ok msg ∧
      Record.plainWrite ⟨Record.ContentType.handshake, msg⟩ = .ok data ∧
      hrr.cipher_suite = state.cipher ∧
      getServerSupportedVersions hrr.extensions = .ok (some ⟨state.version⟩) ∧
      getHelloRetryRequestKeyShare hrr.extensions = .ok (state.group.map fun g => ⟨g⟩) ∧
      getCookie hrr.extensions = .ok (some ⟨cookie⟩) ∧
      ((∀ s ∈ newer, Spec.contextual A.hash.spec ctxs s ≠ Spec.contextual A.hash.spec ctxs first →
          A.tryOpen (Spec.aeadKey A A.hash.spec (Spec.contextual A.hash.spec ctxs s) salt)
            (Spec.aeadIv A A.hash.spec (Spec.contextual A.hash.spec ctxs s) salt) 0 none
            (cookie.drop (A.hash.hashLen + 4)) = none) →
        cookieDecrypt A reader cookie = .ok (some state) ∧
        getStatelessHelloRetryRequest state.version state.cipher state.group cookie = .ok msg ∧
        ∀ (buf2 salt2 appToken2 : Bytes) chlo2 orig2 st2 lyr2,
          Record.readEvent ⟨.plain {}, []⟩ buf2 =
            .done (.handshake (.clientHello chlo2) orig2) st2 lyr2 →
          getCookie chlo2.extensions = .ok (some ⟨cookie⟩) →
          getTokenOrRetry A reader ctx2 salt2 buf2 appToken2 = .ok (.token appToken)) := by
  unfold getTokenOrRetry at h
  cases hev : Record.readEvent ⟨.plain {}, []⟩ buf1 with
  | fail f => rw [hev] at h; cases h
  | needMore _ _ _ => rw [hev] at h; cases h
  | again _ _ => rw [hev] at h; cases h
  | done ev st lyr =>
    rw [hev] at h
    cases ev
    case handshake hs orig => cases hs with
      | clientHello chlo =>
        simp only [Res.bind_eq_ok] at h
        obtain ⟨oc, -, h⟩ := h
        cases oc with
        | some c =>
          simp only [Res.bind_eq_ok] at h
          obtain ⟨os, -, h⟩ := h
          cases os <;> cases h
        | none =>
          simp only [Res.bind_eq_ok] at h
          obtain ⟨d, hd, h⟩ := h
          simp only [Res.pure_eq, Except.ok.injEq, TokenOrRetry.retry.injEq] at h
          subst h
          simp only [getStatelessResponse, Res.bind_eq_ok] at hd
          obtain ⟨state, hst, encoded, henc, ot, htok, hd⟩ := hd
          cases ot with
          | none => cases hd
          | some cookie =>
            simp only [Res.bind_eq_ok] at hd
            obtain ⟨msg, hmsg, hd⟩ := hd
            obtain ⟨htoken, hhash, hcons⟩ := getCookieState_facts hst
            obtain ⟨hrr, f1, f2, f3, f4, f5⟩ := getStatelessHelloRetryRequest_facts hmsg
            refine ⟨chlo, orig, st, lyr, state, cookie, hrr, msg, rfl, (C18_state hst).1, htoken, hhash, f1, hd, f2,
              f3, f4, f5, ?_⟩
            intro hno
            obtain ⟨i', r', tok', k1, k2, k3, k4⟩ := C16_rotation A ok ctxs issuerCalls readerCalls
              first others newer older hi hr hu salt encoded hsalt none
            rw [hissuer] at k1; cases k1
            rw [hreader] at k2; cases k2
            rw [htok] at k3; cases k3
            have hdec : cookieDecrypt A reader cookie = .ok (some state) := by
              unfold cookieDecrypt
              rw [k4 hno]
              have := C18_roundtrip state hcons encoded [] henc
              rw [List.append_nil] at this
              simp only [Res.ok_bind, this]
              rfl
            refine ⟨hdec, hmsg, ?_⟩
            intro buf2 salt2 appToken2 chlo2 orig2 st2 lyr2 he hc
            unfold getTokenOrRetry
            rw [he]
            simp only [hc, Res.ok_bind, hdec, htoken]
            rfl
      | _ => cases h
    all_goals cases h

/-! ## Concrete cases -/

/-- A state with every field present. -/
def sampleCookieState : CookieState where
  version := 0x0304
  cipher := 0x1301
  group := some 29
  chloHash := [1, 2, 3]
  appToken := [4]
  echCipherSuite := some ⟨1, 2⟩
  echConfigId := some 7
  echEnc := [8, 8]

example : sampleCookieState.Consistent := by
  simp [CookieState.Consistent, sampleCookieState]

example : ∃ e, encodeCookieState sampleCookieState = .ok e ∧ e.length = 25 ∧
    decodeCookieState e = .ok sampleCookieState ∧
    decodeCookieState (e.take 20) = .error .outOfRange := by
  refine ⟨_, rfl, ?_, ?_, ?_⟩ <;> decide

/-- A ClientHello without key share for the server's group. -/
def sampleChlo (cookie : List Extension) : ClientHello where
  random := ⟨List.replicate 32 5, rfl⟩
  legacy_session_id := []
  cipher_suites := [0x1302, 0x1301]
  legacy_compression_methods := [0]
  extensions := [⟨43, [2, 3, 4]⟩, ⟨10, [0, 4, 0, 23, 0, 29]⟩, ⟨51, [0, 0]⟩] ++ cookie

/-- Its record. -/
def sampleChloRecord (cookie : List Extension) : Bytes :=
  match encodeHandshake (.clientHello (sampleChlo cookie)) with
  | .ok m => (Record.plainWrite ⟨Record.ContentType.handshake, m⟩).toOption.getD []
  | .error _ => []

/-- A server context. -/
def sampleCookieContext : CookieContext where
  supportedVersions := [0x0304]
  supportedCiphers := [[0x1301]]
  supportedGroups := [29]
  transcriptHash := fun _ b => .ok (b.take 2)

set_option maxRecDepth 100000 in
/-- The hypotheses of `C18_end_to_end` are met: a retry is issued, and after rotating the secrets a
ClientHello with the cookie is answered with the token. -/
example :
    let k1 : Bytes := List.replicate 32 1
    let k2 : Bytes := List.replicate 33 2
    ∃ issuer reader cookie,
      (TokenCipher.make [[9]]).afterCalls toyTokenAlg [[k1]] = .ok issuer ∧
      (TokenCipher.make [[9]]).afterCalls toyTokenAlg [[k2, k1]] = .ok reader ∧
      (match getTokenOrRetry toyTokenAlg issuer sampleCookieContext [7, 7] (sampleChloRecord [])
          [42] with
        | .ok (.retry data) => data.length
        | _ => 0) > 80 ∧
      issuer.encrypt toyTokenAlg [7, 7] ([3, 4, 0x13, 1, 1, 0, 29, 0, 2, 1, 0, 0, 1, 42, 0]) none =
        .ok (some cookie) ∧
      getTokenOrRetry toyTokenAlg reader sampleCookieContext [1, 1]
        (sampleChloRecord [⟨44, beEnc 2 cookie.length ++ cookie⟩]) [] = .ok (.token [42]) := by
  refine ⟨_, _, _, rfl, rfl, ?_, rfl, ?_⟩
  · decide +kernel
  · decide +kernel

end Fizz.Ticket
