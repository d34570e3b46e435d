import Verif.Alerts.ServerSpec
import Verif.Alerts.Basic
import Verif.Codec.ExtProps

/-!
# The alerts of a server tell the truth
-/

namespace Fizz.Alerts
open Fizz.Codec Fizz.Crypto Fizz.Server Fizz.Alerts.Spec
open Fizz.Ticket (CookieState ResumptionState)

/-- What is to be shown of a failure. -/
def Explained (E : Failure → Prop) (R : UInt8 → Prop) (f : Failure) : Prop :=
  named f = none ∨ E f ∨ ∃ a, named f = some a ∧ R a

theorem Explained.quiet {E R} {f : Failure} (h : named f = none) : Explained E R f := .inl h
theorem Explained.reason {E R} {m : String} {a : UInt8} (h : R a) : Explained E R (Failure.fizz m (some a)) :=
  .inr (.inr ⟨a, rfl, h⟩)
theorem Only.quiet {α} {E R} {x : Res α} (h : Quiet x) : Only (Explained E R) x := h.mono fun _ => .inl
theorem Only.supplied {α} {E R} {x : Res α} (h : ∀ f, x = .error f → E f) : Only (Explained E R) x :=
  ⟨fun f hf => .inr (.inl (h f hf))⟩

theorem lacks_of {α} {type : UInt16} {rd : Rd α} {exts : List Extension}
    (h : getExtension type rd exts = .ok none) : Lacks exts type := (getExtension_none).mp h

theorem has_of {α} {type : UInt16} {rd : Rd α} {exts : List Extension} {x : α}
    (h : getExtension type rd exts = .ok (some x)) : ¬ Lacks exts type := by
  intro hl
  have := (getExtension_none (rd := rd)).mpr hl
  rw [h] at this
  cases this

theorem flat_none {server client : List UInt16} (h : Negotiate.negotiateFlat server client = none) :
    Spec.Disjoint server client := by
  intro x hx hc
  simp only [Negotiate.negotiateFlat, List.find?_eq_none, decide_eq_true_eq] at h
  exact h x hx hc

theorem flat_none' {α} [DecidableEq α] {server client : List α} (h : Negotiate.negotiateFlat server client = none) :
    Spec.Disjoint server client := by
  intro x hx hc
  simp only [Negotiate.negotiateFlat, List.find?_eq_none, decide_eq_true_eq] at h
  exact h x hx hc

theorem flat_some {α} [DecidableEq α] {server client : List α} {x : α} (h : Negotiate.negotiateFlat server client = some x) :
    x ∈ server ∧ x ∈ client := by
  unfold Negotiate.negotiateFlat at h
  exact ⟨List.mem_of_find?_eq_some h, by simpa using List.find?_some h⟩

theorem tiers_none {server : List (List UInt16)} {client : List UInt16}
    (h : Negotiate.negotiateTiers server client = none) : ∀ tier ∈ server, Spec.Disjoint tier client := by
  intro t ht x hx hc
  obtain ⟨v, hv⟩ := (Negotiate.C14_tiers_complete server client).mpr ⟨t, ht, x, hx, hc⟩
  rw [h] at hv
  cases hv

variable {cfg : Cfg} {inp : Inp} {s : St} {unparsed : Bool} {hello : ClientHello} {orig : Bytes}

local notation "OK" => Only (Explained (HelloSupplied cfg inp hello) (HelloReason cfg inp s unparsed hello orig))

theorem why_cookie : OK (getCookieState cfg inp hello) := by
  refine Only.bind (Only.quiet (quiet_getCookie _)) fun o ho => ?_
  cases o with
  | none => exact Only.pure _
  | some x =>
    refine Only.bind (Only.check fun hc => .reason (.unsupported_extension (has_of ho) hc)) fun _ _ => ?_
    refine Only.bind (Only.supplied fun f => .cookie _ f) fun o hd => ?_
    cases o with
    | none => exact Only.error (.reason (.decrypt_error x ho hd))
    | some c =>
      refine Only.bind (Only.check fun hc => .reason (.half_cookie c ⟨x, ho, hd⟩ ?_)) fun _ _ => Only.pure _
      intro h
      rw [h] at hc
      simp at hc

theorem cookie_has {c : CookieState} (h : getCookieState cfg inp hello = .ok (some c)) : HasCookie inp hello c := by
  simp only [getCookieState, Res.bind_eq_ok] at h
  obtain ⟨o, ho, h⟩ := h
  cases o with
  | none => cases h
  | some x =>
    simp only [Res.bind_eq_ok] at h
    obtain ⟨_, _, o, hd, h⟩ := h
    cases o with
    | none => cases h
    | some c' =>
      simp only [Res.bind_eq_ok] at h
      obtain ⟨_, _, h⟩ := h
      cases h
      exact ⟨x, ho, hd⟩

theorem why_sni (c) : OK (getSni c) := by
  refine Only.bind (Only.quiet (quiet_getServerNameList _)) fun o _ => ?_
  cases o <;> exact Only.pure _

theorem why_hrrChecked {cookie : Option CookieState} {e : OuterEch}
    (hc : ∀ c, cookie = some c → HasCookie inp hello c)
    (he : cfg.getOuterEch hello.extensions = .ok (some e)) :
    OK (processEchHrrChecked inp cookie s hello orig (some e)) := by
  unfold processEchHrrChecked
  split
  · refine Only.bind (Only.quiet (quiet_deref _)) fun st hst => ?_
    have hst : s.echState = some st := by
      cases h : s.echState with
      | none => rw [h] at hst; cases hst
      | some x => rw [h] at hst; cases hst; rfl
    refine Only.bind (Only.ok _) fun e' he' => ?_
    cases he'
    refine Only.bind (Only.check fun h => .reason (.ech_changed e he (.inr (.inl ⟨st, hst, .inl (by simpa using h)⟩)))) fun _ _ => ?_
    refine Only.bind (Only.check fun h => .reason (.ech_changed e he (.inr (.inl ⟨st, hst, .inr (by simpa using h)⟩)))) fun _ _ => ?_
    exact Only.bind (Only.supplied fun f => .echHrr _ f) fun _ _ => Only.pure _
  · cases cookie with
    | none => exact Only.pure _
    | some ck =>
      dsimp only
      cases hs : ck.echCipherSuite with
      | none => exact Only.pure _
      | some suite =>
        dsimp only
        refine Only.bind (Only.ok _) fun e' he' => ?_
        cases he'
        refine Only.bind (Only.check fun h => .reason (.ech_changed e he (.inr (.inr ⟨ck, hc ck rfl, .inl ?_⟩)))) fun _ _ => ?_
        · rw [hs]; simpa using h
        refine Only.bind (Only.quiet (quiet_deref _)) fun id hid => ?_
        refine Only.bind (Only.check fun h => .reason (.ech_changed e he (.inr (.inr ⟨ck, hc ck rfl, .inr ?_⟩)))) fun _ _ => ?_
        · intro hx
          rw [hx] at hid
          cases hid
          simp at h
        exact Only.bind (Only.supplied fun f => .echHrr _ f) fun _ _ => Only.pure _

theorem why_hrr {cookie : Option CookieState} (hc : ∀ c, cookie = some c → HasCookie inp hello c) :
    OK (processEchHrr cfg inp cookie s hello orig) := by
  refine Only.bind (Only.supplied fun f => .outer _ f) fun o ho => ?_
  dsimp only
  revert hc
  generalize hb : (decide (s.echStatus = .accepted) || (match cookie with
      | some c => c.echCipherSuite.isSome | none => false)) = b
  intro hc
  cases b with
  | true =>
    have hr : s.echStatus = .accepted ∨ ∃ c, HasCookie inp hello c ∧ c.echCipherSuite.isSome := by
      simp only [Bool.or_eq_true, decide_eq_true_eq] at hb
      rcases hb with h | h
      · exact .inl h
      · cases cookie with
        | none => cases h
        | some c => exact .inr ⟨c, hc c rfl, h⟩
    refine Only.bind (Only.check fun hd => .reason (.no_decrypter hr hd)) fun _ _ => ?_
    cases o with
    | none => exact Only.error (.reason (.ech_missing ho hr))
    | some e =>
      refine Only.bind (Only.check fun hd => .reason (.ech_changed e ho (.inl ?_))) fun _ _ => why_hrrChecked hc ho
      rw [ne_eq, ← List.isEmpty_iff, hd]
      simp
  | false =>
    cases o with
    | some e => exact why_hrrChecked hc ho
    | none =>
      rw [if_neg (by simp)]
      unfold processEchHrrChecked
      simp only [Bool.or_eq_false_iff, decide_eq_false_iff_not] at hb
      rw [if_neg hb.1]
      cases cookie with
      | none => exact Only.pure _
      | some ck =>
        dsimp only at hb ⊢
        cases hs : ck.echCipherSuite with
        | none => exact Only.pure _
        | some suite => rw [hs] at hb; exact absurd hb.2 (by simp)

/-! ## The hello in use -/

theorem checked_used {cookie : Option CookieState} {ech st id c o}
    (h : processEchHrrChecked inp cookie s hello orig ech = .ok (st, id, c, o)) : UsedAs inp hello orig c o := by
  unfold processEchHrrChecked at h
  split at h
  · simp only [Res.bind_eq_ok] at h
    obtain ⟨st, _, e, _, _, _, _, _, ⟨c', o'⟩, hd, h⟩ := h
    cases h
    exact .inr (.inr ⟨_, hd⟩)
  · cases cookie with
    | none => cases h; exact .inl ⟨rfl, rfl⟩
    | some ck =>
      dsimp only at h
      cases hs : ck.echCipherSuite with
      | none => rw [hs] at h; cases h; exact .inl ⟨rfl, rfl⟩
      | some suite =>
        rw [hs] at h
        simp only [Res.bind_eq_ok] at h
        obtain ⟨st, _, e, _, _, _, _, _, ⟨c', o'⟩, hd, h⟩ := h
        cases h
        exact .inr (.inr ⟨_, hd⟩)

theorem hrr_used {cookie : Option CookieState} {st id c o}
    (h : processEchHrr cfg inp cookie s hello orig = .ok (st, id, c, o)) : UsedAs inp hello orig c o := by
  unfold processEchHrr at h
  rw [Res.bind_eq_ok] at h
  obtain ⟨e, _, h⟩ := h
  dsimp only at h
  split at h
  · split at h
    · rw [Res.bind_eq_ok] at h
      obtain ⟨_, _, h⟩ := h
      cases e with
      | none => cases h
      | some e =>
        dsimp only at h
        rw [Res.bind_eq_ok] at h
        obtain ⟨_, _, h⟩ := h
        exact checked_used h
    · exact checked_used h
  · split at h
    · rw [Res.bind_eq_ok] at h
      obtain ⟨_, _, h⟩ := h
      cases e with
      | none => cases h
      | some e =>
        dsimp only at h
        rw [Res.bind_eq_ok] at h
        obtain ⟨_, _, h⟩ := h
        exact checked_used h
    · exact checked_used h

theorem first_used {h : Hello} (hh : processEchFirst cfg inp s hello orig = .ok h) :
    UsedAs inp hello orig h.chlo h.orig := by
  unfold processEchFirst at hh
  cases hf : findExtension hello.extensions 0xfe0d with
  | none => rw [hf] at hh; cases hh; exact .inl ⟨rfl, rfl⟩
  | some x =>
    rw [hf] at hh
    simp only [Res.bind_eq_ok] at hh
    obtain ⟨e, _, e', _, sni, _, hh⟩ := hh
    split at hh
    · rw [Res.bind_eq_ok] at hh
      obtain ⟨r, hd, hh⟩ := hh
      cases r with
      | none => cases hh; exact .inl ⟨rfl, rfl⟩
      | some r => obtain ⟨c, o, ctx⟩ := r; cases hh; exact .inr (.inl ⟨_, hd⟩)
    · cases hh; exact .inl ⟨rfl, rfl⟩

theorem any_used {cookie : Option CookieState} {h : Hello}
    (hh : processEchAny cfg inp cookie s hello orig = .ok h) : UsedAs inp hello orig h.chlo h.orig := by
  unfold processEchAny at hh
  split at hh
  · unfold processEchRetry at hh
    rw [Res.bind_eq_ok] at hh
    obtain ⟨⟨st, id, c, o⟩, he, hh⟩ := hh
    cases hh
    exact hrr_used he
  · exact first_used hh

theorem ech_used {cookie : Option CookieState} {h : Hello}
    (hh : processEch cfg inp cookie s hello orig = .ok h) : UsedAs inp hello orig h.chlo h.orig := by
  unfold processEch at hh
  rw [Res.bind_eq_ok] at hh
  obtain ⟨h', he, hh⟩ := hh
  split at hh
  · rw [Res.bind_eq_ok] at hh
    obtain ⟨o, _, hh⟩ := hh
    cases o with
    | none => cases hh
    | some u => cases hh; exact any_used he
  · cases hh; exact any_used he

theorem used_of {c b} (h : UsedAs inp hello orig c b) : Used inp hello c := by
  rcases h with h | ⟨ctx, h⟩ | ⟨k, h⟩
  · exact .inl h.1
  · exact .inr (.inl ⟨_, ctx, h⟩)
  · exact .inr (.inr ⟨k, _, h⟩)

theorem why_ech {cookie : Option CookieState} (hc : ∀ c, cookie = some c → HasCookie inp hello c) :
    OK (processEch cfg inp cookie s hello orig) := by
  refine Only.bind ?_ fun h hh => ?_
  · unfold processEchAny
    split
    · exact Only.bind (why_hrr hc) fun _ _ => Only.pure _
    · unfold processEchFirst
      split
      · exact Only.pure _
      · refine Only.bind (Only.supplied fun f => .outer _ f) fun o _ => Only.bind (Only.quiet (quiet_deref _)) fun e _ =>
          Only.bind (why_sni _) fun _ _ => ?_
        dsimp only
        split
        · refine Only.bind (Only.supplied fun f => .ech f) fun r _ => ?_
          split <;> exact Only.pure _
        · exact Only.pure _
  · split
    · refine Only.bind (Only.supplied fun f => .inner _ f) fun o ho => ?_
      cases o with
      | none => exact Only.error (.reason (.missing _ (used_of (any_used hh)) (.inr (.inr (.inr (.inr ho))))))
      | some u => exact Only.pure _
    · exact Only.pure _

/-! ## Versions, cipher suites, tickets -/

theorem version_of {c : ClientHello} {v : Option UInt16} (h : negotiateVersion cfg c = .ok v) :
    (v = none ∧ Lacks c.extensions 43) ∨ ∃ l, getSupportedVersions c.extensions = .ok (some l) ∧
      v = Negotiate.negotiateFlat cfg.supportedVersions l.versions := by
  unfold negotiateVersion at h
  rw [Res.bind_eq_ok] at h
  obtain ⟨o, ho, h⟩ := h
  cases o with
  | none => cases h; exact .inl ⟨rfl, lacks_of ho⟩
  | some l => cases h; exact .inr ⟨l, ho, rfl⟩

theorem why_negotiateVersion (c) : OK (negotiateVersion cfg c) := by
  refine Only.bind (Only.quiet (quiet_getSupportedVersions _)) fun o _ => ?_
  cases o <;> exact Only.pure _

theorem why_noVersion {h : Hello} (hu : Used inp hello h.chlo) (hv : negotiateVersion cfg h.chlo = .ok none) :
    OK (noVersion cfg h) := by
  have hl : Lacks h.chlo.extensions 43 ∨
      ∃ l, getSupportedVersions h.chlo.extensions = .ok (some l) ∧ Spec.Disjoint cfg.supportedVersions l.versions := by
    rcases version_of hv with h | ⟨l, hl, h⟩
    · exact .inl h.2
    · exact .inr ⟨l, hl, flat_none h.symm⟩
  refine Only.bind (Only.quiet (quiet_getClientEarlyData _)) fun o ho => ?_
  refine Only.bind (Only.check fun h => .reason (.protocol_version _ hu hl (.inr ?_))) fun _ _ => ?_
  · cases o with
    | none => cases h
    | some x => exact has_of ho
  · cases hf : cfg.versionFallbackEnabled with
    | true => exact Only.bind (why_sni _) fun _ _ => Only.pure _
    | false => exact Only.error (.reason (.protocol_version _ hu hl (.inl hf)))

theorem why_cipher {c} (hu : Used inp hello c) : OK (negotiateCipher cfg c) := by
  unfold negotiateCipher
  cases h : Negotiate.negotiateTiers cfg.supportedCiphers c.cipher_suites with
  | none =>
    refine Only.error (.reason (.no_cipher c hu fun tier ht x hx hc => ?_))
    exact tiers_none h tier ht x hx hc
  | some v => exact Only.ok _

theorem cipher_of {c v} (h : negotiateCipher cfg c = .ok v) :
    Negotiate.negotiateTiers cfg.supportedCiphers c.cipher_suites = some v := by
  unfold negotiateCipher at h
  split at h
  · cases h
  · next h' => cases h; exact h'

theorem why_resumption {c} (hu : Used inp hello c) : OK (getResumptionState cfg inp c) := by
  refine Only.bind (Only.quiet (quiet_getClientPresharedKey _)) fun o ho => ?_
  refine Only.bind (Only.quiet (quiet_getPskKeyExchangeModes _)) fun m hm => ?_
  refine Only.bind (Only.check fun h => .reason (.missing c hu (.inl ?_))) fun _ _ => ?_
  · cases o with
    | none => simp at h
    | some p =>
      cases m with
      | some m => simp at h
      | none => exact ⟨has_of ho, lacks_of hm⟩
  · cases o with
    | none => dsimp only; split <;> exact Only.pure _
    | some p =>
      dsimp only
      split
      · exact Only.pure _
      · split
        · exact Only.pure _
        · split
          · exact Only.pure _
          · exact Only.bind (Only.supplied fun f => .ticket _ f) fun _ _ => Only.pure _

theorem why_replay (c v) : OK (getReplayCacheResult cfg inp c v) := by
  refine Only.bind (Only.quiet (quiet_getClientEarlyData _)) fun o _ => ?_
  split
  · exact Only.pure _
  · exact Only.supplied fun f => .replay _ f

/-- What the second part knows. -/
structure Known (cfg : Cfg) (inp : Inp) (s : St) (hello : ClientHello) (orig : Bytes) (p : Part1) : Prop where
  used : UsedAs inp hello orig p.hello.chlo p.hello.orig
  cookie : getCookieState cfg inp hello = .ok p.cookie
  both : s.hs = none ∨ p.cookie = none
  cipher : Negotiate.negotiateTiers cfg.supportedCiphers p.hello.chlo.cipher_suites = some p.cipher
  res : getResumptionState cfg inp p.hello.chlo = .ok p.res

theorem Known.has {p : Part1} (k : Known cfg inp s hello orig p) {c} (h : p.cookie = some c) : HasCookie inp hello c :=
  cookie_has (h ▸ k.cookie)

theorem why_part1Negotiated {cookie : Option CookieState} {h : Hello} {v} (hc : ∀ c, cookie = some c → HasCookie inp hello c)
    (hu : Used inp hello h.chlo) (hv : negotiateVersion cfg h.chlo = .ok (some v)) :
    OK (part1Negotiated cfg inp s cookie h v) := by
  have hl : ∃ l, getSupportedVersions h.chlo.extensions = .ok (some l) ∧
      some v = Negotiate.negotiateFlat cfg.supportedVersions l.versions := by
    rcases version_of hv with h | h
    · cases h.1
    · exact h
  obtain ⟨l, hl, hlv⟩ := hl
  refine Only.bind (Only.quiet (quiet_derefPtr _)) fun _ _ => Only.bind ?_ fun _ _ =>
    Only.bind (why_cipher hu) fun cipher hci => Only.bind (Only.check fun h => .reason ?_) fun _ _ =>
    Only.bind ?_ fun _ _ => Only.bind (why_resumption hu) fun _ _ => Only.bind (why_replay _ _) fun _ _ => Only.pure _
  · refine Only.bind (Only.check fun h => .reason (.compression _ hu (by simpa using h))) fun _ _ =>
      Only.check fun h => .reason (.duplicate _ hu (by simpa using h))
  · cases hs : s.cipher with
    | none => simp [hs] at h
    | some c =>
      refine .cipher_changed c hs _ hu ?_
      rw [cipher_of hci]
      intro he
      cases he
      simp [hs] at h
  · cases cookie with
    | none => exact Only.ok _
    | some ck =>
      refine Only.bind (Only.check fun h => .reason (.cookie_version ck (hc ck rfl) _ hu l hl ?_)) fun _ _ =>
        Only.check fun h => .reason (.cookie_cipher ck (hc ck rfl) _ hu ?_)
      · rw [← hlv]
        intro he
        cases he
        simp at h
      · rw [cipher_of hci]
        intro he
        cases he
        simp at h

theorem why_part1 : OK (part1 cfg inp s unparsed hello orig) := by
  refine Only.bind why_cookie fun cookie hck => ?_
  have hc : ∀ c, cookie = some c → HasCookie inp hello c := fun c h => cookie_has (h ▸ hck)
  refine Only.bind (Only.check fun h => ?_) fun _ _ => Only.bind (why_ech hc) fun h hh => ?_
  · cases cookie with
    | none => simp at h
    | some ck => exact .reason (.cookie_and_state ck (hc ck rfl) (by simpa using h))
  have hu := used_of (ech_used hh)
  refine Only.bind (Only.check fun h => .reason (.unexpected_message (by simpa using h))) fun _ _ =>
    Only.bind (why_negotiateVersion _) fun v hv => Only.bind (Only.check fun h => .reason ?_) fun _ _ => ?_
  · cases hs : s.version with
    | none => simp [hs] at h
    | some w =>
      refine .version_changed w hs _ hu fun l hl => ?_
      rcases version_of hv with ⟨_, h1⟩ | ⟨l', hl', h1⟩
      · exact absurd h1 (has_of hl)
      · rw [hl] at hl'
        cases hl'
        rw [← h1]
        intro he
        simp [hs, he] at h
  · cases v with
    | none => exact Only.bind (why_noVersion hu hv) fun _ _ => Only.pure _
    | some v => exact Only.bind (why_part1Negotiated hc hu hv) fun _ _ => Only.pure _

theorem part1_known {p : Part1} (h : part1 cfg inp s unparsed hello orig = .ok (.inr p)) :
    Known cfg inp s hello orig p := by
  unfold part1 at h
  simp only [Res.bind_eq_ok] at h
  obtain ⟨cookie, hc, _, hb, e, he, _, _, v, _, _, _, h⟩ := h
  cases v with
  | none =>
    simp only [Res.bind_eq_ok] at h
    obtain ⟨_, _, h⟩ := h
    cases h
  | some v =>
    simp only [Res.bind_eq_ok] at h
    obtain ⟨q, hq, h⟩ := h
    cases h
    unfold part1Negotiated at hq
    simp only [Res.bind_eq_ok] at hq
    obtain ⟨_, _, _, _, c, hci, _, _, _, _, r, hr, rep, _, hq⟩ := hq
    cases hq
    refine ⟨ech_used he, hc, ?_, cipher_of hci, hr⟩
    have := check_ok hb
    cases hs : s.hs <;> cases cookie <;> simp_all

/-! ## The second part -/

theorem quiet_stateless (v c g b) : Quiet (Ticket.getStatelessHelloRetryRequest v c g b) := by
  unfold Ticket.getStatelessHelloRetryRequest; quiet

theorem quiet_baseContext (c ck hs ci) : Quiet (baseContext c ck hs ci) := by
  unfold baseContext
  split
  · exact Only.bind (quiet_frame _ _) fun _ _ => Only.bind (quiet_getCookie _) fun _ _ =>
      Only.bind (quiet_deref _) fun _ _ => Only.bind (quiet_stateless _ _ _ _) fun _ _ => Only.pure _
  · split <;> exact Only.ok _

theorem binderLength_vecs {a b : Bytes} (ha : a.length < 65536) (hb : b.length < 65536) :
    readBinderLength (vec .u16 a ++ vec .u16 b) = .ok (2 + b.length, b) := by
  have h1 : (UInt16.ofNat a.length).toNat = a.length := by
    rw [UInt16.toNat_ofNat']; exact Nat.mod_eq_of_lt ha
  have h2 : (UInt16.ofNat b.length).toNat = b.length := by
    rw [UInt16.toNat_ofNat']; exact Nat.mod_eq_of_lt hb
  simp only [readBinderLength, Rd.bind_eq_ok, readU16_eq_ok, remaining_eq_ok, Prod.exists,
    skip, pull_eq_ok, Rd.pure_eq_ok]
  refine ⟨UInt16.ofNat a.length, _, a ++ vec .u16 b, ⟨?_, rfl⟩, (), _, ⟨_, _, ⟨h1.symm, rfl⟩, trivial, rfl⟩,
    UInt16.ofNat b.length, _, b, ⟨?_, rfl⟩, _, _, ⟨rfl, rfl⟩, ?_⟩
  · rw [h1]; simp only [vec, Width.bytes, List.append_assoc]
  · rw [h2]; rfl
  · rw [h2]; simp

/-- The only alert of the length reader. -/
theorem why_readBinderLength (d : Bytes) :
    Only (fun f => named f = none ∨ named f = some 50) (readBinderLength d) := by
  unfold readBinderLength
  refine ⟨fun f hf => ?_⟩
  revert hf
  cases h1 : readU16 d with
  | error e => intro hf; have := (QuietRd.readU16 d).out e h1; simp only [bind, h1] at hf; cases hf; exact .inl this
  | ok x1 =>
    obtain ⟨⟨n, _⟩, d1⟩ := x1
    cases h2 : skip n.toNat d1 with
    | error e =>
      intro hf; have := (QuietRd.skip _ d1).out e h2; simp only [bind, h1, h2] at hf; cases hf; exact .inl this
    | ok x2 =>
      obtain ⟨_, d2⟩ := x2
      cases h3 : readU16 d2 with
      | error e =>
        intro hf; have := (QuietRd.readU16 d2).out e h3
        simp only [bind, h1, h2, h3] at hf; cases hf; exact .inl this
      | ok x3 =>
        obtain ⟨⟨m, _⟩, d3⟩ := x3
        intro hf
        simp only [bind, h1, h2, h3, remaining] at hf
        split at hf
        · cases hf; exact .inr rfl
        · cases hf

theorem why_binderLength {c} (hu : Used inp hello c) : OK (getBinderLength c) := by
  unfold getBinderLength
  cases hl : c.extensions.getLast? with
  | none => exact Only.error (.reason (.decode_error c hu fun e he => by rw [hl] at he; cases he))
  | some x =>
    dsimp only
    split
    · next ht =>
      refine Only.error (.reason (.decode_error c hu fun e he h41 => ?_))
      rw [hl] at he
      cases he
      exact absurd h41 ht
    · next ht =>
      cases hr : readBinderLength x.extension_data with
      | ok v => exact Only.ok _
      | error f =>
        refine Only.error ?_
        rcases (why_readBinderLength _).out f hr with h | h
        · exact .inl h
        · refine .inr (.inr ⟨50, h, .decode_error c hu fun e he _ => ?_⟩)
          rw [hl] at he
          cases he
          rintro ⟨a, b, ha, hb, hd⟩
          rw [hd, binderLength_vecs ha hb] at hr
          cases hr

theorem accept_of {r : ResumptionResult} {v c t rs m} (h : acceptPsk cfg r v c = .ok (t, some rs, m)) :
    r.resState = some rs ∧ t = r.pskType ∧ m = r.pskMode := by
  unfold acceptPsk at h
  cases hr : r.resState with
  | none => rw [hr] at h; cases h
  | some rs' =>
    rw [hr] at h
    simp only [Res.bind_eq_ok] at h
    obtain ⟨ok, _, h⟩ := h
    cases ok <;> cases h
    exact ⟨rfl, rfl, rfl⟩

theorem why_accept (r v c) : OK (acceptPsk cfg r v c) := by
  unfold acceptPsk
  split
  · exact Only.ok _
  · refine Only.bind ?_ fun ok _ => by cases ok <;> exact Only.pure _
    unfold validateResumptionState
    split
    · exact Only.ok _
    · exact Only.bind (Only.supplied fun f => .hash _ f) fun _ _ =>
        Only.bind (Only.supplied fun f => .hash _ f) fun _ _ => Only.pure _

theorem base_before {m used : ClientHello} {cookie : Option CookieState} {cipher : UInt16} {c : HsCtx}
    (hck : getCookieState cfg inp m = .ok cookie) (hc : baseContext used cookie s.hs cipher = .ok c) :
    c.transcript = Server.Spec.beforeHello inp m used (match s.hs with | some h => h.transcript | none => []) := by
  unfold baseContext at hc
  unfold Server.Spec.beforeHello
  rw [getCookieState_spec hck]
  cases cookie with
  | some ck =>
    simp only [Res.bind_eq_ok] at hc
    obtain ⟨mh, h1, ext, h2, ce, h3, hrr, h4, hc⟩ := hc
    cases pure_eq_ok.1 hc
    rw [frame_eq h1, statelessRetry_eq h4]
    simp only [Server.Spec.messageHash, Server.Spec.cookieBytes, h2, deref_eq_ok.1 h3]
    rfl
  | none => cases hs : s.hs <;> (rw [hs] at hc; cases hc; rfl)

section
variable (hok : ∀ c a, cfg.hashOf c = .ok a → a.Ok)
include hok

theorem why_verifyBinder {p : Part1} (k : Known cfg inp s hello orig p) {h : HashAlg} (hh : cfg.hashOf p.cipher = .ok h)
    {rs : ResumptionState} (hr : p.res.resState = some rs) {ctx : HsCtx}
    (hc : baseContext p.hello.chlo p.cookie s.hs p.cipher = .ok ctx) :
    OK (verifyBinder h p.hello.chlo p.hello.orig rs p.res.pskType ctx) := by
  have hu := used_of k.used
  have ok := hok _ _ hh
  refine Only.bind (Only.quiet (quiet_ksState (quiet_deriveEarlySecret _ _ _))) fun ks hks =>
    Only.bind (Only.quiet (quiet_ksSecret (quiet_getEarly _ _ _ _))) fun bk hbk =>
    Only.bind (why_binderLength hu) fun n hn => ?_
  refine Only.bind (Only.quiet (quiet_getClientPresharedKey _)) fun o ho => ?_
  cases o with
  | none => exact Only.error (.reason (.no_binders _ hu (.inl (lacks_of ho))))
  | some offer =>
    dsimp only
    cases hb : offer.binders with
    | nil => exact Only.error (.reason (.no_binders _ hu (.inr ⟨offer, ho, hb⟩)))
    | cons b rest =>
      dsimp only
      refine Only.bind (Only.quiet (quiet_finishedData _ _ _)) fun ex hex =>
        Only.bind (Only.check fun hne => .reason ?_) fun _ _ => Only.pure _
      obtain ⟨offer', ident, idents, ms, ho', hi, _, ht, _⟩ := getResumptionState_facts k.res hr
      rw [ho] at ho'
      cases ho'
      refine .binder _ _ k.used offer ho ident idents hi p.res.pskType rs ht p.cipher k.cipher h hh n hn b rest hb ?_
      have e1 := ks_deriveEarly ok hks
      subst e1
      rw [ok.blank] at hbk
      have e2 := ks_getEarly ok (ok.len _) hbk
      subst e2
      rw [finishedData_eq ok] at hex
      · have hex := Except.ok.inj hex
        simp only [decide_eq_false_iff_not] at hne
        simp only [HsCtx.append] at hex
        rw [base_before k.cookie hc] at hex
        intro he
        exact hne (hex.symm.trans he.symm)
      · split <;> exact DeriveSecret_len ok _ _ _

theorem why_setup {p : Part1} (k : Known cfg inp s hello orig p) {h : HashAlg} (hh : cfg.hashOf p.cipher = .ok h)
    {t m} {o : Option ResumptionState} (ha : acceptPsk cfg p.res p.version p.cipher = .ok (t, o, m)) :
    OK (setupSchedulerAndContext h p.cipher p.hello.chlo p.hello.orig o p.cookie t s.hs) := by
  refine Only.bind (Only.quiet (quiet_baseContext _ _ _ _)) fun ctx hc => ?_
  cases o with
  | none => exact Only.pure _
  | some rs =>
    obtain ⟨hr, ht, -⟩ := accept_of ha
    subst ht
    exact why_verifyBinder hok k hh hr hc

end

theorem why_alpn {c} (hu : Used inp hello c) : OK (negotiateAlpn cfg c) := by
  refine Only.bind (Only.quiet (quiet_getProtocolNameList _)) fun o ho => ?_
  cases o with
  | none =>
    dsimp only
    split
    · next h => exact Only.error (.reason (.no_application_protocol c hu (.inl ⟨h, lacks_of ho⟩)))
    · exact Only.pure _
  | some l =>
    dsimp only
    cases hn : Negotiate.negotiateFlat cfg.supportedAlpns (l.protocol_name_list.map (·.name)) with
    | some x => exact Only.pure _
    | none =>
      dsimp only
      split
      · next h => exact Only.error (.reason (.no_application_protocol c hu (.inr ⟨h, l, ho, flat_none' hn⟩)))
      · exact Only.pure _

theorem quiet_clockSkew (p a n) : Quiet (getClockSkew p a n) := by
  unfold getClockSkew
  split
  · refine Only.bind ?_ fun _ _ => Only.pure _
    unfold Time.checked
    split <;> first | exact Only.ok _ | exact Only.error rfl
  · exact Only.ok _

theorem quiet_earlyType (v c psk ci kx ck al rp sk) : Quiet (negotiateEarlyDataType cfg inp v c psk ci kx ck al rp sk) := by
  refine Only.bind (quiet_getClientEarlyData _) fun o _ => ?_
  cases o with
  | none => exact Only.pure _
  | some x => dsimp only; repeat' (first | exact Only.pure _ | split)

theorem quiet_deriveEarly (h ks ctx t) : Quiet (deriveEarly h ks ctx t) := by
  unfold deriveEarly
  split
  · exact Only.bind (quiet_ksSecret (quiet_getEarly _ _ _ _)) fun _ _ =>
      Only.bind (quiet_ksSecret (quiet_getEarly _ _ _ _)) fun _ _ => Only.pure _
  · exact Only.ok _

theorem why_part2 (hok : ∀ c a, cfg.hashOf c = .ok a → a.Ok) {p : Part1} (k : Known cfg inp s hello orig p) :
    OK (part2 cfg inp s p) := by
  refine Only.bind (why_accept _ _ _) fun a ha => ?_
  obtain ⟨t, o, m⟩ := a
  refine Only.bind (Only.supplied fun f => .hash _ f) fun h hh => Only.bind (why_setup hok k hh ha) fun x _ => ?_
  obtain ⟨ks, ctx⟩ := x
  exact Only.bind (why_alpn (used_of k.used)) fun _ _ => Only.bind (Only.quiet (quiet_clockSkew _ _ _)) fun _ _ =>
    Only.bind (Only.quiet (quiet_earlyType _ _ _ _ _ _ _ _ _)) fun _ _ =>
    Only.bind (Only.quiet (quiet_deriveEarly _ _ _ _)) fun _ _ => Only.pure _

/-! ## The answer -/

/-- What the last part knows. -/
structure Ready (cfg : Cfg) (inp : Inp) (s : St) (hello : ClientHello) (orig : Bytes) (q : Part2) : Prop where
  known : Known cfg inp s hello orig q.p1
  mode : q.pskMode = some psk_ke → ∃ l, getPskKeyExchangeModes q.p1.hello.chlo.extensions = .ok (some l) ∧
    0 ∈ l.modes ∧ 0 ∈ cfg.supportedPskModes

theorem part2_ready {p : Part1} (k : Known cfg inp s hello orig p) {q : Part2} (h : part2 cfg inp s p = .ok q) :
    Ready cfg inp s hello orig q := by
  unfold part2 at h
  rw [Res.bind_eq_ok] at h
  obtain ⟨⟨t, o, m⟩, ha, h⟩ := h
  dsimp only at h
  simp only [Res.bind_eq_ok] at h
  obtain ⟨_, _, ⟨ks, ctx⟩, _, h⟩ := h
  simp only [Res.bind_eq_ok] at h
  obtain ⟨_, _, _, _, _, _, _, _, h⟩ := h
  cases h
  refine ⟨k, fun hm => ?_⟩
  dsimp only at hm ⊢
  cases o with
  | none =>
    unfold acceptPsk at ha
    cases hr : p.res.resState with
    | none => rw [hr] at ha; cases ha; cases hm
    | some rs =>
      rw [hr] at ha
      simp only [Res.bind_eq_ok] at ha
      obtain ⟨ok, _, ha⟩ := ha
      cases ok <;> cases ha
      cases hm
  | some rs =>
    obtain ⟨hr, -, hm'⟩ := accept_of ha
    obtain ⟨_, _, _, ms, _, _, _, _, _, hms, hpm⟩ := getResumptionState_facts k.res hr
    refine ⟨ms, hms, ?_⟩
    rw [hm', hpm] at hm
    have := flat_some hm
    exact ⟨this.2, this.1⟩

theorem why_group {c} (hu : Used inp hello c) : OK (negotiateGroup cfg c) := by
  refine Only.bind (Only.quiet (quiet_getSupportedGroups _)) fun o ho => ?_
  cases o with
  | none => exact Only.error (.reason (.missing c hu (.inr (.inl (lacks_of ho)))))
  | some l =>
    dsimp only
    cases hn : Negotiate.negotiateFlat cfg.supportedGroups l.named_group_list with
    | none => exact Only.error (.reason (.no_group c hu l ho (flat_none' hn)))
    | some g =>
      dsimp only
      refine Only.bind (Only.quiet (quiet_getClientKeyShare _)) fun o ho => ?_
      cases o with
      | none => exact Only.error (.reason (.missing c hu (.inr (.inr (.inl (lacks_of ho))))))
      | some sh =>
        exact Only.bind (Only.check fun h => .reason (.duplicate_share c hu sh ho (by simpa using h))) fun _ _ => Only.pure _

theorem group_of {c g o} (h : negotiateGroup cfg c = .ok (g, o)) :
    (∃ l, getSupportedGroups c.extensions = .ok (some l) ∧
      Negotiate.negotiateFlat cfg.supportedGroups l.named_group_list = some g) ∧
    ∃ sh, getClientKeyShare c.extensions = .ok (some sh) ∧ (o = none → g ∉ sh.client_shares.map (·.group)) := by
  unfold negotiateGroup at h
  rw [Res.bind_eq_ok] at h
  obtain ⟨l, hl, h⟩ := h
  cases l with
  | none => cases h
  | some l =>
    dsimp only at h
    cases hn : Negotiate.negotiateFlat cfg.supportedGroups l.named_group_list with
    | none => rw [hn] at h; cases h
    | some g' =>
      rw [hn] at h
      dsimp only at h
      rw [Res.bind_eq_ok] at h
      obtain ⟨sh, hs, h⟩ := h
      cases sh with
      | none => cases h
      | some sh =>
        simp only [Res.bind_eq_ok] at h
        obtain ⟨_, _, h⟩ := h
        cases h
        refine ⟨⟨l, hl, hn⟩, sh, hs, fun ho => ?_⟩
        simpa [List.find?_eq_none] using ho

theorem quiet_hrr (v c g i) : Quiet (getHelloRetryRequest v c g i) := by
  unfold getHelloRetryRequest encodeServerSupportedVersions encodeHelloRetryRequestKeyShare; quiet

theorem why_confirmHrr (e r t m) : OK (confirmHrr inp e r t m) := by
  unfold confirmHrr
  split
  · exact Only.supplied fun f => .confirmHrr _ _ _ f
  · exact Only.ok _

theorem why_retry {q : Part2} (k : Ready cfg inp s hello orig q) {g}
    (hg : negotiateGroup cfg q.p1.hello.chlo = .ok (g, none)) : OK (sendRetry inp s q g) := by
  obtain ⟨⟨l, hl, hn⟩, sh, hs, hno⟩ := group_of hg
  refine Only.bind (Only.check fun h => .reason ?_) fun _ _ => ?_
  · refine .no_share _ (used_of k.known.used) g sh hs (hno rfl) (flat_some hn).1 ?_
    cases hsg : s.group with
    | some x => exact .inl rfl
    | none =>
      cases hck : q.p1.cookie with
      | some ck => exact .inr ⟨ck, k.known.has hck⟩
      | none => simp [hsg, hck] at h
  · exact Only.bind (Only.quiet (quiet_frame _ _)) fun _ _ => Only.bind (Only.quiet (quiet_hrr _ _ _ _)) fun _ _ =>
      Only.bind (why_confirmHrr _ _ _ _) fun _ _ => Only.bind (Only.quiet (quiet_encodeHandshake _)) fun _ _ =>
      Only.bind (Only.quiet (quiet_derefPtr _)) fun _ _ => Only.pure _

theorem why_kex (q g x) : OK (doKex inp s q g x) :=
  Only.bind (Only.supplied fun f => .kex _ _ f) fun _ _ =>
    Only.bind (Only.quiet (quiet_ksState (quiet_deriveHandshakeSecretEcdhe _ _ _))) fun _ _ => Only.pure _

theorem quiet_noKex (q) : Quiet (noKex q) :=
  Only.bind (quiet_ksState (quiet_deriveHandshakeSecret _ _)) fun _ _ => Only.pure _

theorem why_groups {q : Part2} (k : Ready cfg inp s hello orig q) {g : Option UInt16}
    (hg : (g = none ∧ q.pskMode = some psk_ke) ∨ ∃ x sh, g = some x ∧ negotiateGroup cfg q.p1.hello.chlo = .ok (x, sh)) :
    OK (checkGroups s q.p1.cookie g) := by
  have why : ∀ w, g ≠ some w → (∃ l, getPskKeyExchangeModes q.p1.hello.chlo.extensions = .ok (some l) ∧
        0 ∈ l.modes ∧ 0 ∈ cfg.supportedPskModes) ∨
      ∃ l, getSupportedGroups q.p1.hello.chlo.extensions = .ok (some l) ∧
          Negotiate.negotiateFlat cfg.supportedGroups l.named_group_list ≠ some w := by
    intro w hw
    rcases hg with ⟨_, hm⟩ | ⟨x, sh, rfl, hx⟩
    · exact .inl (k.mode hm)
    · obtain ⟨⟨l, hl, hn⟩, -⟩ := group_of hx
      exact .inr ⟨l, hl, by rw [hn]; exact hw⟩
  refine Only.bind (Only.check fun h => .reason ?_) fun _ _ => Only.check fun h => .reason ?_
  · cases hs : s.group with
    | none => simp [hs] at h
    | some w =>
      refine .group_changed _ (used_of k.known.used) w (.inl hs) (why w fun he => ?_)
      simp [hs, he] at h
  · cases hck : q.p1.cookie with
    | none => simp [hck] at h
    | some ck =>
      rw [hck] at h
      dsimp only at h
      cases hcg : ck.group with
      | none => simp [hcg] at h
      | some w =>
        refine .group_changed _ (used_of k.known.used) w (.inr ⟨ck, k.known.has hck, hcg⟩) (why w fun he => ?_)
        simp [hcg, he] at h

theorem quiet_serverHello (v r c p g sh i) : Quiet (getServerHello v r c p g sh i) := by
  unfold getServerHello encodeServerSupportedVersions keyShareExts pskExts
  refine Only.bind (by quiet) fun _ _ => Only.bind ?_ fun _ _ => Only.bind ?_ fun _ _ => Only.pure _
  · split
    · exact Only.ok _
    · unfold encodeServerKeyShare; exact Only.bind (quiet_deref _) fun _ _ => Only.bind (by quiet) fun _ _ => Only.pure _
  · split
    · unfold encodeServerPresharedKey; exact Only.bind (by quiet) fun _ _ => Only.pure _
    · exact Only.ok _

theorem why_confirm (e r t m) : OK (confirmHello inp e r t m) := by
  unfold confirmHello
  split
  · exact Only.supplied fun f => .confirm _ _ _ f
  · exact Only.ok _

theorem why_others (c) : OK (otherExts cfg inp c) := by
  unfold otherExts
  split
  · exact Only.supplied fun f => .extensions _ f
  · exact Only.ok _

theorem quiet_encrypted (al t e o) : Quiet (getEncryptedExt cfg al t e o) := by
  unfold getEncryptedExt alpnExts encodeServerEarlyData
  refine Only.bind ?_ fun _ _ => Only.bind (by quiet) fun _ _ => quiet_encodeHandshake _
  split
  · exact Only.ok _
  · unfold encodeProtocolNameList; exact Only.bind (by quiet) fun _ _ => Only.pure _

theorem why_request (b) : OK (getCertificateRequest cfg inp b) := by
  unfold getCertificateRequest
  split
  · refine Only.bind ?_ fun _ _ => Only.bind (Only.quiet (quiet_encodeHandshake _)) fun _ _ => Only.pure _
    unfold certReqExts encodeSignatureAlgorithms
    refine Only.bind (Only.quiet (by quiet)) fun _ _ => ?_
    split
    · exact Only.bind (Only.supplied fun f => .verifier f) fun _ _ => Only.pure _
    · exact Only.pure _
  · exact Only.ok _

theorem why_cert {c} (hu : Used inp hello c) : OK (chooseCert inp c) := by
  refine Only.bind (Only.quiet (quiet_getSignatureAlgorithms _)) fun o ho => ?_
  cases o with
  | none => exact Only.error (.reason (.missing c hu (.inr (.inr (.inr (.inl (lacks_of ho)))))))
  | some l =>
    refine Only.bind (why_sni _) fun sni _ => Only.bind (Only.supplied fun f => .certificate _ _ f) fun o hc => ?_
    cases o with
    | none => exact Only.error (.reason (.no_certificate c hu l ho sni hc))
    | some x => exact Only.pure _

theorem quiet_compression (c) : Quiet (negotiateCompression cfg c) := by
  refine Only.bind (quiet_getCertificateCompressionAlgorithms _) fun o _ => ?_
  cases o <;> exact Only.pure _

theorem why_certPart {q : Part2} (k : Ready cfg inp s hello orig q) (ctx) : OK (certPart cfg inp q ctx) := by
  unfold certPart
  split
  · exact Only.ok _
  · exact Only.bind (why_cert (used_of k.known.used)) fun _ _ => Only.bind (Only.quiet (quiet_compression _)) fun _ _ =>
      Only.bind (Only.supplied fun f => .message _ _ f) fun _ _ => Only.bind (Only.supplied fun f => .sign _ _ _ f) fun _ _ =>
      Only.bind (Only.quiet (quiet_encodeHandshake _)) fun _ _ => Only.pure _

theorem why_part3 {q : Part2} (k : Ready cfg inp s hello orig q) {x : KexOut}
    (hg : (x.group = none ∧ q.pskMode = some psk_ke) ∨
      ∃ g sh, x.group = some g ∧ negotiateGroup cfg q.p1.hello.chlo = .ok (g, sh)) : OK (part3 cfg inp s q x) := by
  refine Only.bind ?_ fun _ _ => Only.bind (Only.quiet (quiet_derefPtr _)) fun _ _ => Only.pure _
  refine Only.bind (why_others _) fun _ _ => Only.bind (why_groups k hg) fun _ _ =>
    Only.bind (Only.quiet (quiet_serverHello _ _ _ _ _ _ _)) fun _ _ => Only.bind (why_confirm _ _ _ _) fun _ _ =>
    Only.bind (Only.quiet (quiet_encodeHandshake _)) fun _ _ => ?_
  refine Only.bind (Only.quiet (quiet_ksSecret (quiet_getHandshake _ _ _ _))) fun _ _ =>
    Only.bind (Only.quiet (quiet_ksSecret (quiet_getHandshake _ _ _ _))) fun _ _ =>
    Only.bind (Only.quiet (quiet_encrypted _ _ _ _)) fun _ _ => ?_
  refine Only.bind (why_request _) fun _ _ => Only.bind (why_certPart k _) fun _ _ =>
    Only.bind (Only.quiet (quiet_finishedData _ _ _)) fun _ _ => Only.bind (Only.quiet (quiet_encodeHandshake _)) fun _ _ => ?_
  exact Only.bind (Only.quiet (quiet_ksState (quiet_deriveMasterSecret _ _))) fun _ _ =>
    Only.bind (Only.quiet (quiet_ksSecret (quiet_getMaster _ _ _ _))) fun _ _ =>
    Only.bind (Only.quiet (quiet_ksState (quiet_deriveAppTrafficSecrets _ _ _))) fun _ _ =>
    Only.bind (Only.quiet (quiet_ksSecret (quiet_getApp _ _))) fun _ _ => Only.pure _

theorem why_kexPart {q : Part2} (k : Ready cfg inp s hello orig q) : OK (kexPart cfg inp s q) := by
  unfold kexPart
  split
  · next hm =>
    refine Only.bind (Only.quiet (quiet_noKex _)) fun x hx => why_part3 k (.inl ⟨?_, hm⟩)
    unfold noKex at hx
    simp only [Res.bind_eq_ok] at hx
    obtain ⟨_, _, hx⟩ := hx
    cases hx
    rfl
  · refine Only.bind (why_group (used_of k.known.used)) fun x hx => ?_
    obtain ⟨g, o⟩ := x
    cases o with
    | none => exact why_retry k hx
    | some sh =>
      refine Only.bind (why_kex _ _ _) fun y hy => why_part3 k (.inr ⟨g, _, ?_, hx⟩)
      unfold doKex at hy
      simp only [Res.bind_eq_ok] at hy
      obtain ⟨⟨_, _⟩, _, hy⟩ := hy
      simp only [Res.bind_eq_ok] at hy
      obtain ⟨_, _, hy⟩ := hy
      cases hy
      rfl

/-- Whatever the alert a ClientHello is refused with says is true of the hello (and of the configuration and the
state), or the failure is one of the application's own. -/
theorem why_hello (hok : ∀ c a, cfg.hashOf c = .ok a → a.Ok) : OK (onClientHello cfg inp s unparsed hello orig) := by
  refine Only.bind why_part1 fun x hx => ?_
  cases x with
  | inl acts => exact Only.pure _
  | inr p =>
    have k := part1_known hx
    exact Only.bind (why_part2 hok k) fun q hq => why_kexPart (part2_ready k hq)

/-! ## The other handlers -/

local notation "FINE(" p ")" => Only (Explained (Supplied cfg inp p) (Reason cfg inp s unparsed p))

theorem why_eoed (o) : FINE(.sock (.handshake .endOfEarlyData o)) (onEndOfEarlyData s unparsed o) :=
  Only.bind (Only.check fun h => .reason (.behind_eoed o (by simpa using h))) fun _ _ =>
    Only.bind (Only.quiet (quiet_derefPtr _)) fun _ _ => Only.pure _

theorem why_chain (m o) : ∀ (leaf) (l : List CertificateEntry), (∀ e ∈ l, e ∈ m.certificate_list) →
    FINE(.sock (.handshake (.certificate m) o)) (readChain inp s.certReqExtensions leaf l)
  | _, [], _ => Only.ok _
  | leaf, e :: l, h => by
    refine Only.bind (Only.bind (Only.check fun hc => .reason (.certificate_extension m o e (h e (by simp)) (.inl ?_)))
      fun _ _ => Only.check fun hc => .reason (.certificate_extension m o e (h e (by simp)) (.inr (by simpa using hc))))
      fun _ _ => Only.bind (Only.supplied fun f => .certificate _ _ _ f) fun _ _ =>
        Only.bind (why_chain m o false l fun x hx => h x (by simp [hx])) fun _ _ => Only.pure _
    simpa using hc

theorem chain_nil {al leaf l} (h : readChain inp al leaf l = .ok []) : l = [] := by
  cases l with
  | nil => rfl
  | cons e l =>
    simp only [readChain, Res.bind_eq_ok] at h
    obtain ⟨_, _, _, _, _, _, h⟩ := h
    cases h

theorem why_certificate (m o) : FINE(.sock (.handshake (.certificate m) o)) (onCertificate cfg inp s m o) := by
  refine Only.bind (Only.quiet (quiet_derefPtr _)) fun _ _ => Only.bind (Only.check fun h => .reason (.context m o ?_)) fun _ _ =>
    Only.bind (why_chain m o true _ fun _ h => h) fun chain hc => ?_
  · rw [ne_eq, ← List.isEmpty_iff, h]; simp
  · split
    · next he =>
      split
      · exact Only.pure _
      · next hr =>
        rw [List.isEmpty_iff] at he
        subst he
        exact Only.error (.reason (.certificate_required m o (chain_nil hc) hr))
    · exact Only.pure _

theorem quiet_front {α} (l : List α) : Quiet (front l) := by
  cases l
  · exact Only.error rfl
  · exact Only.ok _

theorem why_verify (m o) : FINE(.sock (.handshake (.certificateVerify m) o)) (onCertificateVerify cfg inp s m o) := by
  refine Only.bind (Only.check fun h => .reason (.scheme m o (by simpa using h))) fun _ _ =>
    Only.bind (Only.quiet (quiet_deref _)) fun chain hch => Only.bind (Only.quiet (quiet_front _)) fun leaf _ =>
    Only.bind (Only.quiet (quiet_derefPtr _)) fun _ _ => Only.bind (Only.supplied fun f => .hash _ _ f) fun _ _ =>
    Only.bind (Only.supplied fun f => .signature _ _ _ _ _ f) fun _ _ => Only.bind ?_ fun _ _ => Only.pure _
  unfold verifiedCert
  split
  · next hv =>
    split
    · exact Only.ok _
    · exact Only.ok _
    · next f hf =>
      refine Only.error ?_
      have hch := deref_eq_ok.1 hch
      by_cases hz : ∃ t a, f = .err t a .fizz ∨ f = .err t a .verifier
      · obtain ⟨t, a, rfl | rfl⟩ := hz <;> exact .inr (.inl (.chain _ _ _ hf))
      · have hz' : ∀ t a, f ≠ .err t a .fizz ∧ f ≠ .err t a .verifier :=
          fun t a => ⟨fun h => hz ⟨t, a, .inl h⟩, fun h => hz ⟨t, a, .inr h⟩⟩
        have hb := Reason.bad_certificate (cfg := cfg) (inp := inp) (s := s) (unparsed := unparsed) m o hv chain f hch hf hz'
        unfold verifierFailure
        split
        · next t a => exact absurd rfl (hz' t a).1
        · next t a => exact absurd rfl (hz' t a).2
        · exact .inr (.inr ⟨42, rfl, hb⟩)
        · exact .inl rfl
        · exact .inl rfl
        · exact .inr (.inr ⟨42, rfl, hb⟩)
  · exact Only.ok _

theorem quiet_appWrite (t d f) : Quiet (onAppWrite s t d f) :=
  Only.bind (quiet_derefPtr _) fun _ _ => Only.pure _

theorem why_ticket (p rms t) : FINE(p) (generateTicket cfg inp s rms t) := by
  unfold generateTicket
  split
  · exact Only.ok _
  · refine Only.bind (Only.quiet (quiet_deref _)) fun _ _ => ?_
    split
    · exact Only.pure _
    · refine Only.bind ?_ fun rs _ => Only.bind (Only.supplied fun f => .ticket _ _ f) fun o _ => ?_
      · exact Only.bind (Only.quiet (quiet_derefPtr _)) fun _ _ => Only.bind (Only.quiet (quiet_deref _)) fun _ _ =>
          Only.bind (Only.supplied fun f => .hash _ _ f) fun _ _ =>
          Only.bind (Only.quiet (quiet_ksSecret (quiet_getResumptionSecret _ _ _))) fun _ _ =>
          Only.bind (Only.quiet (quiet_deref _)) fun _ _ => Only.bind (Only.quiet (quiet_deref _)) fun _ _ => Only.pure _
      · cases o with
        | none => exact Only.pure _
        | some x =>
          refine Only.bind (Only.quiet (quiet_derefPtr _)) fun _ _ => Only.bind (Only.quiet ?_) fun _ _ => Only.pure _
          unfold writeNewSessionTicket ticketExts encodeTicketEarlyData
          refine Only.bind ?_ fun _ _ => Only.bind (quiet_encodeHandshake _) fun _ _ => Only.pure _
          split
          · exact Only.bind (by quiet) fun _ _ => Only.pure _
          · exact Only.ok _

theorem why_finished (p m o) : FINE(p) (onFinished cfg inp s unparsed m o) := by
  refine Only.bind (Only.quiet (quiet_derefPtr _)) fun _ _ => Only.bind (Only.quiet (quiet_deref _)) fun _ _ =>
    Only.bind (Only.supplied fun f => .hash _ _ f) fun _ _ => Only.bind (Only.quiet (quiet_finishedData _ _ _)) fun _ _ =>
    Only.bind (Only.check fun _ => .quiet rfl) fun _ _ => Only.bind (Only.check fun _ => .quiet rfl) fun _ _ => ?_
  refine Only.bind (Only.quiet (quiet_deref _)) fun _ _ => Only.bind (Only.quiet (quiet_derefPtr _)) fun _ _ =>
    Only.bind (Only.quiet (quiet_deref _)) fun _ _ => Only.bind (Only.supplied fun f => .hash _ _ f) fun _ _ =>
    Only.bind (Only.quiet (quiet_ksSecret (quiet_getApp _ _))) fun _ _ =>
    Only.bind (Only.quiet (quiet_ksSecret (quiet_getMaster _ _ _ _))) fun _ _ =>
    Only.bind (Only.quiet (quiet_ksState (quiet_clearMasterSecret _))) fun _ _ => Only.bind ?_ fun _ _ => Only.pure _
  unfold finishedTicket
  split
  · exact why_ticket _ _ _
  · exact Only.ok _

theorem why_schedule (p) : FINE(p) (schedule cfg s) :=
  Only.bind (Only.quiet (quiet_deref _)) fun _ _ => Only.bind (Only.supplied fun f => .hash _ _ f) fun _ _ =>
    Only.bind (Only.quiet (quiet_derefPtr _)) fun _ _ => Only.pure _

theorem quiet_nextWrite (h ks) : Quiet (nextWrite h ks) :=
  Only.bind (quiet_ksState (quiet_serverKeyUpdate _ _)) fun _ _ => Only.bind (quiet_ksSecret (quiet_getApp _ _)) fun _ _ => Only.pure _
theorem quiet_nextRead (h ks) : Quiet (nextRead h ks) :=
  Only.bind (quiet_ksState (quiet_clientKeyUpdate _ _)) fun _ _ => Only.bind (quiet_ksSecret (quiet_getApp _ _)) fun _ _ => Only.pure _

theorem why_initiate (p r) : FINE(p) (onKeyUpdateInitiation cfg s unparsed r) :=
  Only.bind (Only.check fun _ => .quiet rfl) fun _ _ => Only.bind (Only.quiet (quiet_encodeHandshake _)) fun _ _ =>
    Only.bind (Only.quiet (quiet_derefPtr _)) fun _ _ => Only.bind (why_schedule _) fun _ _ =>
    Only.bind (Only.quiet (quiet_nextWrite _ _)) fun _ _ => Only.pure _

theorem why_keyUpdate (p m) : FINE(p) (onKeyUpdate cfg s unparsed m) := by
  refine Only.bind (Only.check fun _ => .quiet rfl) fun _ _ => Only.bind (why_schedule _) fun _ _ =>
    Only.bind (Only.quiet (quiet_nextRead _ _)) fun _ _ => ?_
  dsimp only
  split
  · exact Only.pure _
  · exact Only.bind (Only.quiet (quiet_encodeHandshake _)) fun _ _ => Only.bind (Only.quiet (quiet_derefPtr _)) fun _ _ =>
      Only.bind (Only.quiet (quiet_nextWrite _ _)) fun _ _ => Only.pure _

/-- Every handler. -/
theorem why_handle (hok : ∀ c a, cfg.hashOf c = .ok a → a.Ok) (p) : FINE(p) (handle cfg inp s unparsed p) := by
  unfold handle
  split
  · exact Only.ok _
  · next hs =>
    refine (why_hello hok).mono fun f hf => ?_
    rcases hf with h | h | ⟨a, h, hr⟩
    · exact .inl h
    · exact .inr (.inl (.hello _ _ _ h))
    · exact .inr (.inr ⟨a, h, .hello _ _ _ hs hr⟩)
  · exact Only.ok _
  · exact Only.quiet (quiet_appWrite _ _ _)
  · exact why_eoed _
  · exact why_certificate _ _
  · exact why_verify _ _
  · exact Only.quiet (quiet_appWrite _ _ _)
  · exact why_finished _ _ _
  · exact why_ticket _ _ _
  · exact Only.ok _
  · exact Only.quiet (quiet_appWrite _ _ _)
  · exact why_initiate _ _
  · exact why_keyUpdate _ _
  · exact Only.bind (Only.check fun h => .reason (.behind_close _ (by simpa using h))) fun _ _ =>
      Only.bind (Only.quiet (quiet_derefPtr _)) fun _ _ => Only.pure _
  · exact Only.bind (Only.check fun h => .reason (.behind_close _ (by simpa using h))) fun _ _ => Only.pure _
  · refine Only.error ?_
    unfold invalidEvent
    split
    · exact .inl rfl
    · next hna =>
      refine .reason (.unexpected _ ?_ fun d hd => hna d hd)
      intro haw
      generalize hst : s.state = st at haw
      cases haw <;> simp_all

/-- C102: the alert a server answers an event with is unexpected_message for a failure without one (of the decoders,
the encoders, the key schedule or the state), or it comes from the application, or what it says is true of the
event, the configuration and the state. -/
theorem C102_server (hok : ∀ c a, cfg.hashOf c = .ok a → a.Ok) {p : Param} {f : Failure} {a : UInt8}
    (h : handle cfg inp s unparsed p = .error f) (ha : Server.alertFor f = some a) :
    (a = 10 ∧ named f = none) ∨ Supplied cfg inp p f ∨ Reason cfg inp s unparsed p a := by
  have hn : ∀ b, named f = some b → b = a := by
    intro b hb
    cases f with
    | err m x c => cases c <;> simp_all [named, Server.alertFor]
    | _ => cases hb
  rcases (why_handle hok p).out f h with hq | hs | ⟨b, hb, hr⟩
  · refine .inl ⟨?_, hq⟩
    cases f with
    | err m x c => cases c <;> simp_all [named, Server.alertFor]
    | _ => exact (Option.some.inj ha).symm
  · exact .inr (.inl hs)
  · exact .inr (.inr (hn b hb ▸ hr))

end Fizz.Alerts
