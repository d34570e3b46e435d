import Verif.Verifier.Model
import Verif.Codec.ExtProps
import Verif.ClientSM.Props
import Verif.Server.Props

/-! # C93: the default certificate verifier -/

namespace Fizz.Verifier
open Fizz Fizz.Codec

/-! ## Specification -/

/-- The use of the peer's certificate: a client verifies a server's. -/
def peerPurpose : Context → String
  | .client => "ssl_server"
  | .server => "ssl_client"

/-- OpenSSL has validated the chain: its first certificate for use by the peer (a server if we are a
client), with the others as untrusted helpers, against that store, with strict checks. -/
structure Validated {C X S F} (l : Lib C X S F) (context : Context) (callback : Option F) (store : S)
    (certs : List C) : Prop where
  query : ∃ c cs x xs, certs = c :: cs ∧ l.getX509 c = some x ∧
    List.Forall₂ (fun c x => l.getX509 c = some x) cs xs ∧
    l.verifyCert (
      ⟨store, x, xs, peerPurpose context, true, callback⟩ : Query X S F) = none

/-- The store a history of calls leaves in place. -/
def lastStore {C X S F} (s0 : Option S) : List (Lib C X S F × Op C S F) → Option S
  | [] => s0
  | (_, .setStore s) :: os => lastStore s os
  | _ :: os => lastStore s0 os

/-- The callback a history of calls leaves in place. -/
def lastCallback {C X S F} (f0 : Option F) : List (Lib C X S F × Op C S F) → Option F
  | [] => f0
  | (_, .setCallback f) :: os => lastCallback f os
  | _ :: os => lastCallback f0 os

/-! ## Lemmas -/

theorem getX509s_eq {C X S F} (l : Lib C X S F) : ∀ (cs : List C) (xs : List X),
    getX509s l cs = .ok xs ↔ List.Forall₂ (fun c x => l.getX509 c = some x) cs xs := by
  intro cs
  induction cs with
  | nil => intro xs; cases xs <;> simp [getX509s]
  | cons c cs ih =>
    intro xs
    unfold getX509s
    cases h : l.getX509 c with
    | none => cases xs <;> simp [h]
    | some x =>
      simp only [Res.bind_eq_ok, Res.pure_eq, Except.ok.injEq]
      constructor
      · rintro ⟨ys, hy, rfl⟩
        exact .cons h ((ih ys).1 hy)
      · intro hf
        cases hf with
        | cons h1 h2 =>
          rw [h] at h1
          cases Option.some.inj h1
          exact ⟨_, (ih _).2 h2, rfl⟩

theorem call_ok {C X S F} (l : Lib C X S F) (c : Call) (f : Failure) :
    call l c f = .ok () ↔ l.fails c = false := by
  unfold call
  cases l.fails c <;> simp

theorem call_ok' {C X S F} (l : Lib C X S F) (c : Call) (f : Failure) (a : Unit) :
    call l c f = .ok a ↔ l.fails c = false := call_ok l c f

theorem verifyWith_ok {C X S F} (l : Lib C X S F) (v : V S F) (store : S) (x : X) (xs : List X) :
    verifyWith l v store x xs = .ok () ↔
      (∀ c ∈ [Call.ctxInit, .setDefault, .paramNew, .setFlags, .set1], l.fails c = false) ∧
      l.verifyCert (
      ⟨store, x, xs, peerPurpose v.context, true, v.callback⟩ : Query X S F) = none := by
  have hp : (if v.context = .server then "ssl_client" else "ssl_server") =
      peerPurpose v.context := by
    cases v.context <;> rfl
  unfold verifyWith
  rw [hp]
  simp only [Res.bind_eq_ok, call_ok', List.mem_cons, List.not_mem_nil, or_false, forall_eq_or_imp,
    forall_eq]
  cases l.verifyCert _ with
  | none => simp [Res.pure_eq]
  | some e => simp

theorem verify_ok {C X S F} (l : Lib C X S F) (v : V S F) (cache cache' : Option S) (certs : List C)
    (r : Option C) : verify l v cache certs = (.ok r, cache') ↔
      (∀ c, l.fails c = false) ∧ certs.head? = r ∧ r ≠ none ∧
      ∃ s, storeInUse l v.store cache = (.ok s, cache') ∧
        Validated l v.context v.callback s certs := by
  have all : (∀ c, l.fails c = false) ↔ (l.fails .skNew = false ∧ l.fails .ctxNew = false ∧
      ∀ c ∈ [Call.ctxInit, .setDefault, .paramNew, .setFlags, .set1], l.fails c = false) := by
    constructor
    · intro h; exact ⟨h _, h _, fun c _ => h c⟩
    · rintro ⟨h1, h2, h3⟩ c
      cases c <;> first | exact h1 | exact h2 | exact h3 _ (by simp)
  cases certs with
  | nil =>
    unfold verify verifyWithCtx
    constructor
    · intro h; cases h
    · rintro ⟨-, h2, h3, -⟩; exact absurd h2.symm h3
  | cons c cs =>
    unfold verify verifyWithCtx
    simp only
    cases hx : getX509s l (c :: cs) with
    | error f =>
      constructor
      · intro h; cases h
      · rintro ⟨-, -, -, s, -, ⟨c', cs', x, xs, he, h1, h2, -⟩⟩
        cases he
        rw [(getX509s_eq l _ _).2 (.cons h1 h2)] at hx
        cases hx
    | ok zs =>
      have hf := (getX509s_eq l _ _).1 hx
      cases hf with
      | @cons _ x _ xs h1 h2 =>
        simp only
        rw [all]
        cases hk : l.fails .skNew with
        | true =>
          have : call l .skNew badAlloc = .error badAlloc := by unfold call; rw [if_pos hk]
          rw [this]
          constructor
          · intro h; cases h
          · rintro ⟨⟨h, -⟩, -⟩; cases h
        | false =>
        rw [(call_ok l .skNew badAlloc).2 hk]
        cases hc : l.fails .ctxNew with
        | true =>
          have : call l .ctxNew badAlloc = .error badAlloc := by unfold call; rw [if_pos hc]
          rw [this]
          constructor
          · intro h; cases h
          · rintro ⟨⟨-, h, -⟩, -⟩; cases h
        | false =>
        rw [(call_ok l .ctxNew badAlloc).2 hc]
        simp only
        cases hs : storeInUse l v.store cache with
        | mk rs ca =>
        cases rs with
        | error f =>
          constructor
          · intro h; cases h
          · rintro ⟨-, -, -, s, h, -⟩; cases h
        | ok s =>
          simp only
          cases hw : verifyWith l v s x xs with
          | error f =>
            constructor
            · intro h; cases h
            · rintro ⟨⟨-, -, h3⟩, -, -, s', h, ⟨c', cs', x', xs', he, k1, k2, k3⟩⟩
              cases h
              cases he
              rw [h1] at k1
              cases Option.some.inj k1
              have : xs = xs' := by
                have e1 := (getX509s_eq l _ _).2 h2
                have e2 := (getX509s_eq l _ _).2 k2
                rw [e1] at e2
                exact Except.ok.inj e2
              subst this
              rw [(verifyWith_ok l v s x xs).2 ⟨h3, k3⟩] at hw
              cases hw
          | ok u =>
            obtain ⟨h3, h4⟩ := (verifyWith_ok l v s x xs).1 hw
            constructor
            · intro h
              cases h
              exact ⟨⟨trivial, trivial, h3⟩, rfl, by simp, s, rfl, ⟨c, cs, x, xs, rfl, h1, h2, h4⟩⟩
            · rintro ⟨-, h2, -, s', h, -⟩
              cases h
              rw [← h2]
              rfl

theorem createAuthorities_eq {C X S F} (l : Lib C X S F) : ∀ (es : List (Entry X)) (ds : List Bytes),
    createAuthorities l es = .ok ds ↔
      List.Forall₂ (fun x d => l.subject x = some d)
        (es.filterMap fun | .cert x => some x | .other => none) ds := by
  intro es
  induction es with
  | nil => intro ds; cases ds <;> simp [createAuthorities]
  | cons e es ih =>
    intro ds
    cases e with
    | other => simpa [createAuthorities] using ih ds
    | cert x =>
      simp only [createAuthorities, List.filterMap_cons]
      cases h : l.subject x with
      | none => cases ds <;> simp [h]
      | some d =>
        simp only [Res.bind_eq_ok, Res.pure_eq, Except.ok.injEq]
        constructor
        · rintro ⟨ys, hy, rfl⟩
          exact .cons h ((ih ys).1 hy)
        · intro hf
          cases hf with
          | cons h1 h2 =>
            rw [h] at h1
            cases Option.some.inj h1
            exact ⟨_, (ih _).2 h2, rfl⟩

theorem run_fields {C X S F} : ∀ (ops : List (Lib C X S F × Op C S F)) (v : V S F) (cache : Option S),
    (run v cache ops).1.context = v.context ∧ (run v cache ops).1.store = lastStore v.store ops ∧
    (run v cache ops).1.callback = lastCallback v.callback ops ∧
    (∀ s, cache = some s → (run v cache ops).2 = some s) := by
  intro ops
  induction ops with
  | nil => intro v cache; exact ⟨rfl, rfl, rfl, fun s h => h⟩
  | cons o os ih =>
    obtain ⟨l, op⟩ := o
    intro v cache
    have cacheKept : ∀ st s, cache = some s → (storeInUse l st cache).2 = some s := by
      intro st s h
      subst h
      cases st <;> rfl
    cases op with
    | verify certs =>
      have e : run v cache ((l, .verify certs) :: os) = run v (verify l v cache certs).2 os := rfl
      obtain ⟨h1, h2, h3, h4⟩ := ih v (verify l v cache certs).2
      rw [e]
      refine ⟨h1, h2, h3, fun s hs => h4 s ?_⟩
      subst hs
      have key : (verifyWithCtx l v (some s) certs).2 = some s := by
        unfold verifyWithCtx
        split
        · rfl
        · split
          · rfl
          · rfl
          · split
            · rfl
            · rfl
            · have hc := cacheKept v.store s rfl
              split <;> · rename_i hq; rw [hq] at hc; exact hc
      unfold verify
      split
      · rename_i hq; rw [hq] at key; exact key
      · rename_i hq; rw [hq] at key
        split <;> exact key
    | setStore st =>
      have e : run v cache ((l, .setStore st) :: os) =
        run (setX509Store l v cache st).2.1 (setX509Store l v cache st).2.2 os := rfl
      obtain ⟨h1, h2, h3, h4⟩ := ih (setX509Store l v cache st).2.1 (setX509Store l v cache st).2.2
      rw [e]
      have f : (setX509Store l v cache st).2.1.context = v.context ∧
          (setX509Store l v cache st).2.1.store = st ∧
          (setX509Store l v cache st).2.1.callback = v.callback ∧
          (setX509Store l v cache st).2.2 = (storeInUse l st cache).2 := by
        unfold setX509Store
        simp only
        cases hq : storeInUse l st cache with
        | mk r ca =>
        cases r with
        | error f => exact ⟨rfl, rfl, rfl, rfl⟩
        | ok s =>
          simp only
          cases createAuthorities l (l.objects s) <;> exact ⟨rfl, rfl, rfl, rfl⟩
      refine ⟨h1.trans f.1, ?_, ?_, fun s hs => h4 s (f.2.2.2.trans (cacheKept st s hs))⟩
      · rw [h2, f.2.1]; rfl
      · rw [h3, f.2.2.1]; rfl
    | setCallback cb => exact ih { v with callback := cb } cache

/-! ## C93 -/

/-- C93: whatever was done with the verifier before: it accepts a chain exactly if none of OpenSSL's calls
fails and OpenSSL validates the chain: the first certificate, for the peer's role, with the rest as
untrusted helpers, strictly, with the callback set last, and against the store set last, or without one
the default store of the process.  The answer is the first certificate. -/
theorem C93_verify {C X S F} (v : V S F) (cache : Option S) (ops : List (Lib C X S F × Op C S F))
    (l : Lib C X S F) (certs : List C) (r : Option C) (cache' : Option S) :
    verify l (run v cache ops).1 (run v cache ops).2 certs = (.ok r, cache') ↔
      (∀ c, l.fails c = false) ∧ certs.head? = r ∧ r ≠ none ∧
      ∃ s, (match lastStore v.store ops with
          | some s' => s' = s ∧ cache' = (run v cache ops).2
          | none => cache' = some s ∧ ((run v cache ops).2 = some s ∨
              ((run v cache ops).2 = none ∧ l.newDefaultStore = .ok s))) ∧
        Validated l v.context (lastCallback v.callback ops) s certs := by
  obtain ⟨h1, h2, h3, -⟩ := run_fields ops v cache
  rw [verify_ok, h1, h2, h3]
  have key : ∀ s, storeInUse l (lastStore v.store ops) (run v cache ops).2 = (.ok s, cache') ↔
      (match lastStore v.store ops with
          | some s' => s' = s ∧ cache' = (run v cache ops).2
          | none => cache' = some s ∧ ((run v cache ops).2 = some s ∨
              ((run v cache ops).2 = none ∧ l.newDefaultStore = .ok s))) := by
    intro s
    cases lastStore v.store ops with
    | some s' =>
      simp only [storeInUse, Prod.mk.injEq, Except.ok.injEq]
      exact ⟨fun h => ⟨h.1, h.2.symm⟩, fun h => ⟨h.1, h.2.symm⟩⟩
    | none =>
      unfold storeInUse getDefaultStore
      cases (run v cache ops).2 with
      | some s' =>
        simp only [Prod.mk.injEq, Except.ok.injEq]
        constructor
        · rintro ⟨rfl, rfl⟩; exact ⟨rfl, .inl rfl⟩
        · rintro ⟨rfl, h | ⟨h, -⟩⟩
          · cases Option.some.inj h; exact ⟨rfl, rfl⟩
          · cases h
      | none =>
        cases l.newDefaultStore with
        | error f => simp
        | ok s' =>
          simp only [Prod.mk.injEq, Except.ok.injEq]
          constructor
          · rintro ⟨rfl, rfl⟩; exact ⟨rfl, .inr ⟨trivial, rfl⟩⟩
          · rintro ⟨rfl, h | ⟨-, h⟩⟩
            · cases h
            · subst h; exact ⟨rfl, rfl⟩
  constructor
  · rintro ⟨a, b, c, s, d, e⟩; exact ⟨a, b, c, s, (key s).1 d, e⟩
  · rintro ⟨a, b, c, s, d, e⟩; exact ⟨a, b, c, s, (key s).2 d, e⟩

/-- C93: the default store, once made, stays the same for the life of the process. -/
theorem C93_default {C X S F} (v : V S F) (s : S) (ops : List (Lib C X S F × Op C S F)) :
    (run v (some s) ops).2 = some s := (run_fields ops v (some s)).2.2.2 s rfl

/-- C93: no certificates, no acceptance; the error has no alert of its own. -/
theorem C93_empty {C X S F} (l : Lib C X S F) (v : V S F) (cache : Option S) :
    (verify l v cache ([] : List C)).1 = .error (Failure.rt "no certificates to verify") := rfl

/-- C93: a chain OpenSSL refuses ends in a verification error with OpenSSL's reason and one of four
alerts: `certificate_revoked` for a revoked certificate, `certificate_expired` for one out of its period
of validity, `unknown_ca` if no path to a trusted certificate was found, else `bad_certificate`. -/
theorem C93_alert {C X S F} (l : Lib C X S F) (v : V S F) (s : S) (cache : Option S) (c : C) (cs : List C)
    (x : X) (xs : List X) (e : VErr) (hs : v.store = some s) (hf : ∀ c, l.fails c = false)
    (hx : l.getX509 c = some x) (hxs : List.Forall₂ (fun c x => l.getX509 c = some x) cs xs)
    (h : l.verifyCert (
      ⟨s, x, xs, peerPurpose v.context, true, v.callback⟩ : Query X S F) = some e) :
    ∃ alert : UInt8, (verify l v cache (c :: cs)).1 =
        .error (.err ("certificate verification failed: " ++ l.errorString e) (some alert) .verifier) ∧
      (alert = 44 ↔ e = .certRevoked) ∧ (alert = 45 ↔ e = .certNotYetValid ∨ e = .certHasExpired) ∧
      (alert = 48 ↔ e ∈ [.certChainTooLong, .depthZeroSelfSigned, .pathLengthExceeded, .invalidCa,
        .selfSignedInChain, .unableToGetIssuer, .unableToGetIssuerLocally]) ∧
      (alert = 42 ↔ ∃ n, e = .other n) := by
  refine ⟨toTLSAlert e, ?_, ?_, ?_, ?_, ?_⟩
  · have hp : (if v.context = .server then "ssl_client" else "ssl_server") =
        peerPurpose v.context := by
      cases v.context <;> rfl
    have hg := (getX509s_eq l (c :: cs) _).2 (.cons hx hxs)
    unfold verify verifyWithCtx
    simp only [hg]
    rw [(call_ok l .skNew badAlloc).2 (hf _), (call_ok l .ctxNew badAlloc).2 (hf _)]
    simp only [hs, storeInUse]
    unfold verifyWith
    rw [(call_ok l .ctxInit _).2 (hf _), (call_ok l .setDefault _).2 (hf _),
      (call_ok l .paramNew _).2 (hf _), (call_ok l .setFlags _).2 (hf _),
      (call_ok l .set1 _).2 (hf _), hp]
    simp only [Res.ok_bind, h]
  all_goals cases e <;> simp [toTLSAlert]

/-- C93: the request to a client names the authorities of the store the verifier was made with: its one
extension is read back as the subject names of the certificates of the store, in order, nothing else. -/
theorem C93_authorities {C X S F} (l : Lib C X S F) (cache cache' : Option S) (context : Context)
    (store : S) (v : V S F) (h : create l cache context (some store) = (.ok v, cache')) :
    v.context = context ∧ v.store = some store ∧ v.callback = none ∧
    ∃ names, List.Forall₂ (fun x d => l.subject x = some d)
        ((l.objects store).filterMap fun | .cert x => some x | .other => none) names ∧
      ∀ exts, getCertificateRequestExtensions v = .ok exts →
        (∃ e, exts = [e]) ∧ getCertificateAuthorities exts = .ok (some ⟨names.map fun d => ⟨d⟩⟩) := by
  simp only [create, storeInUse] at h
  cases ha : createAuthorities l (l.objects store) with
  | error f => rw [ha] at h; cases h
  | ok a =>
    rw [ha] at h
    cases h
    refine ⟨rfl, rfl, rfl, a, (createAuthorities_eq l _ _).1 ha, ?_⟩
    intro exts he
    simp only [getCertificateRequestExtensions, Res.bind_eq_ok, Res.pure_eq, Except.ok.injEq] at he
    obtain ⟨e, h1, rfl⟩ := he
    refine ⟨⟨e, rfl⟩, ((C03_certificateAuthorities _).2.1 _).2 ⟨e, [], [], h1, rfl, by simp⟩⟩

/-- C93: likewise after a new store has been set with success. -/
theorem C93_setStore {C X S F} (l : Lib C X S F) (v v' : V S F) (cache cache' : Option S) (store : S)
    (h : setX509Store l v cache (some store) = (.ok (), v', cache')) :
    v'.store = some store ∧ v'.context = v.context ∧ v'.callback = v.callback ∧
    List.Forall₂ (fun x d => l.subject x = some d)
        ((l.objects store).filterMap fun | .cert x => some x | .other => none) v'.authorities := by
  simp only [setX509Store, storeInUse] at h
  cases ha : createAuthorities l (l.objects store) with
  | error f => rw [ha] at h; cases h
  | ok a =>
    rw [ha] at h
    cases h
    exact ⟨rfl, rfl, rfl, (createAuthorities_eq l _ _).1 ha⟩

/-- C93 (what the code does): if setting a store fails because a name cannot be encoded, the new store is in
force nevertheless, and the requests still name the authorities of the old one. -/
theorem C93_setStore_fails {C X S F} (l : Lib C X S F) (v : V S F) (cache : Option S) (store : S) (x : X)
    (hx : .cert x ∈ l.objects store) (h : l.subject x = none) :
    ∃ f, (setX509Store l v cache (some store)).1 = .error f ∧
      (setX509Store l v cache (some store)).2.1 = { v with store := some store } := by
  simp only [setX509Store, storeInUse]
  cases ha : createAuthorities l (l.objects store) with
  | error f => exact ⟨f, rfl, rfl⟩
  | ok a =>
    exfalso
    have hf := (createAuthorities_eq l _ _).1 ha
    have hm : x ∈ (l.objects store).filterMap (fun | .cert x => some x | .other => none) :=
      List.mem_filterMap.2 ⟨.cert x, hx, rfl⟩
    clear ha hx
    generalize (l.objects store).filterMap (fun | .cert x => some x | .other => none) = xs at hf hm
    induction hf with
    | nil => cases hm
    | cons h1 _ ih =>
      rcases List.mem_cons.1 hm with rfl | hm
      · rw [h] at h1; cases h1
      · exact ih hm

/-- C93: the recording verifier gives the inner verifier's answer, and keeps the chain presented last. -/
theorem C93_recording {C} (inner : List C → Res (Option C)) (chains : List (List C)) (last : List C) :
    (storeChainVerify inner last).1 = inner last ∧
    (chains ++ [last]).foldl (fun _ c => (storeChainVerify inner c).2) [] = last := by
  simp [storeChainVerify]

/-! ## In a handshake -/

open Fizz.Server (PeerCert)

/-- C93, for a client: if the client's verifier is one made by `create` for the client's role, with a store
of its own and no callback, then success without a PSK means that OpenSSL has validated, for a TLS server
and against that store, the chain the server sent, and the connection's server certificate is its leaf. -/
theorem C93_client {cfg : ClientSM.Cfg} {X S F} (hok : ∀ c a, cfg.hashOf c = .ok a → a.Ok)
    {newer y older s} (hr : ClientSM.Run cfg (newer ++ y :: older) s) {b : Bool}
    (hs : .reportHandshakeSuccess b ∈ y.acts) (hv : cfg.hasVerifier = true)
    (l : Lib PeerCert X S F) (cache cache' : Option S) (store : S) (v : V S F)
    (hc : create l cache .client (some store) = (.ok v, cache'))
    (hin : ∀ z ∈ newer ++ y :: older, ∀ chain, z.env.inp.verifyChain chain = (verify l v cache' chain).1) :
    ∃ g, ClientSM.Spec.Fixed cfg older g ∧
      ((∀ psk, g.psk = some psk → ¬ ClientSM.Spec.PskAuth psk) →
        ∃ leaf chain, (ClientSM.Spec.post y).serverCert = some (.inr leaf) ∧
          (∃ n z o, older = n ++ z :: o ∧ ClientSM.Spec.SentChain cfg o leaf chain) ∧
          Validated l .client none store (leaf :: chain)) := by
  obtain ⟨g, m, orig, early, h1, -, -, -, -, h6, -⟩ := ClientSM.C30_success hok hr hs
  refine ⟨g, h1, fun hno => ?_⟩
  rcases h6 with ⟨psk, k1, k2, -⟩ | ⟨-, c, k1, n, z, o, m', orig', leaf, chain, rfl, -, k4, -, -, -, k8⟩
  · exact absurd k2 (hno psk k1)
  · obtain ⟨r, e1, e2⟩ := k8 hv
    rw [hin z (by simp)] at e1
    obtain ⟨a1, a2, a3, -⟩ := C93_authorities l cache cache' .client store v hc
    have hvr := (verify_ok l v cache' (verify l v cache' (leaf :: chain)).2 (leaf :: chain) r).1
      (Prod.ext e1 rfl)
    obtain ⟨-, b2, -, s', b4, b5⟩ := hvr
    rw [a2] at b4
    have b6 : store = s' := Except.ok.inj (congrArg Prod.fst b4)
    subst b6
    rw [a1, a3] at b5
    refine ⟨leaf, chain, ?_, ⟨n, z, o, rfl, k4⟩, b5⟩
    rw [k1, e2, ← b2]
    rfl

/-- C93, for a server that requires client authentication: likewise, for use by a TLS client. -/
theorem C93_server {cfg : Server.Cfg} {X S F} (hok : ∀ c a, cfg.hashOf c = .ok a → a.Ok)
    {newer y older s} (hreq : cfg.clientAuthMode = .required)
    (hr : Server.Run cfg (newer ++ y :: older) s) (hs : .reportHandshakeSuccess ∈ y.acts)
    (hv : cfg.hasClientCertVerifier = true)
    (l : Lib PeerCert X S F) (cache cache' : Option S) (store : S) (v : V S F)
    (hc : create l cache .server (some store) = (.ok v, cache'))
    (hin : ∀ z ∈ newer ++ y :: older, ∀ chain, z.env.inp.verifyChain chain = (verify l v cache' chain).1) :
    ∃ g, Server.Spec.Fixed cfg older g ∧
      (g.psk = none → ∃ leaf chain, (Server.Spec.post y).clientCert = some leaf ∧
        (∃ n z o, older = n ++ z :: o ∧ Server.Spec.SentChain o leaf chain) ∧
        Validated l .server none store (leaf :: chain)) := by
  obtain ⟨g, h1, h2, -⟩ := Server.C29_required hok hreq hr hs
  refine ⟨g, h1, fun hno => ?_⟩
  obtain ⟨c, k1, n, z, o, m', orig', leaf, chain, rfl, -, k4, -, -, -, k8⟩ := h2 hno
  obtain ⟨r, e1, e2⟩ := k8 hv
  rw [hin z (by simp)] at e1
  obtain ⟨a1, a2, a3, -⟩ := C93_authorities l cache cache' .server store v hc
  obtain ⟨-, b2, -, s', b4, b5⟩ :=
    (verify_ok l v cache' (verify l v cache' (leaf :: chain)).2 (leaf :: chain) r).1 (Prod.ext e1 rfl)
  rw [a2] at b4
  have b6 : store = s' := Except.ok.inj (congrArg Prod.fst b4)
  subst b6
  rw [a1, a3] at b5
  refine ⟨leaf, chain, ?_, ⟨n, z, o, rfl, k4⟩, b5⟩
  rw [k1, e2, ← b2]
  rfl

/-! ## A concrete case -/

/-- OpenSSL with certificates as numbers: a chain is valid if every certificate is the successor of the one
before it and the last one is in the store; only for servers; 0 is expired. -/
def toyLib : Lib Nat Nat (List Nat) Unit where
  getX509 c := some c
  fails _ := false
  verifyCert q :=
    if q.leaf = 0 then some .certHasExpired
    else if q.purpose ≠ "ssl_server" then some (.other 26)
    else if (q.leaf :: q.untrusted).getLast?.any (fun x => q.store.contains x) then none
    else some .unableToGetIssuerLocally
  errorString _ := "no"
  objects s := s.map .cert ++ [.other]
  subject x := some [UInt8.ofNat x]
  newDefaultStore := .error (Failure.rt "failed to set default paths")

/-- A verifier of the default store that has none yet, then given the store [7]: the chain 5, 6, 7 is
accepted, the chain 5, 6 is not and the alert is `unknown_ca`. -/
example : ∃ v, create toyLib none .client (some [7, 8]) = (.ok v, none) ∧
    v.authorities = [[7], [8]] ∧
    (verify toyLib (run v none [(toyLib, .setStore (some [7]))]).1 none [5, 6, 7]) =
      (.ok (some 5), none) ∧
    (verify toyLib (run v none [(toyLib, .setStore (some [7]))]).1 none [5, 6]).1 =
      .error (.err "certificate verification failed: no" (some 48) .verifier) ∧
    Validated toyLib .client none [7] [5, 6, 7] :=
  ⟨_, rfl, rfl, rfl, rfl, ⟨5, [6, 7], 5, [6, 7], rfl, rfl, .cons rfl (.cons rfl .nil), rfl⟩⟩

end Fizz.Verifier
