import Verif.Ech.TamperProps

/-!
# What the server's decrypter does (C70)
-/

namespace Fizz.Ech
open Fizz Fizz.Codec Fizz.Crypto Fizz.Kex Fizz.Hpke
open Fizz.Ech.Spec (types)

variable {K : Kex}

theorem all_zero {l : Bytes} (h : l.all (· == 0) = true) : ∃ k, l = List.replicate k 0 := by
  refine ⟨l.length, ?_⟩
  rw [List.eq_replicate_iff]
  refine ⟨rfl, fun b hb => ?_⟩
  have := List.all_eq_true.1 h b hb
  simpa using this

theorem decodeInner_ok {o pt inner enc} (h : decodeInner o pt = .ok (inner, enc)) :
    Spec.StandsFor o pt inner ∧ encodeHandshake (.clientHello inner) = .ok enc := by
  unfold decodeInner at h
  simp only [Res.bind_eq_ok, Prod.exists, Res.pure_eq, Except.ok.injEq, Prod.mk.injEq] at h
  obtain ⟨m, rest, h1, u, h2, exts, h3, enc', h4, rfl, rfl⟩ := h
  refine ⟨?_, h4⟩
  unfold checkPadding at h2
  split at h2
  · next hz =>
    obtain ⟨k, rfl⟩ := all_zero hz
    have hE := (C34_expand _ _).1 _ h3
    obtain ⟨-, h | ⟨h5, -, h6⟩⟩ := readClientHello_eq_ok.1 h1
    · exact ⟨m, k, .inl h, hE, rfl⟩
    · exact ⟨m, k, .inr ⟨h5, h6⟩, hE, rfl⟩
  · simp at h2

theorem decryptWith_ok {o e t x ctx r} (hx : findExtension o.extensions tyEch = some x)
    (hr : readOuterEch x.extension_data = .ok (e, t)) (h : decryptWith o e.payload ctx = .ok r) :
    Spec.Opens o e t ctx r.chlo ∧ encodeHandshake (.clientHello r.chlo) = .ok r.encoding ∧
      r.context = { ctx with seq := ctx.seq + 1 } := by
  unfold decryptWith at h
  simp only [Res.bind_eq_ok, Prod.exists, Res.pure_eq, Except.ok.injEq] at h
  obtain ⟨a, h1, pt, c', h2, inner, enc, h3, rfl⟩ := h
  obtain ⟨e2, t2, h4⟩ := outerAad_eq_ok.1 h1
  obtain ⟨f1, f2⟩ := aad_ext h4
  rw [f1] at hx
  cases Option.some.inj hx
  rw [f2] at hr
  simp only [Except.ok.injEq, Prod.mk.injEq] at hr
  obtain ⟨rfl, rfl⟩ := hr
  simp only [sealed, Res.bind_eq_ok, Res.pure_eq, Except.ok.injEq, Prod.mk.injEq] at h2
  obtain ⟨pt', h2, rfl, rfl⟩ := h2
  obtain ⟨g1, g2⟩ := decodeInner_ok h3
  unfold Context.openMsg at h2 ⊢
  split at h2
  · simp at h2
  · next hrole =>
    rw [if_neg hrole]
    split at h2
    · simp at h2
    · next pt2 hd =>
      simp only
      split at h2
      · simp at h2
      · next c2 hc =>
        simp only [Except.ok.injEq] at h2
        subst h2
        simp only [Context.decrypt, Res.bind_eq_ok] at hd
        obtain ⟨nonce, d1, d2⟩ := hd
        unfold Context.incrementSeq at hc
        split at hc
        · simp at hc
        · simp only [Except.ok.injEq] at hc
          subst hc
          split at d2
          · next pt3 d3 =>
            simp only [Except.ok.injEq] at d2
            subst d2
            exact ⟨⟨a, nonce, pt3, h4, d1, d3, g1⟩, g2, rfl⟩
          · simp at d2

/-- The first configuration with an id. -/
def FirstWithId (params : List (DecParam K)) (id : UInt8) (p : DecParam K) : Prop :=
  ∃ pre post, params = pre ++ p :: post ∧ p.config.key.configId = id ∧ ∀ q ∈ pre, q.config.key.configId ≠ id

theorem find_first {params : List (DecParam K)} {id : UInt8} {p} :
    params.find? (fun q => id == q.config.key.configId) = some p ↔ FirstWithId params id p := by
  rw [List.find?_eq_some_iff_append]
  unfold FirstWithId
  constructor
  · rintro ⟨h1, pre, post, rfl, h2⟩
    refine ⟨pre, post, rfl, ?_, ?_⟩
    · simpa using (beq_iff_eq.1 h1).symm
    · intro q hq he
      have := h2 q hq
      simp [he] at this
  · rintro ⟨pre, post, rfl, h1, h2⟩
    refine ⟨by simp [h1], pre, post, rfl, ?_⟩
    intro q hq
    have := h2 q hq
    simp only [Bool.not_eq_true', beq_eq_false_iff_ne, ne_eq]
    exact fun h => this h.symm

/-- C70: a hello the decrypter accepts carries an ECH extension; its payload has been opened, with the whole outer
hello as additional data, in a context made with the key of the first configuration that has its id; and what is
returned is what the plaintext stands for, with its encoding. -/
theorem C70_accept (P : Prims) (params : List (DecParam K)) (u : K.Rand) (o : ClientHello) (d : Decrypted)
    (h : decryptHello P params u o = .ok (some d)) :
    ∃ x e t p c, findExtension o.extensions 0xfe0d = some x ∧ readOuterEch x.extension_data = .ok (e, t) ∧
      FirstWithId params e.configId p ∧ setupReceiver P p.kex u p.config e.suite e.enc 0 = .ok c ∧
      Spec.Opens o e t c d.opened.chlo ∧ encodeHandshake (.clientHello d.opened.chlo) = .ok d.opened.encoding ∧
      d.opened.context = { c with seq := c.seq + 1 } ∧ d.configId = e.configId := by
  unfold decryptHello at h
  cases hx : findExtension o.extensions tyEch with
  | none => rw [hx] at h; simp at h
  | some x =>
    rw [hx] at h
    simp only [tryDecode, lookup, Res.bind_eq_ok, Prod.exists, Res.pure_eq, Except.ok.injEq] at h
    obtain ⟨l, ⟨e, t, hr, rfl⟩, h⟩ := h
    cases hf : params.find? (fun q => e.configId == q.config.key.configId) with
    | none => rw [hf] at h; simp at h
    | some p =>
      rw [hf] at h
      simp only [Option.map_some] at h
      cases ho : tryOpen P u o e p with
      | error f =>
        rw [ho] at h
        unfold caught at h
        split at h <;> simp_all
      | ok d' =>
        rw [ho] at h
        simp only [caught, Except.ok.injEq, Option.some.injEq] at h
        subst h
        unfold tryOpen at ho
        simp only [Res.bind_eq_ok, Res.pure_eq, Except.ok.injEq] at ho
        obtain ⟨c, h1, r, h2, rfl⟩ := ho
        obtain ⟨g1, g2, g3⟩ := decryptWith_ok hx hr h2
        exact ⟨x, e, t, p, c, hx, hr, find_first.1 hf, h1, g1, g2, g3, rfl⟩

/-- A C++ exception of the standard library or of fizz: neither the end of the process nor undefined behaviour. -/
def Catchable : Failure → Prop
  | .abort => False
  | .ub _ => False
  | _ => True

/-- C70: without an ECH extension, or with the id of no configuration, the hello is left alone; an extension that
cannot be decoded is an error; and whatever goes wrong when it is opened, the hello is again left alone (the
server goes on with the outer one), except that a wrong reference to outer extensions is an
`illegal_parameter` error. -/
theorem C70_reject (P : Prims) (params : List (DecParam K)) (u : K.Rand) (o : ClientHello) :
    (findExtension o.extensions 0xfe0d = none → decryptHello P params u o = .ok none) ∧
    ∀ x, findExtension o.extensions 0xfe0d = some x →
      (∀ f, readOuterEch x.extension_data = .error f → decryptHello P params u o = .error f) ∧
      ∀ e t, readOuterEch x.extension_data = .ok (e, t) →
        ((∀ p ∈ params, p.config.key.configId ≠ e.configId) → decryptHello P params u o = .ok none) ∧
        ∀ p, FirstWithId params e.configId p → ∀ f, tryOpen P u o e p = .error f → Catchable f →
          decryptHello P params u o = .ok none ∨
          ∃ m a, f = .err m a .outerExtensions ∧ decryptHello P params u o = .error (.err m (some 47) .fizz) := by
  refine ⟨fun h => ?_, fun x hx => ⟨fun f hf => ?_, fun e t hr => ⟨fun hn => ?_, fun p hp f hf hc => ?_⟩⟩⟩
  · unfold decryptHello
    rw [show tyEch = 0xfe0d from rfl, h]
  · unfold decryptHello
    rw [show tyEch = 0xfe0d from rfl, hx]
    simp only [tryDecode, lookup, hf]
    rfl
  · unfold decryptHello
    rw [show tyEch = 0xfe0d from rfl, hx]
    simp only [tryDecode, lookup, hr, Res.ok_bind, Res.pure_eq]
    have : params.find? (fun q => e.configId == q.config.key.configId) = none := by
      rw [List.find?_eq_none]
      intro q hq
      have := hn q hq
      simp only [beq_iff_eq]
      exact fun h => this h.symm
    rw [this]; rfl
  · have hd : decryptHello P params u o = caught (.error f : Res Decrypted) := by
      unfold decryptHello
      rw [show tyEch = 0xfe0d from rfl, hx]
      simp only [tryDecode, lookup, hr, Res.ok_bind, Res.pure_eq, find_first.2 hp, Option.map_some, hf]
    rw [hd]
    cases f with
    | err m a c =>
      cases c
      case outerExtensions => right; exact ⟨m, a, rfl, rfl⟩
      all_goals left; rfl
    | abort => exact absurd hc (by simp [Catchable])
    | ub w => exact absurd hc (by simp [Catchable])
    | _ => left; rfl

/-- C70, after a HelloRetryRequest: the second hello must carry an ECH extension with the id of a configuration,
and must open, in the context kept or made again at sequence number 1; everything else is an error. -/
theorem C70_retry (P : Prims) (params : List (DecParam K)) (u : K.Rand) (o : ClientHello)
    (ctx : Option Context) (enc : Option Bytes) :
    (∀ r, decryptHelloHrr P params u o ctx enc = .ok r →
      ∃ x e t p c, findExtension o.extensions 0xfe0d = some x ∧ readOuterEch x.extension_data = .ok (e, t) ∧
        FirstWithId params e.configId p ∧
        (ctx = some c ∨ ctx = none ∧ ∃ b, enc = some b ∧ setupReceiver P p.kex u p.config e.suite b 1 = .ok c) ∧
        Spec.Opens o e t c r.chlo ∧ encodeHandshake (.clientHello r.chlo) = .ok r.encoding) ∧
    (findExtension o.extensions 0xfe0d = none →
      decryptHelloHrr P params u o ctx enc = .error (.err "ech not sent for hrr" (some 109) .fizz)) ∧
    ∀ x e t, findExtension o.extensions 0xfe0d = some x → readOuterEch x.extension_data = .ok (e, t) →
      (∀ p ∈ params, p.config.key.configId ≠ e.configId) →
      decryptHelloHrr P params u o ctx enc = .error (.err "failed to decrypt hrr ech" (some 51) .fizz) := by
  refine ⟨fun r h => ?_, fun h => ?_, fun x e t hx hr hn => ?_⟩
  · unfold decryptHelloHrr at h
    cases hx : findExtension o.extensions tyEch with
    | none => rw [hx] at h; simp at h
    | some x =>
      rw [hx] at h
      simp only [lookup, Res.bind_eq_ok, Prod.exists, Res.pure_eq, Except.ok.injEq] at h
      obtain ⟨l, ⟨e, t, hr, rfl⟩, h⟩ := h
      cases hf : params.find? (fun q => e.configId == q.config.key.configId) with
      | none => rw [hf] at h; simp at h
      | some p =>
        rw [hf] at h
        simp only [Option.map_some] at h
        cases ho : retryOpen P u o ctx enc e p with
        | error f =>
          rw [ho] at h
          unfold rethrown at h
          split at h <;> simp_all
        | ok d' =>
          rw [ho] at h
          simp only [rethrown, Except.ok.injEq] at h
          subst h
          unfold retryOpen at ho
          simp only [Res.bind_eq_ok] at ho
          obtain ⟨c, h1, h2⟩ := ho
          obtain ⟨g1, g2, -⟩ := decryptWith_ok hx hr h2
          refine ⟨x, e, t, p, c, hx, hr, find_first.1 hf, ?_, g1, g2⟩
          cases ctx with
          | some c' => left; simpa [retryContext] using h1
          | none =>
            right
            cases enc with
            | none => simp [retryContext] at h1
            | some b => exact ⟨rfl, b, rfl, by simpa [retryContext] using h1⟩
  · unfold decryptHelloHrr
    rw [show tyEch = 0xfe0d from rfl, h]
    rfl
  · unfold decryptHelloHrr
    rw [show tyEch = 0xfe0d from rfl, hx]
    have : params.find? (fun q => e.configId == q.config.key.configId) = none := by
      rw [List.find?_eq_none]
      intro q hq
      have := hn q hq
      simp only [beq_iff_eq]
      exact fun h => this h.symm
    simp only [lookup, hr, Res.ok_bind, Res.pure_eq, this]
    rfl

/-- C70, after a HelloRetryRequest: what goes wrong when the second hello is opened is the error of the call, with the
alert it has; a wrong reference to outer extensions is an `illegal_parameter` error.  Nothing is caught: there is no
way back to the outer hello. -/
theorem C70_retry_fails (P : Prims) (params : List (DecParam K)) (u : K.Rand) (o : ClientHello)
    (ctx : Option Context) (enc : Option Bytes) {x e t p} (hx : findExtension o.extensions 0xfe0d = some x)
    (hr : readOuterEch x.extension_data = .ok (e, t)) (hp : FirstWithId params e.configId p) {f}
    (hf : retryOpen P u o ctx enc e p = .error f) :
    decryptHelloHrr P params u o ctx enc = .error (match f with
      | .err m _ .outerExtensions => .err m (some 47) .fizz
      | f => f) := by
  unfold decryptHelloHrr
  rw [show tyEch = 0xfe0d from rfl, hx]
  simp only [lookup, hr, Res.ok_bind, Res.pure_eq, find_first.2 hp, Option.map_some, hf]
  cases f with
  | err m a c => cases c <;> rfl
  | _ => rfl

/-- The configuration a client gets to retry with. -/
def offered (c : ConfigContent) : Config := ⟨0xfe0d, Spec.configContent c⟩

theorem retryLoop_eq (sni : Option Bytes) : ∀ (l : List ConfigContent) (r : List Config × List Config),
    retryLoop sni l = .ok r ↔ (∀ c ∈ l, Spec.ConfigContentFits c) ∧
      r = ((l.filter fun c => sni = some c.publicName).map offered, (l.filter fun c => ¬ sni = some c.publicName).map offered)
  | [], r => by
    simp only [retryLoop, Except.ok.injEq]
    constructor
    · rintro rfl; simp
    · rintro ⟨-, rfl⟩; rfl
  | c :: cs, r => by
    simp only [retryLoop, retryConfig, Res.bind_eq_ok, encodeConfigContent_eq_ok, Res.pure_eq, Except.ok.injEq, Prod.exists,
      retryLoop_eq sni cs]
    constructor
    · rintro ⟨x, ⟨b, ⟨h1, rfl⟩, rfl⟩, m, n, ⟨h2, h3⟩, rfl⟩
      cases h3
      refine ⟨?_, ?_⟩
      · intro y hy
        rcases List.mem_cons.1 hy with rfl | hy
        · exact h1
        · exact h2 y hy
      · by_cases hs : sni = some c.publicName
        · simp [if_pos hs, List.filter_cons, hs, offered, draft15]
        · simp [if_neg hs, List.filter_cons, hs, offered, draft15]
    · rintro ⟨h1, rfl⟩
      refine ⟨_, ⟨_, ⟨h1 c (by simp), rfl⟩, rfl⟩, _, _, ⟨fun y hy => h1 y (List.mem_cons_of_mem _ hy), rfl⟩, ?_⟩
      by_cases hs : sni = some c.publicName
      · simp [if_pos hs, List.filter_cons, hs, offered, draft15]
      · simp [if_neg hs, List.filter_cons, hs, offered, draft15]

/-- C70: the configurations offered for a retry are all those of the decrypter, in their order, but with those whose
public name is the server name of the outer hello first. -/
theorem C70_retry_configs (params : List (DecParam K)) (sni : Option Bytes) (l : List Config) :
    getRetryConfigs params sni = .ok l ↔ (∀ p ∈ params, Spec.ConfigContentFits p.config) ∧
      l = ((params.map (·.config)).filter (fun c => sni = some c.publicName) ++
        (params.map (·.config)).filter (fun c => ¬ sni = some c.publicName)).map offered := by
  unfold getRetryConfigs
  simp only [Res.bind_eq_ok, Prod.exists, retryLoop_eq, Res.pure_eq, Except.ok.injEq, List.map_append]
  constructor
  · rintro ⟨m, n, ⟨h1, h2⟩, rfl⟩
    cases h2
    exact ⟨fun p hp => h1 _ (List.mem_map.2 ⟨p, hp, rfl⟩), rfl⟩
  · rintro ⟨h1, rfl⟩
    refine ⟨_, _, ⟨?_, rfl⟩, rfl⟩
    intro c hc
    obtain ⟨p, hp, rfl⟩ := List.mem_map.1 hc
    exact h1 p hp

end Fizz.Ech
