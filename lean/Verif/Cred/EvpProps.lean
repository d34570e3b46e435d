import Verif.Cred.EvpSpec

/-!
# C96: signatures are made and checked with the algorithm of their scheme, and no failure is taken for success
-/

namespace Fizz.Cred.Evp
open Fizz.Cred Fizz.Cred.Evp.Spec

variable {K : Type} {l : Lib K}

theorem one_eq_ok {b c msg r} : one l b c msg = .ok r ↔ l.rc (b ++ [c]) = 1 ∧ r = b ++ [c] := by
  unfold one
  by_cases h : l.rc (b ++ [c]) = 1
  · simp [h, eq_comm]
  · simp [h]

theorem positive_eq_ok {b c msg r} : positive l b c msg = .ok r ↔ 0 < l.rc (b ++ [c]) ∧ r = b ++ [c] := by
  unfold positive
  by_cases h : l.rc (b ++ [c]) ≤ 0
  · simp only [h, if_true]
    constructor
    · rintro ⟨⟩
    · rintro ⟨h', -⟩; omega
  · rw [if_neg h]
    constructor
    · rintro ⟨⟩; exact ⟨by omega, rfl⟩
    · rintro ⟨-, rfl⟩; rfl

theorem written_eq_ok {k : K} {c r} : written l k c = .ok r ↔ (l.out c).length ≤ l.size k ∧ r = l.out c := by
  unfold written
  by_cases h : (l.out c).length > l.size k
  · simp only [h, if_true]
    constructor
    · rintro ⟨⟩
    · rintro ⟨h', -⟩; omega
  · rw [if_neg h]
    constructor
    · rintro ⟨⟩; exact ⟨by omega, rfl⟩
    · rintro ⟨-, rfl⟩; rfl

theorem newCtx_eq_ok {r} : newCtx l = .ok r ↔ l.ctxNew = true := by
  unfold newCtx
  cases l.ctxNew <;> simp

theorem getHash_eq_ok {h r} : getHash l h = .ok r ↔ l.digest h = true := by
  unfold getHash
  cases l.digest h <;> simp

/-- The calls made to sign. -/
def signCalls (t : KeyType) (key : K) (data : Bytes) : List (Call K) :=
  match t with
  | .p256 | .p384 | .p521 => [.signInit (hashNid t), .signUpdate data, .signFinal key]
  | .rsa => [.digestSignInit (some (hashNid t)) key, .setRsaPadding 6, .setPssSaltlen (-1), .digestSignUpdate data,
      .digestSignFinal]
  | .ed25519 => [.digestSignInit none key, .digestSign data]

/-- The calls made to verify. -/
def verifyCalls (t : KeyType) (key : K) (data s : Bytes) : List (Call K) :=
  match t with
  | .p256 | .p384 | .p521 => [.verifyInit (hashNid t), .verifyUpdate data, .verifyFinal s key]
  | .rsa => [.digestVerifyInit (some (hashNid t)) key, .setRsaPadding 6, .setPssSaltlen (-1), .digestVerifyUpdate data,
      .digestVerifyFinal s]
  | .ed25519 => [.digestVerifyInit none key, .digestVerify s data]

/-- The return codes that are needed. -/
def Good (l : Lib K) (calls : List (Call K)) : Prop :=
  l.rc calls = 1 ∧ ∀ b c rest, calls = b ++ c :: rest →
    0 < l.rc (b ++ [c]) ∧ ((∀ n, c ≠ .setRsaPadding n) → (∀ n, c ≠ .setPssSaltlen n) → l.rc (b ++ [c]) = 1)

theorem good3 {a b c : Call K} (ha : l.rc [a] = 1) (hb : l.rc [a, b] = 1) (hc : l.rc [a, b, c] = 1) : Good l [a, b, c] := by
  refine ⟨hc, ?_⟩
  intro p x r h
  match p, h with
  | [], h => cases h; exact ⟨by show 0 < l.rc [a]; omega, fun _ _ => ha⟩
  | [_], h => cases h; exact ⟨by show 0 < l.rc [a, b]; omega, fun _ _ => hb⟩
  | [_, _], h => cases h; exact ⟨by show 0 < l.rc [a, b, c]; omega, fun _ _ => hc⟩
  | _ :: _ :: _ :: p, h => simp at h

theorem good2 {a b : Call K} (ha : l.rc [a] = 1) (hb : l.rc [a, b] = 1) : Good l [a, b] := by
  refine ⟨hb, ?_⟩
  intro p x r h
  match p, h with
  | [], h => cases h; exact ⟨by show 0 < l.rc [a]; omega, fun _ _ => ha⟩
  | [_], h => cases h; exact ⟨by show 0 < l.rc [a, b]; omega, fun _ _ => hb⟩
  | _ :: _ :: p, h => simp at h

theorem good5 {a d e : Call K} {m n} (ha : l.rc [a] = 1) (hb : 0 < l.rc [a, .setRsaPadding m])
    (hc : 0 < l.rc [a, .setRsaPadding m, .setPssSaltlen n]) (hd : l.rc [a, .setRsaPadding m, .setPssSaltlen n, d] = 1)
    (he : l.rc [a, .setRsaPadding m, .setPssSaltlen n, d, e] = 1) :
    Good l [a, .setRsaPadding m, .setPssSaltlen n, d, e] := by
  refine ⟨he, ?_⟩
  intro p x r h
  match p, h with
  | [], h => cases h; exact ⟨by show 0 < l.rc [a]; omega, fun _ _ => ha⟩
  | [_], h => cases h; exact ⟨hb, fun h _ => absurd rfl (h m)⟩
  | [_, _], h => cases h; exact ⟨hc, fun _ h => absurd rfl (h n)⟩
  | [_, _, _], h => cases h; exact ⟨by show 0 < l.rc [a, .setRsaPadding m, .setPssSaltlen n, d]; omega, fun _ _ => hd⟩
  | [_, _, _, _], h =>
    cases h
    exact ⟨by show 0 < l.rc [a, .setRsaPadding m, .setPssSaltlen n, d, e]; omega, fun _ _ => he⟩
  | _ :: _ :: _ :: _ :: _ :: p, h => simp at h

theorem sign_eq_ok {t : KeyType} {key : K} {data s : Bytes} : sign l t key data = .ok s ↔
    l.ctxNew = true ∧ (t ≠ .ed25519 → l.digest (hashNid t) = true) ∧ Good l (signCalls t key data) ∧
    (l.out (signCalls t key data)).length ≤ l.size key ∧ s = l.out (signCalls t key data) := by
  have hec : ∀ h, ecSign l data key h = .ok s ↔ l.ctxNew = true ∧ l.digest h = true ∧
      Good l [.signInit h, .signUpdate data, .signFinal key] ∧
      (l.out [.signInit h, .signUpdate data, .signFinal key]).length ≤ l.size key ∧
      s = l.out [.signInit h, .signUpdate data, .signFinal key] := by
    intro h
    unfold ecSign
    simp only [Res.bind_eq_ok, one_eq_ok, newCtx_eq_ok, getHash_eq_ok, written_eq_ok]
    constructor
    · rintro ⟨_, h1, _, h2, _, ⟨h3, rfl⟩, _, ⟨h4, rfl⟩, _, ⟨h5, rfl⟩, h6⟩
      exact ⟨h1, h2, good3 h3 h4 h5, h6⟩
    · rintro ⟨h1, h2, h3, h4⟩
      exact ⟨(), h1, (), h2, _, ⟨(h3.2 [] _ _ rfl).2 (by simp) (by simp), rfl⟩, _,
        ⟨(h3.2 [.signInit h] _ _ rfl).2 (by simp) (by simp), rfl⟩, _, ⟨h3.1, rfl⟩, h4⟩
  cases t with
  | p256 => simpa [sign, signCalls] using hec _
  | p384 => simpa [sign, signCalls] using hec _
  | p521 => simpa [sign, signCalls] using hec _
  | ed25519 =>
    simp only [sign, signCalls, edSign, Res.bind_eq_ok, one_eq_ok, newCtx_eq_ok, written_eq_ok]
    constructor
    · rintro ⟨_, h1, _, ⟨h2, rfl⟩, _, ⟨h3, rfl⟩, h4⟩
      exact ⟨h1, by simp, good2 h2 h3, h4⟩
    · rintro ⟨h1, -, h3, h4⟩
      exact ⟨(), h1, _, ⟨(h3.2 [] _ _ rfl).2 (by simp) (by simp), rfl⟩, _, ⟨h3.1, rfl⟩, h4⟩
  | rsa =>
    simp only [sign, signCalls, rsaPssSign, Res.bind_eq_ok, one_eq_ok, positive_eq_ok, newCtx_eq_ok, getHash_eq_ok,
      written_eq_ok]
    constructor
    · rintro ⟨_, h1, _, h2, _, ⟨h3, rfl⟩, _, ⟨h4, rfl⟩, _, ⟨h5, rfl⟩, _, ⟨h6, rfl⟩, _, ⟨h7, rfl⟩, h8⟩
      exact ⟨h2, fun _ => h1, good5 h3 h4 h5 h6 h7, h8⟩
    · rintro ⟨h1, h2, h3, h4⟩
      exact ⟨(), h2 (by simp), (), h1, _, ⟨(h3.2 [] _ _ rfl).2 (by simp) (by simp), rfl⟩, _,
        ⟨(h3.2 [_] _ _ rfl).1, rfl⟩, _, ⟨(h3.2 [_, _] _ _ rfl).1, rfl⟩, _,
        ⟨(h3.2 [_, _, _] _ _ rfl).2 (by simp) (by simp), rfl⟩, _, ⟨h3.1, rfl⟩, h4⟩

theorem verify_eq_ok {t : KeyType} {key : K} {data s : Bytes} : verify l t key data s = .ok () ↔
    l.ctxNew = true ∧ (t ≠ .ed25519 → l.digest (hashNid t) = true) ∧ Good l (verifyCalls t key data s) := by
  have hec : ∀ h, ecVerify l data s key h = .ok () ↔ l.ctxNew = true ∧ l.digest h = true ∧
      Good l [.verifyInit h, .verifyUpdate data, .verifyFinal s key] := by
    intro h
    unfold ecVerify
    simp only [Res.bind_eq_ok, one_eq_ok, newCtx_eq_ok, getHash_eq_ok]
    constructor
    · rintro ⟨_, h1, _, h2, _, ⟨h3, rfl⟩, _, ⟨h4, rfl⟩, _, ⟨h5, rfl⟩, -⟩
      exact ⟨h2, h1, good3 h3 h4 h5⟩
    · rintro ⟨h1, h2, h3⟩
      exact ⟨(), h2, (), h1, _, ⟨(h3.2 [] _ _ rfl).2 (by simp) (by simp), rfl⟩, _,
        ⟨(h3.2 [.verifyInit h] _ _ rfl).2 (by simp) (by simp), rfl⟩, _, ⟨h3.1, rfl⟩, rfl⟩
  cases t with
  | p256 => simpa [verify, verifyCalls] using hec _
  | p384 => simpa [verify, verifyCalls] using hec _
  | p521 => simpa [verify, verifyCalls] using hec _
  | ed25519 =>
    simp only [verify, verifyCalls, edVerify, Res.bind_eq_ok, one_eq_ok, newCtx_eq_ok]
    constructor
    · rintro ⟨_, h1, _, ⟨h2, rfl⟩, _, ⟨h3, rfl⟩, -⟩
      exact ⟨h1, by simp, good2 h2 h3⟩
    · rintro ⟨h1, -, h3⟩
      exact ⟨(), h1, _, ⟨(h3.2 [] _ _ rfl).2 (by simp) (by simp), rfl⟩, _, ⟨h3.1, rfl⟩, rfl⟩
  | rsa =>
    simp only [verify, verifyCalls, rsaPssVerify, Res.bind_eq_ok, one_eq_ok, positive_eq_ok, newCtx_eq_ok, getHash_eq_ok]
    constructor
    · rintro ⟨_, h1, _, h2, _, ⟨h3, rfl⟩, _, ⟨h4, rfl⟩, _, ⟨h5, rfl⟩, _, ⟨h6, rfl⟩, _, ⟨h7, rfl⟩, -⟩
      exact ⟨h2, fun _ => h1, good5 h3 h4 h5 h6 h7⟩
    · rintro ⟨h1, h2, h3⟩
      exact ⟨(), h2 (by simp), (), h1, _, ⟨(h3.2 [] _ _ rfl).2 (by simp) (by simp), rfl⟩, _,
        ⟨(h3.2 [_] _ _ rfl).1, rfl⟩, _, ⟨(h3.2 [_, _] _ _ rfl).1, rfl⟩, _,
        ⟨(h3.2 [_, _, _] _ _ rfl).2 (by simp) (by simp), rfl⟩, _, ⟨h3.1, rfl⟩, rfl⟩

/-- The calls amount to the algorithm of the scheme. -/
theorem sign_finish {kind : K → KeyKind} {t : KeyType} {key : K} {data : Bytes} {kd alg}
    (hr : rfc (schemeOf t) = some (kd, alg)) (hk : kind key = kd) :
    finish kind (signCalls t key data) = some ⟨alg, key, data, none⟩ := by
  subst hk
  cases t <;>
  · generalize hkk : kind key = kk at hr
    cases hr
    simp [signCalls, finish, prepare, last, ask, algOf, hkk, hashNid]

theorem verify_finish {kind : K → KeyKind} {t : KeyType} {key : K} {data s : Bytes} {kd alg}
    (hr : rfc (schemeOf t) = some (kd, alg)) (hk : kind key = kd) :
    finish kind (verifyCalls t key data s) = some ⟨alg, key, data, some s⟩ := by
  subst hk
  cases t <;>
  · generalize hkk : kind key = kk at hr
    cases hr
    simp [verifyCalls, finish, prepare, last, ask, algOf, hkk, hashNid]

/-! ## C96 -/

/-- **What is asked of OpenSSL.**  When signing succeeds, the signature is what OpenSSL wrote when asked to sign exactly
these data with this key and the algorithm of the scheme in RFC 8446, all in one context, and every call made to that end
was answered with a success code. -/
theorem C96_sign_calls {kind : K → KeyKind} {t : KeyType} {key : K} {data s : Bytes} {kd alg}
    (hr : rfc (schemeOf t) = some (kd, alg)) (hk : kind key = kd) (h : sign l t key data = .ok s) :
    ∃ calls, finish kind calls = some ⟨alg, key, data, none⟩ ∧ s = l.out calls ∧ l.rc calls = 1 ∧
      ∀ b, b ≠ [] → b <+: calls → 0 < l.rc b := by
  obtain ⟨-, -, h1, -, h2⟩ := sign_eq_ok.1 h
  refine ⟨_, sign_finish hr hk, h2, h1.1, ?_⟩
  intro b hb hp
  obtain ⟨rest, hrest⟩ := hp
  rcases List.eq_nil_or_concat b with rfl | ⟨b', c, rfl⟩
  · exact absurd rfl hb
  · rw [List.concat_eq_append] at hrest ⊢
    exact (h1.2 b' c rest (by rw [← hrest]; simp)).1

/-- The same for verifying. -/
theorem C96_verify_calls {kind : K → KeyKind} {t : KeyType} {key : K} {data s : Bytes} {kd alg}
    (hr : rfc (schemeOf t) = some (kd, alg)) (hk : kind key = kd) (h : verify l t key data s = .ok ()) :
    ∃ calls, finish kind calls = some ⟨alg, key, data, some s⟩ ∧ l.rc calls = 1 ∧
      ∀ b, b ≠ [] → b <+: calls → 0 < l.rc b := by
  obtain ⟨-, -, h1⟩ := verify_eq_ok.1 h
  refine ⟨_, verify_finish hr hk, h1.1, ?_⟩
  intro b hb hp
  obtain ⟨rest, hrest⟩ := hp
  rcases List.eq_nil_or_concat b with rfl | ⟨b', c, rfl⟩
  · exact absurd rfl hb
  · rw [List.concat_eq_append] at hrest ⊢
    exact (h1.2 b' c rest (by rw [← hrest]; simp)).1

/-- **Fail closed.**  However OpenSSL fails, what is accepted is a valid signature of the scheme's algorithm, and what is
returned as a signature is one. -/
theorem C96_valid {kind : K → KeyKind} {valid : Alg → K → Bytes → Bytes → Prop} (hl : Sound kind valid l)
    {t : KeyType} {key : K} {data s : Bytes} {kd alg} (hr : rfc (schemeOf t) = some (kd, alg)) (hk : kind key = kd) :
    (verify l t key data s = .ok () → valid alg key data s) ∧ (sign l t key data = .ok s → valid alg key data s) := by
  constructor
  · intro h
    obtain ⟨-, -, h1⟩ := verify_eq_ok.1 h
    exact hl.verifies _ _ s (verify_finish hr hk) rfl h1.1
  · intro h
    obtain ⟨-, -, h1, -, rfl⟩ := sign_eq_ok.1 h
    exact (hl.signs _ _ (sign_finish hr hk) rfl h1.1).1

/-- **Exact.**  If OpenSSL fails only on signatures that are not valid, signing succeeds, and verifying succeeds exactly on
the valid signatures. -/
theorem C96_exact {kind : K → KeyKind} {valid : Alg → K → Bytes → Bytes → Prop} (hl : Working kind valid l)
    {t : KeyType} {key : K} {data : Bytes} {kd alg} (hr : rfc (schemeOf t) = some (kd, alg)) (hk : kind key = kd) :
    (∃ s, sign l t key data = .ok s) ∧ ∀ s, verify l t key data s = .ok () ↔ valid alg key data s := by
  have part : ∀ (calls : List (Call K)), (∀ a, finish kind calls = some a → a.signature = none) → l.rc calls = 1 :=
    fun calls h => hl.calls calls fun a ha s hs => by rw [h a ha] at hs; cases hs
  constructor
  · refine ⟨_, sign_eq_ok.2 ⟨hl.ctx, fun _ => hl.digest _, ?_, ?_, rfl⟩⟩
    · have hsg := sign_finish (data := data) hr hk
      have hall : l.rc (signCalls t key data) = 1 := part _ fun a ha => by rw [hsg] at ha; cases ha; rfl
      cases t with
      | rsa =>
        exact good5 (part _ fun a h => by simp [finish, last] at h)
          (by rw [part _ fun a h => by simp [finish, prepare, last] at h]; decide)
          (by rw [part _ fun a h => by simp [finish, prepare, last] at h]; decide)
          (part _ fun a h => by simp [finish, prepare, last] at h) hall
      | ed25519 => exact good2 (part _ fun a h => by simp [finish, last] at h) hall
      | _ =>
        exact good3 (part _ fun a h => by simp [finish, last] at h) (part _ fun a h => by simp [finish, prepare, last] at h) hall
    · have hsg := sign_finish (data := data) hr hk
      exact (hl.sound.signs _ _ hsg rfl (part _ fun a ha => by rw [hsg] at ha; cases ha; rfl)).2
  · intro s
    refine ⟨(C96_valid hl.sound hr hk).1, fun hv => verify_eq_ok.2 ⟨hl.ctx, fun _ => hl.digest _, ?_⟩⟩
    have hsg := verify_finish (data := data) (s := s) hr hk
    have hall : l.rc (verifyCalls t key data s) = 1 :=
      hl.calls _ fun a ha s' hs => by rw [hsg] at ha; cases ha; cases hs; exact hv
    cases t with
    | rsa =>
      exact good5 (part _ fun a h => by simp [finish, last] at h)
        (by rw [part _ fun a h => by simp [finish, prepare, last] at h]; decide)
        (by rw [part _ fun a h => by simp [finish, prepare, last] at h]; decide)
        (part _ fun a h => by simp [finish, prepare, last] at h) hall
    | ed25519 => exact good2 (part _ fun a h => by simp [finish, last] at h) hall
    | _ =>
      exact good3 (part _ fun a h => by simp [finish, last] at h) (part _ fun a h => by simp [finish, prepare, last] at h) hall

theorem bind_ub {α β} {x : Res α} {f : α → Res β} {m} (h : x >>= f = .error (Failure.ub m)) (hx : ∀ m, x ≠ .error (Failure.ub m)) :
    ∃ a, x = .ok a ∧ f a = .error (Failure.ub m) := by
  cases x with
  | ok a => exact ⟨a, rfl, h⟩
  | error e => cases h; exact absurd rfl (hx m)

theorem one_ub {b c msg m} : one l b c msg ≠ .error (Failure.ub m) := by
  unfold one
  split
  · intro h; cases h
  · intro h; cases h

theorem positive_ub {b c msg m} : positive l b c msg ≠ .error (Failure.ub m) := by
  unfold positive
  split
  · intro h; cases h
  · intro h; cases h

theorem newCtx_ub {m} : newCtx l ≠ .error (Failure.ub m) := by
  unfold newCtx
  split
  · intro h; cases h
  · intro h; cases h

theorem getHash_ub {h m} : getHash l h ≠ .error (Failure.ub m) := by
  unfold getHash
  split
  · intro h; cases h
  · intro h; cases h

theorem written_ub {k : K} {c m} (h : written l k c = .error (Failure.ub m)) : l.size k < (l.out c).length := by
  unfold written at h
  split at h
  · assumption
  · cases h

/-- **Memory.**  The signature never runs over its buffer. -/
theorem C96_buffer {kind : K → KeyKind} {valid : Alg → K → Bytes → Bytes → Prop} (hl : Sound kind valid l)
    {t : KeyType} {key : K} {data : Bytes} {kd alg} (hr : rfc (schemeOf t) = some (kd, alg)) (hk : kind key = kd) (m) :
    sign l t key data ≠ .error (Failure.ub m) := by
  intro h
  have hsg := sign_finish (data := data) hr hk
  have key' : l.rc (signCalls t key data) = 1 → ¬ l.size key < (l.out (signCalls t key data)).length := by
    intro h1 h2
    have := (hl.signs _ _ hsg rfl h1).2
    simp only at this
    omega
  have hec : ∀ hh, ecSign l data key hh = .error (Failure.ub m) →
      l.rc [.signInit hh, .signUpdate data, .signFinal key] = 1 ∧
      l.size key < (l.out [.signInit hh, .signUpdate data, .signFinal key]).length := by
    intro hh h
    unfold ecSign at h
    obtain ⟨_, -, h⟩ := bind_ub h fun _ => newCtx_ub
    obtain ⟨_, -, h⟩ := bind_ub h fun _ => getHash_ub
    obtain ⟨_, h1, h⟩ := bind_ub h fun _ => one_ub
    obtain ⟨_, h2, h⟩ := bind_ub h fun _ => one_ub
    obtain ⟨_, h3, h⟩ := bind_ub h fun _ => one_ub
    obtain ⟨-, rfl⟩ := one_eq_ok.1 h1
    obtain ⟨-, rfl⟩ := one_eq_ok.1 h2
    obtain ⟨h4, rfl⟩ := one_eq_ok.1 h3
    exact ⟨h4, written_ub h⟩
  cases t with
  | p256 => exact key' (hec _ h).1 (hec _ h).2
  | p384 => exact key' (hec _ h).1 (hec _ h).2
  | p521 => exact key' (hec _ h).1 (hec _ h).2
  | ed25519 =>
    unfold sign edSign at h
    obtain ⟨_, -, h⟩ := bind_ub h fun _ => newCtx_ub
    obtain ⟨_, h1, h⟩ := bind_ub h fun _ => one_ub
    obtain ⟨_, h2, h⟩ := bind_ub h fun _ => one_ub
    obtain ⟨-, rfl⟩ := one_eq_ok.1 h1
    obtain ⟨h4, rfl⟩ := one_eq_ok.1 h2
    exact key' h4 (written_ub h)
  | rsa =>
    unfold sign rsaPssSign at h
    obtain ⟨_, -, h⟩ := bind_ub h fun _ => getHash_ub
    obtain ⟨_, -, h⟩ := bind_ub h fun _ => newCtx_ub
    obtain ⟨_, h1, h⟩ := bind_ub h fun _ => one_ub
    obtain ⟨_, h2, h⟩ := bind_ub h fun _ => positive_ub
    obtain ⟨_, h3, h⟩ := bind_ub h fun _ => positive_ub
    obtain ⟨_, h4, h⟩ := bind_ub h fun _ => one_ub
    obtain ⟨_, h5, h⟩ := bind_ub h fun _ => one_ub
    obtain ⟨-, rfl⟩ := one_eq_ok.1 h1
    obtain ⟨-, rfl⟩ := positive_eq_ok.1 h2
    obtain ⟨-, rfl⟩ := positive_eq_ok.1 h3
    obtain ⟨-, rfl⟩ := one_eq_ok.1 h4
    obtain ⟨h6, rfl⟩ := one_eq_ok.1 h5
    exact key' h6 (written_ub h)

/-! ## Certificates -/

/-- The key type of a scheme. -/
def typeOf (scheme : UInt16) : Option KeyType :=
  [KeyType.rsa, .p256, .p384, .p521, .ed25519].find? fun t => schemeOf t = scheme

/-- OpenSSL as the model of certificates sees it (`Ossl`), with signing and verifying done by the functions above. -/
def ossl (o : Ossl K) (l : Lib K) : Ossl K := { o with
  verify := fun scheme k data s => match typeOf scheme with
    | some t => (match verify l t k data s with | .ok _ => true | .error _ => false)
    | none => false
  sign := fun scheme k data => match typeOf scheme with
    | some t => (match sign l t k data with | .ok s => some s | .error _ => none)
    | none => none }

theorem typeOf_scheme (t : KeyType) : typeOf (schemeOf t) = some t := by cases t <;> decide

/-- A key that has been set is of the kind the scheme of its type is for. -/
theorem setKey_kind {o : Ossl K} {t : KeyType} {k : K} (h : setKey o t k = .ok ()) :
    ∃ alg, rfc (schemeOf t) = some (o.kind k, alg) := by
  cases t with
  | rsa =>
    unfold setKey at h
    by_cases hk : o.kind k = .rsa
    · exact ⟨_, by rw [hk]; rfl⟩
    · simp [hk] at h
  | ed25519 =>
    unfold setKey validateEdKey at h
    cases hk : o.kind k <;> simp [hk] at h
    exact ⟨_, rfl⟩
  | _ =>
    unfold setKey validateECKey at h
    cases hc : o.ecCheck k <;> cases hk : o.kind k <;> simp [hk, hc] at h
    exact ⟨_, rfl⟩

/-- **Certificates.**  For a certificate key that fizz has taken, a CertificateVerify (or other) signature is accepted only
for the one scheme of the key's type, and only if it is a valid signature, by the algorithm RFC 8446 gives for that scheme,
of the context's label and the bytes to be signed. -/
theorem C96_certificate {o : Ossl K} {valid : Alg → K → Bytes → Bytes → Prop} (hl : Sound o.kind valid l)
    {t : KeyType} {k : K} (hk : setKey o t k = .ok ()) {scheme : UInt16} {context : Ctx} {tbs s : Bytes} :
    ∃ alg, rfc (schemeOf t) = some (o.kind k, alg) ∧
      (certVerify (ossl o l) t k scheme context tbs s = .ok () →
        scheme = schemeOf t ∧ valid alg k (prepareSignData context tbs) s) ∧
      (certSign (ossl o l) t k scheme context tbs = .ok s →
        scheme = schemeOf t ∧ valid alg k (prepareSignData context tbs) s) := by
  obtain ⟨alg, hr⟩ := setKey_kind hk
  refine ⟨alg, hr, ?_, ?_⟩
  · intro h
    unfold certVerify at h
    by_cases hs : scheme = schemeOf t
    · subst hs
      refine ⟨rfl, ?_⟩
      simp only [if_true, ossl, typeOf_scheme] at h
      cases hv : verify l t k (prepareSignData context tbs) s with
      | ok u => exact (C96_valid hl hr rfl).1 hv
      | error e => simp [hv] at h
    · simp [hs] at h
  · intro h
    unfold certSign at h
    by_cases hs : scheme = schemeOf t
    · subst hs
      refine ⟨rfl, ?_⟩
      simp only [if_true, ossl, typeOf_scheme] at h
      cases hv : sign l t k (prepareSignData context tbs) with
      | ok u =>
        simp only [hv] at h
        cases h
        exact (C96_valid hl hr rfl).2 hv
      | error e => simp [hv] at h
    · simp [hs] at h

/-! ## A concrete library -/

/-- A toy OpenSSL: the keys are the kinds, a signature is the data with a byte for the algorithm before them. -/
def tag : Alg → UInt8
  | .ecdsa .sha256 => 1
  | .ecdsa .sha384 => 2
  | .ecdsa .sha512 => 3
  | .rsaPkcs1 _ => 4
  | .rsaPssDigestSalt _ => 5
  | .rsaPssAnySalt _ => 6
  | .ed25519 => 7

def toySig (calls : List (Call KeyKind)) : Bytes :=
  match finish id calls with
  | some a => (tag a.alg :: a.data).take 80
  | none => []

def toy : Lib KeyKind where
  ctxNew := true
  digest _ := true
  size _ := 80
  rc calls := match finish id calls with
    | some ⟨a, _, d, some s⟩ => if s = (tag a :: d).take 80 then 1 else -1
    | _ => 1
  out := toySig

/-- The hypotheses of C96 are met, and a signature that is not valid is refused although OpenSSL answers -1. -/
theorem toy_working : Working id (fun a _ d s => s = (tag a :: d).take 80) toy where
  sound :=
    { signs := by
        intro calls a ha hs _
        have : toy.out calls = (tag a.alg :: a.data).take 80 := by
          show toySig calls = _
          unfold toySig
          rw [ha]
        rw [this]
        exact ⟨rfl, List.length_take_le _ _⟩
      verifies := by
        intro calls a s ha hs hrc
        obtain ⟨alg, k, d, s'⟩ := a
        cases hs
        simp only [toy, ha] at hrc
        split at hrc
        · assumption
        · cases hrc }
  ctx := rfl
  digest _ := rfl
  calls := by
    intro calls h
    unfold toy
    simp only
    split
    · rename_i a k d s hf
      rw [if_pos (h _ hf s rfl)]
    · rfl

example : sign toy .rsa .rsa [9, 9] = .ok [5, 9, 9] := by rfl
example : verify toy .rsa .rsa [9, 9] [5, 9, 9] = .ok () := by rfl
example : verify toy .rsa .rsa [9, 9] [4, 9, 9] = .error (Failure.rt "Signature verification failed") := by rfl
example : sign toy .p384 .p384 [1] = .ok [2, 1] ∧ verify toy .ed25519 .ed25519 [1] [7, 1] = .ok () := ⟨rfl, rfl⟩

end Fizz.Cred.Evp
