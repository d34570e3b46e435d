import Verif.Util.Multi
import Verif.Codec.ExtProps
import Verif.ClientSM.Props

/-! # C94: extensions of the application -/

namespace Fizz.Multi
open Fizz Fizz.Codec

theorem getLoop_ok {σ} (m : ClientExt σ) : ∀ (xs : List σ) (ret r : List Extension),
    getLoop m ret xs = .ok r ↔ ∃ parts, List.Forall₂ (fun x p => m.getClientHelloExtensions x = .ok p) xs parts ∧
      r = ret ++ parts.flatten := by
  intro xs
  induction xs with
  | nil =>
    intro ret r
    simp only [getLoop, Except.ok.injEq]
    constructor
    · rintro rfl; exact ⟨[], .nil, by simp⟩
    · rintro ⟨parts, hf, rfl⟩; cases hf; simp
  | cons x xs ih =>
    intro ret r
    unfold getLoop
    cases h : m.getClientHelloExtensions x with
    | error f =>
      simp only [reduceCtorEq, false_iff, not_exists, not_and]
      intro parts hf
      cases hf with
      | cons h1 _ => rw [h] at h1; cases h1
    | ok tmp =>
      simp only
      rw [ih]
      constructor
      · rintro ⟨parts, hf, rfl⟩
        exact ⟨tmp :: parts, .cons h hf, by simp⟩
      · rintro ⟨parts, hf, rfl⟩
        cases hf with
        | cons h1 h2 =>
          rw [h] at h1
          cases Except.ok.inj h1
          exact ⟨_, h2, by simp⟩

theorem getLoop_error {σ} (m : ClientExt σ) (f : Failure) : ∀ (xs : List σ) (ret : List Extension),
    getLoop m ret xs = .error f ↔ ∃ pre x post, xs = pre ++ x :: post ∧
      (∀ y ∈ pre, ∃ p, m.getClientHelloExtensions y = .ok p) ∧ m.getClientHelloExtensions x = .error f := by
  intro xs
  induction xs with
  | nil => intro ret; simp [getLoop]
  | cons x xs ih =>
    intro ret
    unfold getLoop
    cases h : m.getClientHelloExtensions x with
    | error g =>
      simp only [Except.error.injEq]
      constructor
      · rintro rfl; exact ⟨[], x, xs, rfl, by simp, h⟩
      · rintro ⟨pre, y, post, he, hp, hy⟩
        cases pre with
        | nil => cases he; rw [h] at hy; exact Except.error.inj hy
        | cons z zs =>
          cases he
          obtain ⟨p, hp⟩ := hp x (by simp)
          rw [h] at hp; cases hp
    | ok tmp =>
      simp only
      rw [ih]
      constructor
      · rintro ⟨pre, y, post, rfl, hp, hy⟩
        refine ⟨x :: pre, y, post, rfl, ?_, hy⟩
        intro z hz
        rcases List.mem_cons.1 hz with rfl | hz
        · exact ⟨tmp, h⟩
        · exact hp z hz
      · rintro ⟨pre, y, post, he, hp, hy⟩
        cases pre with
        | nil => cases he; rw [h] at hy; cases hy
        | cons z zs =>
          cases he
          exact ⟨zs, y, post, rfl, fun w hw => hp w (by simp [hw]), hy⟩

/-- C94: a group of extension objects offers what its members offer, in their order: it succeeds exactly
if every member does. -/
theorem C94_offer {σ} (m : ClientExt σ) (xs : List σ) (r : List Extension) :
    getClientHelloExtensions m xs = .ok r ↔
      ∃ parts, List.Forall₂ (fun x p => m.getClientHelloExtensions x = .ok p) xs parts ∧ r = parts.flatten := by
  unfold getClientHelloExtensions
  rw [getLoop_ok]
  simp

/-- C94: it fails with the error of the first member that fails. -/
theorem C94_offer_fails {σ} (m : ClientExt σ) (xs : List σ) (f : Failure) :
    getClientHelloExtensions m xs = .error f ↔ ∃ pre x post, xs = pre ++ x :: post ∧
      (∀ y ∈ pre, ∃ p, m.getClientHelloExtensions y = .ok p) ∧ m.getClientHelloExtensions x = .error f :=
  getLoop_error m f xs []

/-- C94: the server's extensions are shown to every member in order; if all accept, all of them have seen
exactly these. -/
theorem C94_notify {σ} (m : ClientExt σ) (e : List Extension) : ∀ (xs xs' : List σ),
    onEncryptedExtensions m xs e = (.ok (), xs') ↔
      List.Forall₂ (fun x x' => m.onEncryptedExtensions x e = (.ok (), x')) xs xs' := by
  intro xs
  induction xs with
  | nil => intro xs'; cases xs' <;> simp [onEncryptedExtensions]
  | cons x xs ih =>
    intro xs'
    unfold onEncryptedExtensions
    cases h : m.onEncryptedExtensions x e with
    | mk r x' =>
    cases r with
    | error f =>
      simp only [Prod.mk.injEq, reduceCtorEq, false_and, false_iff]
      intro hf
      cases hf with
      | cons h1 _ => rw [h] at h1; cases h1
    | ok u =>
      cases hr : onEncryptedExtensions m xs e with
      | mk q ys =>
      simp only [Prod.mk.injEq]
      constructor
      · rintro ⟨rfl, rfl⟩
        exact .cons h ((ih ys).1 hr)
      · intro hf
        cases hf with
        | cons h1 h2 =>
          have := (ih _).2 h2
          rw [hr] at this
          cases this
          rw [h] at h1
          cases h1
          exact ⟨rfl, rfl⟩

/-- C94: and if one refuses them, its error is the answer, and the members behind it are as before. -/
theorem C94_notify_fails {σ} (m : ClientExt σ) (e : List Extension) (f : Failure) :
    ∀ (xs xs' : List σ), onEncryptedExtensions m xs e = (.error f, xs') ↔
      ∃ pre pre' x x' post, xs = pre ++ x :: post ∧ xs' = pre' ++ x' :: post ∧
        List.Forall₂ (fun x x' => m.onEncryptedExtensions x e = (.ok (), x')) pre pre' ∧
        m.onEncryptedExtensions x e = (.error f, x') := by
  intro xs
  induction xs with
  | nil => intro xs'; simp [onEncryptedExtensions]
  | cons x xs ih =>
    intro xs'
    unfold onEncryptedExtensions
    cases h : m.onEncryptedExtensions x e with
    | mk r x' =>
    cases r with
    | error g =>
      simp only [Prod.mk.injEq, Except.error.injEq]
      constructor
      · rintro ⟨rfl, rfl⟩
        exact ⟨[], [], x, x', xs, rfl, rfl, .nil, h⟩
      · rintro ⟨pre, pre', y, y', post, he, rfl, hf, hy⟩
        cases hf with
        | nil => cases he; rw [h] at hy; cases hy; exact ⟨rfl, rfl⟩
        | cons h1 _ => cases he; rw [h] at h1; cases h1
    | ok u =>
      cases hr : onEncryptedExtensions m xs e with
      | mk q ys =>
      simp only [Prod.mk.injEq]
      constructor
      · rintro ⟨rfl, rfl⟩
        obtain ⟨pre, pre', y, y', post, rfl, rfl, hf, hy⟩ := (ih ys).1 hr
        exact ⟨x :: pre, x' :: pre', y, y', post, rfl, rfl, .cons h hf, hy⟩
      · rintro ⟨pre, pre', y, y', post, he, rfl, hf, hy⟩
        cases hf with
        | nil => cases he; rw [h] at hy; cases hy
        | cons h1 h2 =>
          cases he
          have := (ih _).2 ⟨_, _, y, y', post, rfl, rfl, h2, hy⟩
          rw [hr] at this
          cases this
          rw [h] at h1
          cases h1
          exact ⟨rfl, rfl⟩

theorem serverLoop_ok {σ} (m : ServerExt σ) (chlo : ClientHello) : ∀ (xs xs' : List σ)
    (ret r : List Extension), serverLoop m chlo ret xs = (.ok r, xs') ↔
      ∃ parts, List.Forall₂ (fun x p => m.getExtensions x chlo = (.ok p.1, p.2)) xs parts ∧
        r = ret ++ (parts.map Prod.fst).flatten ∧ xs' = parts.map Prod.snd := by
  intro xs
  induction xs with
  | nil =>
    intro xs' ret r
    simp only [serverLoop, Prod.mk.injEq, Except.ok.injEq]
    constructor
    · rintro ⟨rfl, rfl⟩; exact ⟨[], .nil, by simp, rfl⟩
    · rintro ⟨parts, hf, rfl, rfl⟩; cases hf; simp
  | cons x xs ih =>
    intro xs' ret r
    unfold serverLoop
    cases h : m.getExtensions x chlo with
    | mk q x' =>
    cases q with
    | error f =>
      simp only [Prod.mk.injEq, reduceCtorEq, false_and, false_iff, not_exists, not_and]
      intro parts hf
      cases hf with
      | cons h1 _ => rw [h] at h1; cases h1
    | ok next =>
      cases hr : serverLoop m chlo (ret ++ next) xs with
      | mk q ys =>
      simp only
      rw [hr]
      constructor
      · intro heq
        cases heq
        obtain ⟨parts, hf, rfl, rfl⟩ := (ih _ _ _).1 hr
        exact ⟨(next, x') :: parts, .cons h hf, by simp, rfl⟩
      · rintro ⟨parts, hf, rfl, rfl⟩
        cases hf with
        | @cons _ p _ ps h1 h2 =>
          have e1 := (ih (ps.map Prod.snd) (ret ++ next) _).2 ⟨ps, h2, rfl, rfl⟩
          rw [hr] at e1
          cases e1
          rw [h] at h1
          obtain ⟨p1, p2⟩ := p
          cases h1
          simp

/-- C94: likewise on the server: every member sees the client's hello, and the answer is the members'
extensions in their order. -/
theorem C94_server {σ} (m : ServerExt σ) (chlo : ClientHello) (xs xs' : List σ) (r : List Extension) :
    getExtensions m xs chlo = (.ok r, xs') ↔
      ∃ parts, List.Forall₂ (fun x p => m.getExtensions x chlo = (.ok p.1, p.2)) xs parts ∧
        r = (parts.map Prod.fst).flatten ∧ xs' = parts.map Prod.snd := by
  unfold getExtensions
  rw [serverLoop_ok]
  simp

/-- C94: the padding extension takes the configured number of bytes in the hello, but at least the four
of its type and length; its content is zeros. -/
theorem C94_padding (n : UInt16) : ∃ e bytes, paddingExtensions n = .ok [e] ∧
    e.extension_type = 21 ∧ (∀ b ∈ e.extension_data, b = 0) ∧
    writeExtension e = .ok bytes ∧ bytes.length = max 4 n.toNat := by
  have hn := n.toNat_lt
  have hl : (encodePadding n).extension_data.length < 65536 := by
    simp only [encodePadding, List.length_replicate]
    split <;> omega
  refine ⟨encodePadding n, Spec.extension (encodePadding n), rfl, rfl, ?_, ?_, ?_⟩
  · intro b hb
    exact (List.mem_replicate.1 hb).2
  · exact (wspec_extension.2 _ _).2 ⟨hl, rfl⟩
  · simp only [Spec.extension, vec, Width.bytes, Spec.u16, List.length_append, beEnc_length, encodePadding,
      List.length_replicate]
    split <;> omega

/-- C94, in a handshake: if the client's extensions are such a group, then by the time success is
reported every member has accepted the server's EncryptedExtensions, which hold no extension twice and
none that the client did not offer. -/
theorem C94_client {σ} (m : ClientExt σ) (objects : ClientSM.Step → List σ) {cfg : ClientSM.Cfg}
    (hok : ∀ c a, cfg.hashOf c = .ok a → a.Ok) (hx : cfg.hasExtensions = true) {newer y older s}
    (hr : ClientSM.Run cfg (newer ++ y :: older) s) {b : Bool} (hs : .reportHandshakeSuccess b ∈ y.acts)
    (hin : ∀ z ∈ newer ++ y :: older, ∀ e,
      z.env.inp.onEncryptedExtensions e = (onEncryptedExtensions m (objects z) e).1) :
    ∃ g n z o ee orig, ClientSM.Spec.Fixed cfg older g ∧ older = n ++ z :: o ∧
      ClientSM.Spec.received z = some (.encryptedExtensions ee, orig) ∧
      (ee.extensions.map (·.extension_type)).Nodup ∧
      (∀ t ∈ ee.extensions.map (·.extension_type),
        t ∈ (g.offer.extensions cfg).map (·.extension_type) ∨
          (t = 0xfe0d ∧ cfg.greaseEch = some .computed)) ∧
      ∀ x ∈ objects z, ∃ x', m.onEncryptedExtensions x ee.extensions = (.ok (), x') := by
  obtain ⟨g, -, -, early, h1, -, -, -, -, -, -, h8, -⟩ := ClientSM.C30_success hok hr hs
  obtain ⟨n, z, o, ee, orig, rfl, k1, -, k3, k4, -, -, -, k8⟩ := h8
  refine ⟨g, n, z, o, ee, orig, h1, rfl, k1, k3, fun t ht => (k4 t ht).2, ?_⟩
  have := k8 hx
  rw [hin z (by simp)] at this
  have hf := (C94_notify m ee.extensions (objects z)
    (onEncryptedExtensions m (objects z) ee.extensions).2).1 (Prod.ext this rfl)
  generalize (onEncryptedExtensions m (objects z) ee.extensions).2 = xs' at hf
  clear this
  generalize objects z = os at hf
  induction hf with
  | nil => intro x hx; cases hx
  | @cons a a' _ _ h1 _ ih =>
    intro x hx
    rcases List.mem_cons.1 hx with rfl | hx
    · exact ⟨a', h1⟩
    · exact ih x hx

/-! ## A concrete case: members that count -/

/-- Objects are numbers: `n` offers `n` empty extensions of type `n`, fails if `n` is 9, and counts
calls. -/
def toy : ClientExt Nat where
  getClientHelloExtensions n := if n = 9 then .error .abort else .ok (List.replicate n ⟨UInt16.ofNat n, []⟩)
  onEncryptedExtensions n e := if e.length > 1 then (.error .outOfRange, n) else (.ok (), n + 1)

example : getClientHelloExtensions toy [1, 0, 2] = .ok [⟨1, []⟩, ⟨2, []⟩, ⟨2, []⟩] ∧
    getClientHelloExtensions toy [1, 9, 2] = .error .abort ∧
    onEncryptedExtensions toy [1, 5] [] = (.ok (), [2, 6]) ∧
    onEncryptedExtensions toy [1, 5] [⟨1, []⟩, ⟨2, []⟩] = (.error .outOfRange, [1, 5]) ∧
    paddingExtensions 6 = .ok [⟨21, [0, 0]⟩] := ⟨rfl, rfl, rfl, rfl, rfl⟩

end Fizz.Multi
