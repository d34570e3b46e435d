import Verif.Channel.Gen

/-!
# How a peer goes through its application keys (C78)

`Sends` and `Hears` list what one step of a peer can do with its application keys, in either direction; a peer all of
whose steps are of these kinds has written what `Written` says and has heard what `Heard` says.
-/

namespace Fizz.Channel
open Fizz.Codec Fizz.Record

/-! ## Frames -/

theorem frame_vec (t : UInt8) {b : Bytes} (h : b.length < 2 ^ 24) : Frame t (t :: vec .u24 b) := by
  have h3 := beEnc_length 3 b.length
  have h4 : ∃ x y z, beEnc 3 b.length = [x, y, z] := by
    match hb : beEnc 3 b.length, h3 with
    | [x, y, z], _ => exact ⟨x, y, z, rfl⟩
  obtain ⟨x, y, z, h4⟩ := h4
  refine ⟨x, y, z, b, ?_, ?_⟩
  · show t :: (beEnc 3 b.length ++ b) = _
    rw [h4]; rfl
  · have h5 : beDec (beEnc 3 b.length) = b.length := beDec_beEnc (by exact h)
    rw [h4] at h5
    rw [← h5]
    simp [beDec, be24]
    omega

theorem frame_encoded {m : HsMsg} {b : Bytes} (h : encodeHandshake m = .ok b) : Frame (Codec.Spec.typeByte m) b := by
  obtain ⟨-, h2, rfl⟩ := encodeHandshake_eq_ok.1 h
  exact frame_vec _ h2

/-! ## Sending -/

/-- A sender is in state `(fresh, key)`: whether it may still choose its first application key, and the application key
it writes with.  One step announces some keys, writes some contents under application keys, and leads to another
state. -/
inductive Sends : Bool → Option Bytes → List Bytes → List (Bytes × Item) → Bool → Option Bytes → Prop where
  | idle {v k v' k'} : (v' = true → v = true) → k' = k ∨ k' = none → Sends v k [] [] v' k'
  | first {k Z k'} : k' = some Z ∨ k' = none → Sends true k [Z] [] false k'
  | body {v v' Z c k'} : (v' = true → v = true) → k' = some Z ∨ k' = none → Body c →
      Sends v (some Z) [] [(Z, c)] v' k'
  | update {v Z Z' c} : Update c → Sends v (some Z) [Z'] [(Z, c)] false (some Z')
  | alert {v v' Z c} : (v' = true → v = true) → IsAlert c → Sends v (some Z) [] [(Z, c)] v' none

/-- What a sender has done. -/
def Sender (keys : List Bytes) (sent : List (Bytes × Item)) (v : Bool) (k : Option Bytes) : Prop :=
  ∃ W, keys = W.map (·.1) ∧ sent = spread W ∧ Written W ∧ (v = true → W = []) ∧ ∀ Z, k = some Z → Open Z W

theorem spread_append {α} (a b : List (Bytes × List α)) : spread (a ++ b) = spread a ++ spread b := by
  simp [spread]

theorem spread_one {α} (Z : Bytes) (xs : List α) : spread [(Z, xs)] = xs.map fun x => (Z, x) := by
  simp [spread]

theorem spread_grow {α} (P : List (Bytes × List α)) (Z : Bytes) (xs : List α) (x : α) :
    spread (P ++ [(Z, xs ++ [x])]) = spread (P ++ [(Z, xs)]) ++ [(Z, x)] := by
  rw [spread_append, spread_append, spread_one, spread_one, List.map_append]
  simp

theorem Sender.step {keys sent v k ann out v' k'} (h : Sender keys sent v k) (hs : Sends v k ann out v' k') :
    Sender (keys ++ ann) (sent ++ out) v' k' := by
  obtain ⟨W, h1, h2, h3, h4, h5⟩ := h
  cases hs with
  | idle hv hk =>
    refine ⟨W, by simpa using h1, by simpa using h2, h3, fun h => h4 (hv h), ?_⟩
    intro Z hZ
    rcases hk with rfl | rfl
    · exact h5 Z hZ
    · cases hZ
  | @first _ Z _ hk =>
    have hW := h4 rfl
    subst hW
    have ho : Open Z [(Z, [])] := ⟨[], [], rfl, by simp [Past], by simp⟩
    refine ⟨[(Z, [])], by rw [h1]; rfl, by rw [h2]; rfl, .inr (.inl ⟨Z, ho⟩), by simp, ?_⟩
    intro Y hY
    rcases hk with rfl | rfl
    · cases hY; exact ho
    · cases hY
  | @body _ _ Z c _ hv hk hb =>
    obtain ⟨P, cs, rfl, h6, h7⟩ := h5 Z rfl
    have ho : Open Z (P ++ [(Z, cs ++ [c])]) := by
      refine ⟨P, cs ++ [c], rfl, h6, ?_⟩
      intro d hd
      rcases List.mem_append.1 hd with hd | hd
      · exact h7 d hd
      · rw [List.mem_singleton.1 hd]; exact hb
    refine ⟨P ++ [(Z, cs ++ [c])], by rw [h1]; simp, by rw [h2, spread_grow], .inr (.inl ⟨Z, ho⟩), ?_, ?_⟩
    · intro h; have := h4 (hv h); simp at this
    · intro Y hY
      rcases hk with rfl | rfl
      · cases hY; exact ho
      · cases hY
  | @update _ Z Z' c hu =>
    obtain ⟨P, cs, rfl, h6, h7⟩ := h5 Z rfl
    have ho : Open Z' (P ++ [(Z, cs ++ [c])] ++ [(Z', [])]) := by
      refine ⟨P ++ [(Z, cs ++ [c])], [], rfl, ?_, by simp⟩
      intro g hg
      rcases List.mem_append.1 hg with hg | hg
      · exact h6 g hg
      · rw [List.mem_singleton.1 hg]; exact ⟨cs, c, rfl, h7, hu⟩
    refine ⟨P ++ [(Z, cs ++ [c])] ++ [(Z', [])], by rw [h1]; simp, ?_, .inr (.inl ⟨Z', ho⟩), by simp, ?_⟩
    · rw [spread_append, spread_grow, h2, spread_one]; simp
    · intro Y hY; cases hY; exact ho
  | @alert _ _ Z c hv ha =>
    obtain ⟨P, cs, rfl, h6, h7⟩ := h5 Z rfl
    refine ⟨P ++ [(Z, cs ++ [c])], by rw [h1]; simp, by rw [h2, spread_grow],
      .inr (.inr ⟨P, Z, cs, c, rfl, h6, h7, ha⟩), ?_, by simp⟩
    intro h; have := h4 (hv h); simp at this

theorem Sender.start : Sender [] [] true none :=
  ⟨[], rfl, rfl, .inl rfl, fun _ => rfl, by simp⟩

/-! ## Receiving -/

/-- The same for a receiver. -/
inductive Hears : Bool → Option Bytes → List Bytes → List (Bytes × Event) → Bool → Option Bytes → Prop where
  | idle {v k v' k'} : (v' = true → v = true) → k' = k ∨ k' = none → Hears v k [] [] v' k'
  | first {k Z k'} : k' = some Z ∨ k' = none → Hears true k [Z] [] false k'
  | event {v v' Z e k'} : (v' = true → v = true) → k' = some Z ∨ k' = none → Hears v (some Z) [] [(Z, e)] v' k'
  | update {v Z Z' u o} : Hears v (some Z) [Z'] [(Z, .handshake (.keyUpdate u) o)] false (some Z')

/-- What a receiver has heard. -/
def Receiver (keys : List Bytes) (arrived : List (Bytes × Event)) (v : Bool) (k : Option Bytes) : Prop :=
  ∃ R, keys = R.map (·.1) ∧ arrived = spread R ∧ Heard R ∧ (v = true → R = []) ∧
    ∀ Z, k = some Z → ∃ P es, R = P ++ [(Z, es)]

theorem heard_grow {P : List (Bytes × List Event)} {Z es e} (h : Heard (P ++ [(Z, es)])) :
    Heard (P ++ [(Z, es ++ [e])]) := by
  intro P' g S hR hS
  rcases List.eq_nil_or_concat S with rfl | ⟨S', x, rfl⟩
  · exact absurd rfl hS
  · rw [List.concat_eq_append] at hR
    have h1 := List.append_inj' (show P ++ [(Z, es ++ [e])] = (P' ++ g :: S') ++ [x] by rw [hR]; simp) rfl
    exact h P' g (S' ++ [(Z, es)]) (by rw [h1.1]; simp) (by simp)

theorem heard_next {P : List (Bytes × List Event)} {Z es e Z'} (h : Heard (P ++ [(Z, es)])) (hu : IsUpdate e) :
    Heard (P ++ [(Z, es ++ [e])] ++ [(Z', [])]) := by
  intro P' g S hR hS
  rcases List.eq_nil_or_concat S with rfl | ⟨S', x, rfl⟩
  · exact absurd rfl hS
  · rw [List.concat_eq_append] at hR
    have h1 := List.append_inj' (show P ++ [(Z, es ++ [e])] ++ [(Z', [])] = (P' ++ g :: S') ++ [x] by rw [hR]; simp) rfl
    rcases List.eq_nil_or_concat S' with rfl | ⟨S'', y, rfl⟩
    · have h2 := List.append_inj' h1.1 rfl
      have h3 := h2.2
      simp only [List.cons.injEq, and_true] at h3
      rw [← h3]
      exact ⟨e, by simp, hu⟩
    · refine heard_grow (e := e) h P' g (S''.concat y) ?_ (by simp)
      rw [h1.1]

theorem Receiver.step {keys arr v k ann out v' k'} (h : Receiver keys arr v k) (hs : Hears v k ann out v' k') :
    Receiver (keys ++ ann) (arr ++ out) v' k' := by
  obtain ⟨R, h1, h2, h3, h4, h5⟩ := h
  cases hs with
  | idle hv hk =>
    refine ⟨R, by simpa using h1, by simpa using h2, h3, fun h => h4 (hv h), ?_⟩
    intro Z hZ
    rcases hk with rfl | rfl
    · exact h5 Z hZ
    · cases hZ
  | @first _ Z _ hk =>
    have hR := h4 rfl
    subst hR
    refine ⟨[(Z, [])], by rw [h1]; rfl, by rw [h2]; rfl, ?_, by simp, ?_⟩
    · intro P g S hR hS
      exfalso
      cases P with
      | nil => simp only [List.nil_append, List.cons.injEq] at hR; exact hS hR.2.symm
      | cons p P => simp at hR
    · intro Y hY
      rcases hk with rfl | rfl
      · cases hY; exact ⟨[], [], rfl⟩
      · cases hY
  | @event _ _ Z e _ hv hk =>
    obtain ⟨P, es, rfl⟩ := h5 Z rfl
    refine ⟨P ++ [(Z, es ++ [e])], by rw [h1]; simp, by rw [h2, spread_grow], heard_grow h3, ?_, ?_⟩
    · intro h; have := h4 (hv h); simp at this
    · intro Y hY
      rcases hk with rfl | rfl
      · cases hY; exact ⟨P, _, rfl⟩
      · cases hY
  | @update _ Z Z' u o =>
    obtain ⟨P, es, rfl⟩ := h5 Z rfl
    refine ⟨P ++ [(Z, es ++ [.handshake (.keyUpdate u) o])] ++ [(Z', [])], by rw [h1]; simp, ?_,
      heard_next h3 ⟨u, o, rfl⟩, by simp, ?_⟩
    · rw [spread_append, spread_grow, h2, spread_one]; simp
    · intro Y hY; cases hY; exact ⟨_, _, rfl⟩

theorem Receiver.start : Receiver [] [] true none :=
  ⟨[], rfl, rfl, fun P g S h _ => (by simp at h), fun _ => rfl, by simp⟩

/-- Together: what a receiver gets from a sender. -/
theorem deliver {aeadOf : Bytes → Aead} (hov : ∀ Z, (aeadOf Z).overhead ≤ 255) {kw sent v k kr arr v' k'}
    (hs : Sender kw sent v k) (hr : Receiver kr arr v' k') (hnw : kw.Nodup) (hnr : kr.Nodup)
    (hag : ∀ (i : Nat) Z Y, kr[i]? = some Z → kw[i]? = some Y → Z = Y)
    (hl : ∀ Z ∈ kr, Carries (aeadOf Z) (forKey Z sent) (forKey Z arr)) :
    appData (arr.map (·.2)) <+: appBytes (sent.map (·.2)) ∧
    ((∃ e ∈ arr.map (·.2), Final e) →
      appData (arr.map (·.2)) = appBytes (sent.map (·.2)) ∧ ∃ c, (sent.map (·.2)).getLast? = some c ∧ IsAlert c) := by
  obtain ⟨W, rfl, rfl, hw, -, -⟩ := hs
  obtain ⟨R, rfl, rfl, hh, -, -⟩ := hr
  have := endToEnd hov hw hh hnw hnr hag hl
  refine ⟨this.1, fun h => ⟨(this.2 h).1, ?_⟩⟩
  obtain ⟨P, Z, cs, al, rfl, -, -, h4⟩ := (this.2 h).2
  refine ⟨al, ?_, h4⟩
  rw [spread_grow]
  simp

end Fizz.Channel
