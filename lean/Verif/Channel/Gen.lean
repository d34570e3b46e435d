import Verif.Channel.Record
import Verif.Codec.Props

/-!
# Generations of keys (C78)

A sender goes through generations of application traffic keys: each but the last ends with a KeyUpdate message, the
last may end with an alert.  A receiver goes on to the next generation when it has received a
KeyUpdate.
-/

namespace Fizz.Channel
open Fizz.Codec Fizz.Record

/-! ## Handshake framing -/

/-- One handshake message of type `t`. -/
def Frame (t : UInt8) (b : Bytes) : Prop :=
  ∃ x y z body, b = t :: x :: y :: z :: body ∧ body.length = be24 x y z

theorem frame_unique {t t' : UInt8} {o o' x y : Bytes} (h : Frame t o) (h' : Frame t' o')
    (he : o ++ x = o' ++ y) : t = t' ∧ o = o' ∧ x = y := by
  obtain ⟨a, b, c, body, rfl, hl⟩ := h
  obtain ⟨a', b', c', body', rfl, hl'⟩ := h'
  simp only [List.cons_append, List.cons.injEq] at he
  obtain ⟨rfl, rfl, rfl, rfl, he⟩ := he
  obtain ⟨rfl, rfl⟩ := List.append_inj he (by rw [hl, hl'])
  exact ⟨rfl, rfl, rfl⟩

theorem Frame.ne_nil {t b} (h : Frame t b) : b ≠ [] := by
  obtain ⟨a, b, c, body, rfl, hl⟩ := h
  simp

theorem frames_prefix {os : List Bytes} : ∀ {fs : List Bytes}, (∀ o ∈ os, ∃ t, Frame t o) →
    (∀ f ∈ fs, ∃ t, Frame t f) → os.flatten <+: fs.flatten → os <+: fs := by
  induction os with
  | nil => exact fun _ _ _ => List.nil_prefix
  | cons o os ih =>
    intro fs ho hf h
    obtain ⟨t, h1⟩ := ho o (by simp)
    cases fs with
    | nil =>
      have := List.prefix_nil.1 h
      simp only [List.flatten_cons, List.append_eq_nil_iff] at this
      exact absurd this.1 h1.ne_nil
    | cons f fs =>
      obtain ⟨t', h2⟩ := hf f (by simp)
      obtain ⟨r, h⟩ := h
      simp only [List.flatten_cons, List.append_assoc] at h
      obtain ⟨-, rfl, h3⟩ := frame_unique h1 h2 h
      have := ih (fun o ho' => ho o (by simp [ho'])) (fun f hf' => hf f (by simp [hf'])) ⟨r, h3⟩
      exact List.cons_prefix_cons.2 ⟨rfl, this⟩

/-- The handshake messages among the events. -/
def origs : List Event → List Bytes
  | [] => []
  | .handshake _ orig :: es => orig :: origs es
  | _ :: es => origs es

theorem origs_flatten (es : List Event) : (origs es).flatten = handshakes es := by
  induction es with
  | nil => rfl
  | cons e es ih => cases e <;> simp [origs, handshakes, ih]

theorem mem_origs {es : List Event} {o : Bytes} : o ∈ origs es ↔ ∃ m, .handshake m o ∈ es := by
  induction es with
  | nil => simp [origs]
  | cons e es ih => cases e <;> simp [origs, ih, exists_or]

theorem framed_frame {o : Bytes} {m : HsMsg} (h : Framed o m) : ∃ t, Frame t o := by
  obtain ⟨t, a, b, c, body, h1, h2, -⟩ := h
  exact ⟨t, a, b, c, body, h1, h2⟩

theorem parse_keyUpdate {t : UInt8} {body : Bytes} {u : KeyUpdate}
    (h : parseHandshake t body = .ok (.keyUpdate u)) : t = 24 :=
  (C02_strict _ _ _ h).1

theorem framed_update {o : Bytes} {u : KeyUpdate} (h : Framed o (.keyUpdate u)) : Frame 24 o := by
  obtain ⟨t, a, b, c, body, h1, h2, h3⟩ := h
  cases parse_keyUpdate h3
  exact ⟨a, b, c, body, h1, h2⟩

/-! ## What a sender writes in one generation -/

/-- Application data, or a handshake message other than KeyUpdate. -/
def Body (c : Item) : Prop := c.1 = 23 ∨ (c.1 = 22 ∧ ∃ t, t ≠ 24 ∧ Frame t c.2.flatten)

/-- A KeyUpdate. -/
def Update (c : Item) : Prop := c.1 = 22 ∧ Frame 24 c.2.flatten

/-- An alert. -/
def IsAlert (c : Item) : Prop := c.1 = 21 ∧ c.2.flatten.length = 2

theorem itemStream_append (a b : List Item) : itemStream (a ++ b) = itemStream a ++ itemStream b := by
  simp [itemStream]

theorem itemStream_one (c : Item) : itemStream [c] = tag c.1 c.2.flatten := by simp [itemStream]

/-- If nothing is missing of the type of the last content, nothing is missing. -/
theorem nothing_more {cs : List Item} {c : Item} (hc : c.2.flatten ≠ []) {s more}
    (h : itemStream (cs ++ [c]) = s ++ more) (hm : pick c.1 more = []) : more = [] := by
  rcases List.eq_nil_or_concat more with rfl | ⟨l, x, rfl⟩
  · rfl
  · exfalso
    rw [itemStream_append, itemStream_one] at h
    rcases List.eq_nil_or_concat c.2.flatten with h0 | ⟨d, y, h0⟩
    · exact hc h0
    · rw [h0, List.concat_eq_append, List.concat_eq_append, tag_append, ← List.append_assoc, ← List.append_assoc] at h
      have := (List.append_inj' h rfl).2
      simp only [tag, List.map_cons, List.map_nil, List.cons.injEq, and_true] at this
      subst this
      rw [List.concat_eq_append, pick_append] at hm
      have := (List.append_eq_nil_iff.1 hm).2
      simp [pick] at this

/-- The handshake messages of some contents, one by one. -/
def frames (cs : List Item) : List Bytes := (cs.filter (·.1 = 22)).map (·.2.flatten)

theorem frames_flatten (cs : List Item) : (frames cs).flatten = handshakeBytes cs := by
  simp [frames, handshakeBytes, List.flatMap]

theorem frames_append (a b : List Item) : frames (a ++ b) = frames a ++ frames b := by simp [frames]

theorem body_frames {cs : List Item} (h : ∀ c ∈ cs, Body c) : ∀ f ∈ frames cs, ∃ t, t ≠ 24 ∧ Frame t f := by
  intro f hf
  simp only [frames, List.mem_map, List.mem_filter, decide_eq_true_eq] at hf
  obtain ⟨c, ⟨hc, ht⟩, rfl⟩ := hf
  rcases h c hc with hb | ⟨-, hb⟩
  · rw [hb] at ht; exact absurd ht (by decide)
  · exact hb

theorem frame_type {t u : UInt8} {b : Bytes} (h : Frame t b) (h' : Frame u b) : t = u :=
  (frame_unique (x := []) (y := []) h h' rfl).1

/-- The event is a KeyUpdate. -/
def IsUpdate (e : Event) : Prop := ∃ u o, e = .handshake (.keyUpdate u) o

/-- The messages received are the first messages sent. -/
theorem carries_origs {a : Aead} (hov : a.overhead ≤ 255) {cs es} (h : Carries a cs es)
    (hf : ∀ f ∈ frames cs, ∃ t, Frame t f) : origs es <+: frames cs := by
  obtain ⟨seg, more, h1, h2⟩ := carries_got hov h
  refine frames_prefix ?_ hf ?_
  · intro o ho
    obtain ⟨m, hm⟩ := mem_origs.1 ho
    exact framed_frame (h2.framed _ _ hm)
  · rw [origs_flatten, frames_flatten]
    exact (C78_key hov h).2

theorem carries_no_update {a : Aead} (hov : a.overhead ≤ 255) {cs es} (h : Carries a cs es)
    (hb : ∀ f ∈ frames cs, ∃ t, t ≠ 24 ∧ Frame t f) : ∀ e ∈ es, ¬ IsUpdate e := by
  rintro e he ⟨u, o, rfl⟩
  obtain ⟨seg, more, h1, h2⟩ := carries_got hov h
  have h3 := framed_update (h2.framed _ _ he)
  have h4 := (carries_origs hov h fun f hf => (hb f hf).imp fun _ h => h.2).subset (mem_origs.2 ⟨_, he⟩)
  obtain ⟨t, h5, h6⟩ := hb _ h4
  exact h5 (frame_type h6 h3)

theorem carries_update {a : Aead} (hov : a.overhead ≤ 255) {cs c es} (h : Carries a (cs ++ [c]) es)
    (hb : ∀ c ∈ cs, Body c) (hc : Update c) (hu : ∃ e ∈ es, IsUpdate e) :
    appData es = appBytes (cs ++ [c]) := by
  obtain ⟨seg, more, h1, h2⟩ := carries_got hov h
  obtain ⟨e, he, u, o, rfl⟩ := hu
  have hfr : frames (cs ++ [c]) = frames cs ++ [c.2.flatten] := by
    rw [frames_append]; simp [frames, hc.1]
  have hpre := carries_origs hov h (by
    intro f hf
    rw [hfr, List.mem_append, List.mem_singleton] at hf
    rcases hf with hf | rfl
    · obtain ⟨t, -, ht⟩ := body_frames hb f hf; exact ⟨t, ht⟩
    · exact ⟨24, hc.2⟩)
  have hmem : o ∈ origs es := mem_origs.2 ⟨_, he⟩
  rw [hfr] at hpre
  have hall : origs es = frames cs ++ [c.2.flatten] := by
    rcases List.prefix_concat_iff.1 (by simpa using hpre) with h3 | h3
    · simpa using h3
    · exfalso
      obtain ⟨t, h4, h5⟩ := body_frames hb _ (h3.subset hmem)
      exact h4 (frame_type h5 (framed_update (h2.framed _ _ he)))
  have hhs : handshakes es = handshakeBytes (cs ++ [c]) := by
    rw [← origs_flatten, ← frames_flatten, hall, hfr]
  have hm : pick 22 more = [] := by
    have e1 : pick 22 (itemStream (cs ++ [c])) = pick 22 (stream seg) ++ pick 22 more := by
      rw [h1, pick_append]
    have e2 : pick 22 (itemStream (cs ++ [c])) = handshakes es := by rw [pick_items, hhs]; rfl
    obtain ⟨r, hr⟩ := h2.hs
    rw [List.nil_append] at hr
    rw [e2, ← hr, List.append_assoc] at e1
    have := congrArg List.length e1
    simp only [List.length_append] at this
    exact List.length_eq_zero_iff.1 (by omega)
  have := nothing_more (c := c) hc.2.ne_nil h1 (by rw [hc.1]; exact hm)
  subst this
  rw [List.append_nil] at h1
  rw [h2.app, ← h1, pick_items]
  rfl

theorem body_no_alert {cs : List Item} (h : ∀ c ∈ cs, c.1 ≠ 21) : pick 21 (itemStream cs) = [] := by
  rw [pick_items, List.flatMap_eq_nil_iff]
  intro c hc
  rw [List.mem_filter] at hc
  exact absurd (by simpa using hc.2) (h c hc.1)

theorem seg_alert {seg : List (UInt8 × Bytes)} {frag : Bytes} (h : (21, frag) ∈ seg) :
    frag.length ≤ (pick 21 (stream seg)).length := by
  obtain ⟨x, y, rfl⟩ := List.mem_iff_append.1 h
  rw [stream_append, pick_append]
  show _ ≤ (_ ++ pick 21 (tag 21 frag ++ stream y)).length
  rw [pick_append, pick_tag, if_pos rfl]
  simp only [List.length_append]
  omega

theorem carries_no_final {a : Aead} (hov : a.overhead ≤ 255) {cs es} (h : Carries a cs es)
    (hb : ∀ c ∈ cs, c.1 ≠ 21) : ∀ e ∈ es, ¬ Final e := by
  intro e he hf
  obtain ⟨seg, more, h1, h2⟩ := carries_got hov h
  obtain ⟨frag, h3, h4⟩ := h2.final ⟨e, he, hf⟩
  have h5 := body_no_alert hb
  rw [h1, pick_append, List.append_eq_nil_iff] at h5
  have := seg_alert h3
  rw [h5.1, h4] at this
  simp at this

theorem carries_final {a : Aead} (hov : a.overhead ≤ 255) {cs c es} (h : Carries a (cs ++ [c]) es)
    (hb : ∀ c ∈ cs, c.1 ≠ 21) (hc : IsAlert c) (hf : ∃ e ∈ es, Final e) :
    appData es = appBytes (cs ++ [c]) := by
  obtain ⟨seg, more, h1, h2⟩ := carries_got hov h
  obtain ⟨frag, h3, h4⟩ := h2.final hf
  have h5 := seg_alert h3
  have h6 : pick 21 (itemStream (cs ++ [c])) = c.2.flatten := by
    rw [itemStream_append, pick_append, body_no_alert hb, itemStream_one, pick_tag, if_pos hc.1]; rfl
  have hm : pick 21 more = [] := by
    rw [h1, pick_append] at h6
    have := congrArg List.length h6
    rw [List.length_append, hc.2] at this
    exact List.length_eq_zero_iff.1 (by omega)
  have := nothing_more (c := c) (by intro h0; have := hc.2; rw [h0] at this; simp at this) h1
    (by rw [hc.1]; exact hm)
  subst this
  rw [List.append_nil] at h1
  rw [h2.app, ← h1, pick_items]
  rfl

theorem appBytes_append (a b : List Item) : appBytes (a ++ b) = appBytes a ++ appBytes b := by
  simp [appBytes]

theorem appData_append (a b : List Event) : appData (a ++ b) = appData a ++ appData b := by
  induction a with
  | nil => rfl
  | cons e a ih => cases e <;> simp [appData, ih]

theorem Body.not_alert {c : Item} (h : Body c) : c.1 ≠ 21 := by
  rcases h with h | ⟨h, -⟩ <;> rw [h] <;> decide

/-! ## All generations -/

/-- Generations of a sender that are over: each ends with a KeyUpdate. -/
def Past (W : List (Bytes × List Item)) : Prop :=
  ∀ g ∈ W, ∃ cs u, g.2 = cs ++ [u] ∧ (∀ c ∈ cs, Body c) ∧ Update u

/-- The generation in use. -/
def Open (Z : Bytes) (W : List (Bytes × List Item)) : Prop :=
  ∃ P cs, W = P ++ [(Z, cs)] ∧ Past P ∧ ∀ c ∈ cs, Body c

/-- The sender has ended with an alert. -/
def Shut (W : List (Bytes × List Item)) : Prop :=
  ∃ P Z cs al, W = P ++ [(Z, cs ++ [al])] ∧ Past P ∧ (∀ c ∈ cs, Body c) ∧ IsAlert al

/-- All a sender can have written. -/
def Written (W : List (Bytes × List Item)) : Prop := W = [] ∨ (∃ Z, Open Z W) ∨ Shut W

/-- Generations of a receiver: all but the last saw a KeyUpdate. -/
def Heard (R : List (Bytes × List Event)) : Prop :=
  ∀ P g S, R = P ++ g :: S → S ≠ [] → ∃ e ∈ g.2, IsUpdate e

theorem Heard.tail {g R} (h : Heard (g :: R)) : Heard R :=
  fun P x S hR hS => h (g :: P) x S (by rw [hR]; rfl) hS

theorem Written.tail {g W} (h : Written (g :: W)) : Written W := by
  have pt : ∀ {P : List (Bytes × List Item)} {x}, Past (x :: P) → Past P := fun hp g hg => hp g (by simp [hg])
  rcases h with h | ⟨Z, P, cs, h1, h2, h3⟩ | ⟨P, Z, cs, al, h1, h2, h3, h4⟩
  · cases h
  · cases P with
    | nil => simp only [List.nil_append, List.cons.injEq] at h1; exact .inl h1.2
    | cons p P =>
      simp only [List.cons_append, List.cons.injEq] at h1
      exact .inr (.inl ⟨Z, P, cs, h1.2, pt h2, h3⟩)
  · cases P with
    | nil => simp only [List.nil_append, List.cons.injEq] at h1; exact .inl h1.2
    | cons p P =>
      simp only [List.cons_append, List.cons.injEq] at h1
      exact .inr (.inr ⟨P, Z, cs, al, h1.2, pt h2, h3, h4⟩)

/-- The first generation of a sender: it ends with a KeyUpdate, and there is another; or it is the last. -/
theorem Written.head {Z cs W} (h : Written ((Z, cs) :: W)) :
    (W ≠ [] ∧ ∃ cs0 u, cs = cs0 ++ [u] ∧ (∀ c ∈ cs0, Body c) ∧ Update u) ∨
    (W = [] ∧ ((∀ c ∈ cs, Body c) ∨ ∃ cs0 al, cs = cs0 ++ [al] ∧ (∀ c ∈ cs0, Body c) ∧ IsAlert al)) := by
  rcases h with h | ⟨Z, P, cs, h1, h2, h3⟩ | ⟨P, Z, cs, al, h1, h2, h3, h4⟩
  · cases h
  · cases P with
    | nil =>
      simp only [List.nil_append, List.cons.injEq, Prod.mk.injEq] at h1
      obtain ⟨⟨-, rfl⟩, rfl⟩ := h1
      exact .inr ⟨rfl, .inl h3⟩
    | cons p P =>
      simp only [List.cons_append, List.cons.injEq] at h1
      obtain ⟨rfl, rfl⟩ := h1
      exact .inl ⟨by simp, h2 _ List.mem_cons_self⟩
  · cases P with
    | nil =>
      simp only [List.nil_append, List.cons.injEq, Prod.mk.injEq] at h1
      obtain ⟨⟨-, rfl⟩, rfl⟩ := h1
      exact .inr ⟨rfl, .inr ⟨cs, al, rfl, h3, h4⟩⟩
    | cons p P =>
      simp only [List.cons_append, List.cons.injEq] at h1
      obtain ⟨rfl, rfl⟩ := h1
      exact .inl ⟨by simp, h2 _ List.mem_cons_self⟩

/-- The contents of generation `i`. -/
def items (W : List (Bytes × List Item)) (i : Nat) : List Item := ((W[i]?).map (·.2)).getD []

/-- Everything, over all generations. -/
theorem generations {aeadOf : Bytes → Aead} (hov : ∀ Z, (aeadOf Z).overhead ≤ 255) :
    ∀ (R : List (Bytes × List Event)) (W : List (Bytes × List Item)), Written W → Heard R →
    (∀ i Z es, R[i]? = some (Z, es) → Carries (aeadOf Z) (items W i) es) →
    appData (R.flatMap (·.2)) <+: appBytes (W.flatMap (·.2)) ∧
    ((∃ g ∈ R, ∃ e ∈ g.2, Final e) → appData (R.flatMap (·.2)) = appBytes (W.flatMap (·.2)) ∧ Shut W) := by
  intro R
  induction R with
  | nil => exact fun W _ _ _ => ⟨List.nil_prefix, by simp⟩
  | cons r R ih =>
    obtain ⟨Z, es⟩ := r
    intro W hw hh hl
    have h0 : Carries (aeadOf Z) (items W 0) es := hl 0 Z es rfl
    have hR : R ≠ [] → ∃ e ∈ es, IsUpdate e := fun hne => hh [] (Z, es) R rfl hne
    cases W with
    | nil =>
      have hn : items [] 0 = [] := rfl
      rw [hn] at h0
      have hR0 : R = [] := by
        by_cases hne : R = []
        · exact hne
        · obtain ⟨e, he, hu⟩ := hR hne
          exact absurd hu (carries_no_update (hov Z) h0 (by simp [frames]) e he)
      subst hR0
      have := (C78_key (hov Z) h0).1
      refine ⟨by simpa using this, ?_⟩
      rintro ⟨g, hg, e, he, hf⟩
      cases List.mem_singleton.1 hg
      exact absurd hf (carries_no_final (hov Z) h0 (by simp) e he)
    | cons w W =>
      obtain ⟨Zw, cs⟩ := w
      have hi : items ((Zw, cs) :: W) 0 = cs := rfl
      rw [hi] at h0
      have hrec := ih W hw.tail hh.tail (fun i Z es hr => hl (i + 1) Z es hr)
      have e1 : ((Z, es) :: R).flatMap (·.2) = es ++ R.flatMap (·.2) := rfl
      have e2 : ((Zw, cs) :: W).flatMap (·.2) = cs ++ W.flatMap (·.2) := rfl
      rw [e1, e2, appData_append, appBytes_append]
      rcases hw.head with ⟨hW, cs0, u, rfl, hb, hu⟩ | ⟨rfl, hb⟩
      · have hnf : ∀ e ∈ es, ¬ Final e := by
          refine carries_no_final (hov Z) h0 ?_
          intro c hc
          rcases List.mem_append.1 hc with hc | hc
          · exact (hb c hc).not_alert
          · rw [List.mem_singleton.1 hc, hu.1]; decide
        by_cases hne : R = []
        · subst hne
          refine ⟨?_, ?_⟩
          · show appData es ++ appData [] <+: _
            rw [show appData [] = [] from rfl, List.append_nil]
            exact (C78_key (hov Z) h0).1.trans (List.prefix_append _ _)
          · rintro ⟨g, hg, e, he, hf⟩
            cases List.mem_singleton.1 hg
            exact absurd hf (hnf e he)
        · rw [carries_update (hov Z) h0 hb hu (hR hne)]
          refine ⟨(List.prefix_append_right_inj _).2 hrec.1, ?_⟩
          rintro ⟨g, hg, e, he, hf⟩
          rcases List.mem_cons.1 hg with rfl | hg
          · exact absurd hf (hnf e he)
          · obtain ⟨k1, P, Z', c', al, k2, k3, k4⟩ := hrec.2 ⟨g, hg, e, he, hf⟩
            refine ⟨by rw [k1], (Zw, cs0 ++ [u]) :: P, Z', c', al, by rw [k2]; rfl, ?_, k4⟩
            intro g hg
            rcases List.mem_cons.1 hg with rfl | hg
            · exact ⟨cs0, u, rfl, hb, hu⟩
            · exact k3 g hg
      · have hR0 : R = [] := by
          by_cases hne : R = []
          · exact hne
          · obtain ⟨e, he, hu⟩ := hR hne
            refine absurd hu (carries_no_update (hov Z) h0 ?_ e he)
            rcases hb with hb | ⟨cs0, al, rfl, hb, ha⟩
            · exact body_frames hb
            · rw [frames_append]
              have : frames [al] = [] := by simp [frames, ha.1]
              rw [this, List.append_nil]
              exact body_frames hb
        subst hR0
        show appData es ++ appData [] <+: appBytes cs ++ appBytes [] ∧
          (_ → appData es ++ appData [] = appBytes cs ++ appBytes [] ∧ _)
        rw [show appData [] = [] from rfl, List.append_nil, show appBytes [] = [] from rfl, List.append_nil]
        refine ⟨(C78_key (hov Z) h0).1, ?_⟩
        rintro ⟨g, hg, e, he, hf⟩
        cases List.mem_singleton.1 hg
        rcases hb with hb | ⟨cs0, al, rfl, hb, ha⟩
        · exact absurd hf (carries_no_final (hov Z) h0 (fun c hc => (hb c hc).not_alert) e he)
        · exact ⟨carries_final (hov Z) h0 (fun c hc => (hb c hc).not_alert) ha ⟨e, he, hf⟩,
            [], Zw, cs0, al, rfl, by simp [Past], hb, ha⟩

/-! ## Keys and generations -/

/-- All entries, with their keys. -/
def spread {α} (G : List (Bytes × List α)) : List (Bytes × α) := G.flatMap fun g => g.2.map fun x => (g.1, x)

theorem forKey_append {α} (Z : Bytes) (a b : List (Bytes × α)) : forKey Z (a ++ b) = forKey Z a ++ forKey Z b := by
  simp [forKey]

theorem forKey_one {α} (Z Y : Bytes) (xs : List α) :
    forKey Z (xs.map fun x => (Y, x)) = if Y = Z then xs else [] := by
  induction xs with
  | nil => simp [forKey]
  | cons x xs ih =>
    rw [List.map_cons]
    have : forKey Z ((Y, x) :: xs.map fun x => (Y, x)) =
        forKey Z [(Y, x)] ++ forKey Z (xs.map fun x => (Y, x)) := by
      rw [← forKey_append]; rfl
    rw [this, ih]
    by_cases h : Y = Z <;> simp [forKey, h]

theorem forKey_none {α} {Z : Bytes} {G : List (Bytes × List α)} (h : Z ∉ G.map (·.1)) :
    forKey Z (spread G) = [] := by
  induction G with
  | nil => rfl
  | cons g G ih =>
    simp only [List.map_cons, List.mem_cons, not_or] at h
    show forKey Z (g.2.map (fun x => (g.1, x)) ++ spread G) = []
    rw [forKey_append, ih h.2, forKey_one, if_neg (fun he => h.1 he.symm)]
    rfl

theorem forKey_spread {α} {G : List (Bytes × List α)} (hn : (G.map (·.1)).Nodup) :
    ∀ {i : Nat} {Z xs}, G[i]? = some (Z, xs) → forKey Z (spread G) = xs := by
  induction G with
  | nil => simp
  | cons g G ih =>
    intro i Z xs h
    simp only [List.map_cons, List.nodup_cons] at hn
    show forKey Z (g.2.map (fun x => (g.1, x)) ++ spread G) = xs
    rw [forKey_append, forKey_one]
    cases i with
    | zero =>
      cases h
      rw [if_pos rfl, forKey_none hn.1, List.append_nil]
    | succ i =>
      have h' : G[i]? = some (Z, xs) := h
      rw [ih hn.2 h', if_neg]
      · rfl
      · intro he
        apply hn.1
        rw [he]
        exact List.mem_map.2 ⟨_, List.mem_of_getElem? h', rfl⟩

theorem spread_values {α} (G : List (Bytes × List α)) : (spread G).map (·.2) = G.flatMap (·.2) := by
  induction G with
  | nil => rfl
  | cons g G ih =>
    show (g.2.map (fun x => (g.1, x)) ++ spread G).map (·.2) = g.2 ++ _
    rw [List.map_append, ih, List.map_map]
    have : (fun x : Bytes × α => x.2) ∘ (fun x : α => (g.1, x)) = id := rfl
    rw [this, List.map_id]
    rfl

/-- The same over histories: `l` is what was written, with keys, `arr` what arrived. -/
theorem endToEnd {aeadOf : Bytes → Aead} (hov : ∀ Z, (aeadOf Z).overhead ≤ 255)
    {W : List (Bytes × List Item)} {R : List (Bytes × List Event)} (hw : Written W) (hh : Heard R)
    (hnw : (W.map (·.1)).Nodup) (hnr : (R.map (·.1)).Nodup)
    (hag : ∀ (i : Nat) Z Y, (R.map (·.1))[i]? = some Z → (W.map (·.1))[i]? = some Y → Z = Y)
    (hl : ∀ Z ∈ R.map (·.1), Carries (aeadOf Z) (forKey Z (spread W)) (forKey Z (spread R))) :
    appData ((spread R).map (·.2)) <+: appBytes ((spread W).map (·.2)) ∧
    ((∃ e ∈ (spread R).map (·.2), Final e) →
      appData ((spread R).map (·.2)) = appBytes ((spread W).map (·.2)) ∧ Shut W) := by
  rw [spread_values, spread_values]
  have key := generations hov R W hw hh ?_
  · refine ⟨key.1, ?_⟩
    rintro ⟨e, he, hf⟩
    rw [List.mem_flatMap] at he
    obtain ⟨g, hg, he⟩ := he
    exact key.2 ⟨g, hg, e, he, hf⟩
  · intro i Z es hr
    have hZ : (R.map (·.1))[i]? = some Z := by rw [List.getElem?_map, hr]; rfl
    have h1 := hl Z (List.mem_of_getElem? hZ)
    rw [forKey_spread hnr hr] at h1
    have h2 : forKey Z (spread W) = items W i := by
      unfold items
      cases hwi : W[i]? with
      | some w =>
        obtain ⟨Y, cs⟩ := w
        have hY : (W.map (·.1))[i]? = some Y := by rw [List.getElem?_map, hwi]; rfl
        cases hag i Z Y hZ hY
        rw [forKey_spread hnw hwi]
        rfl
      | none =>
        rw [forKey_none]
        · rfl
        · intro hm
          obtain ⟨j, hj⟩ := List.mem_iff_getElem?.1 hm
          have hlw : W.length ≤ i := by simpa using hwi
          have hjl : j < W.length := by
            have := (List.getElem?_eq_some_iff.1 hj).1
            simpa using this
          have hil : i < (R.map (·.1)).length := (List.getElem?_eq_some_iff.1 hZ).1
          obtain ⟨Y, hY⟩ : ∃ Y, (R.map (·.1))[j]? = some Y := ⟨_, List.getElem?_eq_getElem (by omega)⟩
          cases hag j Y Z hY hj
          have hjr : j < (R.map (·.1)).length := (List.getElem?_eq_some_iff.1 hY).1
          have := (List.getElem?_inj hjr hnr).1 (hY.trans hZ.symm)
          omega
    rw [h2] at h1
    exact h1

end Fizz.Channel
