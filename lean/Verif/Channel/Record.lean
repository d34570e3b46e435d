import Verif.Channel.Spec
import Verif.Record.WriteProps
import Verif.Record.ReadProps
import Verif.Codec.Lemmas
import Mathlib.Tactic.SplitIfs

/-!
# What comes out of a key is a prefix of what went in (C78, one key)
-/

namespace Fizz.Channel
open Fizz.Codec Fizz.Record

/-! ## Tagged streams -/

/-- Bytes with their content type. -/
def tag (t : UInt8) (b : Bytes) : List (UInt8 × UInt8) := b.map fun x => (t, x)

/-- The tagged stream of records. -/
def stream (rs : List (UInt8 × Bytes)) : List (UInt8 × UInt8) := rs.flatMap fun r => tag r.1 r.2

/-- The bytes of one type. -/
def pick (t : UInt8) (s : List (UInt8 × UInt8)) : Bytes := (s.filter (·.1 = t)).map (·.2)

/-- The tagged stream of contents. -/
def itemStream (cs : List Item) : List (UInt8 × UInt8) := cs.flatMap fun c => tag c.1 c.2.flatten

theorem tag_append (t : UInt8) (a b : Bytes) : tag t (a ++ b) = tag t a ++ tag t b := by simp [tag]

theorem pick_append (t : UInt8) (a b) : pick t (a ++ b) = pick t a ++ pick t b := by simp [pick]

theorem pick_tag (t u : UInt8) (b : Bytes) : pick t (tag u b) = if u = t then b else [] := by
  unfold pick tag
  induction b with
  | nil => simp
  | cons x b ih =>
    simp only [List.map_cons, List.filter_cons]
    by_cases h : u = t
    · simp only [h, decide_true, if_true, List.map_cons] at ih ⊢
      rw [ih]
    · simp only [h, decide_false, if_false] at ih ⊢
      simpa using ih

theorem pick_items (t : UInt8) (cs : List Item) :
    pick t (itemStream cs) = (cs.filter (·.1 = t)).flatMap (·.2.flatten) := by
  induction cs with
  | nil => rfl
  | cons c cs ih =>
    show pick t (tag c.1 c.2.flatten ++ itemStream cs) = _
    rw [pick_append, ih, pick_tag, List.filter_cons]
    by_cases h : c.1 = t <;> simp [h]

theorem pick_prefix {t : UInt8} {a b : List (UInt8 × UInt8)} (h : a <+: b) : pick t a <+: pick t b := by
  obtain ⟨c, rfl⟩ := h
  rw [pick_append]
  exact List.prefix_append _ _

theorem stream_append (a b) : stream (a ++ b) = stream a ++ stream b := by simp [stream]

/-! ## The records a sender makes -/

/-- The AEAD calls are for these records, with consecutive sequence numbers. -/
def Records (seq : Nat) (rs : List (UInt8 × Bytes)) (calls : List SealCall) : Prop :=
  rs.length = calls.length ∧
  ∀ (i : Nat) (c : SealCall), calls[i]? = some c → c.seq.toNat = seq + i ∧
    ∃ r, rs[i]? = some r ∧ r.1 ≠ 0 ∧ ∃ pad, c.plaintext = r.2 ++ r.1 :: List.replicate pad 0

theorem Records.append {seq rs calls rs' calls'} (h : Records seq rs calls)
    (h' : Records (seq + calls.length) rs' calls') : Records seq (rs ++ rs') (calls ++ calls') := by
  refine ⟨by simp [h.1, h'.1], fun i c hc => ?_⟩
  rw [List.getElem?_append] at hc
  rw [List.getElem?_append, h.1]
  split_ifs at hc ⊢ with hi
  · exact h.2 i c hc
  · obtain ⟨h1, h2⟩ := h'.2 _ _ hc
    exact ⟨by omega, h2⟩

theorem Trace.records {w a type seq data calls} (ht : type ≠ 0) (h : Trace w a type seq data calls) :
    ∃ rs, Records seq rs calls ∧ stream rs = tag type data := by
  induction h with
  | nil seq => exact ⟨[], ⟨rfl, by simp⟩, rfl⟩
  | @cons seq content pad data c cs hc _ ih =>
    obtain ⟨rs, h1, h2⟩ := ih
    refine ⟨[(type, content)] ++ rs, ?_, by rw [stream_append, h2, tag_append]; simp [stream]⟩
    refine Records.append (calls := [c]) ⟨rfl, fun i d hd => ?_⟩ h1
    cases i with
    | zero =>
      simp only [List.length_cons, Nat.lt_add_left_iff_pos, List.getElem?_cons_zero, Option.some.injEq] at hd
      subst hd
      exact ⟨hc.2.2.2.1, (type, content), rfl, ht, pad, hc.1⟩
    | succ i => simp at hd

theorem Sealed.records {a : Aead} (hov : a.overhead ≤ 255) {seq cs calls} (h : Sealed a seq cs calls) :
    ∃ rs, Records seq.toNat rs calls ∧ stream rs = itemStream cs := by
  induction h with
  | nil => exact ⟨[], ⟨rfl, by simp⟩, rfl⟩
  | @write w w' t chain calls out rest more ha hm hm' ht hw _ ih =>
    obtain ⟨s', calls', data, res, h1, h2, h3, h4, h5, h6⟩ := encWrite_spec w a ha t chain hm (by omega)
    rw [hw] at h1
    simp only [Prod.mk.injEq] at h1
    obtain ⟨rfl, rfl, rfl⟩ := h1
    obtain ⟨k1, -⟩ := h5 out rfl
    obtain ⟨rs, g1, g2⟩ := Trace.records (by rcases ht with rfl | rfl | rfl <;> decide) h3
    obtain ⟨rs', f1, f2⟩ := ih
    refine ⟨rs ++ rs', g1.append (by rw [← h2]; exact f1), ?_⟩
    rw [stream_append, g2, f2, k1]
    rfl

/-! ## Reading them -/

/-- The pair of a record. -/
def rec (m : TLSMessage) : UInt8 × Bytes := (m.type, m.fragment)

/-- A fresh or advanced read layer. -/
structure AtSeq (a : Aead) (n : Nat) (l : Layer) : Prop where
  enc : ∃ st : EncRd, l = .enc st ∧ st.aead = some a ∧ st.seq.toNat = n

theorem read_next {a : Aead} {calls rs n l buf m l' rest} (hrs : Records 0 rs calls)
    (hg : Genuine a calls buf) (hl : AtSeq a n l) (h : Layer.read l buf = .done m l' rest) :
    AtSeq a (n + 1) l' ∧ rs[n]? = some (rec m) ∧ rest <:+ buf := by
  obtain ⟨st, rfl, ha, hn⟩ := hl.enc
  have h' : ∃ st', encRead st buf = .done m st' rest ∧ l' = .enc st' := by
    unfold Layer.read at h
    simp only at h
    cases he : encRead st buf with
    | done m2 st2 rest2 =>
      rw [he] at h
      simp only [Iter.mapSt, Iter.done.injEq] at h
      obtain ⟨rfl, rfl, rfl⟩ := h
      exact ⟨st2, rfl, rfl⟩
    | _ => rw [he] at h; simp [Iter.mapSt] at h
  obtain ⟨st', h', rfl⟩ := h'
  obtain ⟨drop, hd, ct, a', chain, k, e1, -, -, e4, e5, e6, e7, e8, e9⟩ := C11_authenticated _ _ _ _ _ h'
  rw [ha] at e4
  cases Option.some.inj e4
  obtain ⟨c, hc, hcs, hcp⟩ := hg hd ct ⟨drop, rest, by rw [e1]; simp⟩ _ _ _ (by split <;> simp) e6
  have hi := List.mem_iff_getElem?.1 hc
  obtain ⟨i, hi⟩ := hi
  obtain ⟨f1, r, f2, f3, pad, f4⟩ := hrs.2 i c hi
  have : i = n := by rw [hcs] at f1; omega
  subst this
  rw [hcp, e7] at f4
  have hm0 : m.type ≠ 0 := by rcases e8 with h | h | h <;> rw [h] <;> decide
  obtain ⟨g1, g2⟩ := zeros_unique hm0 f3 f4
  refine ⟨⟨st', rfl, ?_, ?_⟩, ?_, ?_⟩
  · rw [e9]; exact ha
  · rw [e9]
    simp only
    rw [seq_succ _ (by simpa [maxSeq] using e5), hn]
  · rw [f2, rec, g1, g2]
  · exact ⟨drop ++ hd.bytes ++ ct, by rw [e1]⟩

theorem genuine_suffix {a : Aead} {calls buf rest} (hg : Genuine a calls buf) (h : rest <:+ buf) :
    Genuine a calls rest :=
  fun hd ct hi => hg hd ct (hi.trans h.isInfix)

theorem reads_next {a : Aead} {calls rs l buf ms l' rest} (hrs : Records 0 rs calls)
    (hr : Reads l buf ms l' rest) : ∀ n, Genuine a calls buf → AtSeq a n l →
    AtSeq a (n + ms.length) l' ∧ (rs.drop n).take ms.length = ms.map rec ∧ n + ms.length ≤ max n rs.length ∧
      rest <:+ buf := by
  induction hr with
  | nil => exact fun n _ hl => ⟨hl, by simp, by simp; omega, List.suffix_refl _⟩
  | @cons l b m l1 b1 ms l2 b2 h1 _ ih =>
    intro n hg hl
    obtain ⟨e1, e2, e3⟩ := read_next hrs hg hl h1
    obtain ⟨f1, f2, f3, f4⟩ := ih (n + 1) (genuine_suffix hg e3) e1
    obtain ⟨hlt, e2⟩ := List.getElem?_eq_some_iff.1 e2
    refine ⟨by simpa [Nat.add_assoc, Nat.add_comm 1] using f1, ?_, by simp; omega, f4.trans e3⟩
    rw [List.drop_eq_getElem_cons hlt, e2, List.length_cons, List.take_succ_cons, List.map_cons, f2]

/-! ## Waiting for more changes nothing but the leftovers -/

theorem encBody_need {st : EncRd} {buf : Bytes} {h st' rest}
    (hr : encBody st buf = .needMore h st' rest) : st' = st := by
  rcases short_or_header buf with hs | ⟨t, v1, v2, l1, l2, body, rfl⟩
  · rw [encBody, recordBody_short _ _ st hs] at hr; cases hr; rfl
  · simp only [encBody, recordBody] at hr
    split at hr
    · cases hr
    · rename_i st1 hst
      have hst1 : st1 = st := by
        unfold encHeaderCheck at hst; split_ifs at hst; cases hst; rfl
      subst hst1
      split_ifs at hr with hl
      · cases hr; rfl
      · split at hr <;> cases hr

theorem encRead_need {st : EncRd} {buf : Bytes} {h st' rest}
    (hr : encRead st buf = .needMore h st' rest) : st' = st := by
  have hg : run encBody st buf = .needMore h st' rest := by
    unfold encRead at hr
    show getDecryptedBuf st buf = _
    cases hd : getDecryptedBuf st buf with
    | done c s r =>
      rw [hd] at hr
      simp only at hr
      split at hr <;> cases hr
    | needMore _ _ _ => rw [hd] at hr; cases hr; rfl
    | again _ _ => rw [hd] at hr; cases hr
    | fail _ => rw [hd] at hr; cases hr
  revert hg
  refine run_ind encBody_mono.consumes (P := fun st buf =>
    run encBody st buf = .needMore h st' rest → st' = st) ?_ st buf
  intro st buf ih hr
  rw [run_eq encBody_mono.consumes] at hr
  cases hb : encBody st buf with
  | needMore _ _ _ => rw [hb] at hr; cases hr; exact encBody_need hb
  | fail _ => rw [hb] at hr; simp at hr
  | done _ _ _ => rw [hb] at hr; simp at hr
  | again s2 r2 =>
    rw [hb] at hr
    have := ih _ _ hb hr
    rw [this, (encBody_again hb).1]

theorem read_need {a : Aead} {n l buf h l' rest} (hl : AtSeq a n l)
    (hr : Layer.read l buf = .needMore h l' rest) : AtSeq a n l' := by
  obtain ⟨st, rfl, ha, hn⟩ := hl.enc
  unfold Layer.read at hr
  simp only at hr
  cases he : encRead st buf with
  | needMore h2 st2 rest2 =>
    rw [he] at hr
    simp only [Iter.mapSt, Iter.needMore.injEq] at hr
    obtain ⟨rfl, rfl, rfl⟩ := hr
    rw [encRead_need he]
    exact ⟨st, rfl, ha, hn⟩
  | _ => rw [he] at hr; simp [Iter.mapSt] at hr

/-- When reading an event ends with a wait, the records read on the way were all handshake records, and
their fragments are kept. -/
theorem run_event_need (r : Reader) (buf : Bytes) : ∀ h r' rest,
    run eventBody r buf = .needMore h r' rest →
    ∃ ms l1 b1, Reads r.layer buf ms l1 b1 ∧ l1.read b1 = .needMore h r'.layer rest ∧
      (∀ x ∈ ms, x.type = ContentType.handshake) ∧
      r'.unparsed = r.unparsed ++ ms.flatMap (·.fragment) := by
  have hc := eventBody_mono.consumes
  refine run_ind hc (P := fun r buf => ∀ h r' rest, run eventBody r buf = .needMore h r' rest →
    ∃ ms l1 b1, Reads r.layer buf ms l1 b1 ∧ l1.read b1 = .needMore h r'.layer rest ∧
      (∀ x ∈ ms, x.type = ContentType.handshake) ∧
      r'.unparsed = r.unparsed ++ ms.flatMap (·.fragment)) ?_ r buf
  intro r buf ih h r' rest hr
  rw [run_eq hc] at hr
  cases hb : eventBody r buf with
  | fail _ => rw [hb] at hr; simp at hr
  | done _ _ _ => rw [hb] at hr; simp at hr
  | needMore h1 r1 rest1 =>
    rw [hb] at hr
    cases hr
    rw [eventBody_eq] at hb
    cases hg : r.layer.read buf with
    | again l rest => exact absurd hg (layerRead_ne_again _ _ _ _)
    | fail _ => rw [hg] at hb; cases hb
    | needMore h2 l2 rest2 =>
      rw [hg] at hb
      cases hb
      exact ⟨[], _, _, .nil _ _, hg, by simp, by simp⟩
    | done m l rest2 =>
      rw [hg] at hb
      simp only at hb
      rcases eventAct_cases r l m with ⟨f, hf⟩ | ⟨ev, r1, h1⟩ | ⟨r1, h1⟩ | ⟨r1, h1, h2⟩
      · rw [hf] at hb; cases hb
      · rw [h1] at hb; cases hb
      · rw [h1] at hb; cases hb
      · rw [h1] at hb; cases hb
  | again r1 rest1 =>
    rw [hb] at hr
    have hb' := hb
    rw [eventBody_eq] at hb'
    cases hg : r.layer.read buf with
    | again l rest => exact absurd hg (layerRead_ne_again _ _ _ _)
    | needMore _ _ _ => rw [hg] at hb'; cases hb'
    | fail _ => rw [hg] at hb'; cases hb'
    | done m l rest2 =>
      rw [hg] at hb'
      simp only [eventAct] at hb'
      split_ifs at hb' with c1 c2 c3 c4
      · split at hb'
        · cases hb'
        · split_ifs at hb'
      · split at hb'
        · cases hb'
        · cases hb'
          obtain ⟨ms, l1, b1, e1, e2, e3, e4⟩ := ih _ _ hb _ _ _ hr
          refine ⟨m :: ms, l1, b1, .cons hg e1, e2, ?_, ?_⟩
          · intro x hx
            rcases List.mem_cons.1 hx with rfl | hx
            · exact c3
            · exact e3 x hx
          · rw [e4]; simp
        · cases hb'

theorem readEvent_need {r : Reader} {buf : Bytes} {h r' rest} (hr : readEvent r buf = .needMore h r' rest) :
    ∃ ms l1 b1, Reads r.layer buf ms l1 b1 ∧ l1.read b1 = .needMore h r'.layer rest ∧
      (∀ x ∈ ms, x.type = ContentType.handshake) ∧
      r'.unparsed = r.unparsed ++ ms.flatMap (·.fragment) := by
  rw [readEvent_eq] at hr
  split at hr
  · cases hr
  · cases hr
  · exact run_event_need _ _ _ _ _ hr

/-! ## All events of a key -/

theorem stream_handshake {ms : List TLSMessage} (h : ∀ x ∈ ms, x.type = ContentType.handshake) :
    stream (ms.map rec) = tag 22 (ms.flatMap (·.fragment)) := by
  induction ms with
  | nil => rfl
  | cons m ms ih =>
    have h1 := h m (by simp)
    have h2 := ih fun x hx => h x (by simp [hx])
    rw [List.flatMap_cons, tag_append, ← h2]
    show tag (rec m).1 (rec m).2 ++ stream (ms.map rec) = _
    rw [rec, h1]
    rfl

/-- What is known about the events out of a key, when the records `seg` of the sender have been read on the way;
`u` was left over before them. -/
structure Got (u : Bytes) (seg : List (UInt8 × Bytes)) (es : List Event) : Prop where
  app : appData es = pick 23 (stream seg)
  hs : handshakes es <+: u ++ pick 22 (stream seg)
  final : (∃ e ∈ es, Final e) → ∃ frag, (21, frag) ∈ seg ∧ frag.length = 2
  framed : ∀ m orig, .handshake m orig ∈ es → Framed orig m

theorem alert_two {b a} (h : decodeAlert b = .ok a) : b.length = 2 := by
  unfold decodeAlert decodeAll at h
  split at h
  · cases h
  · rename_i x rest h1
    split_ifs at h with h3
    have h4 := readAlert_eq_ok.1 h1
    have : rest = [] := by simpa using h3
    subst this
    rw [h4]; simp [Codec.Spec.alert]

theorem reading_got {a : Aead} {calls rs} (hrs : Records 0 rs calls) {r es}
    (h : Reading (Genuine a calls) r es) : ∀ n, AtSeq a n r.layer → n ≤ rs.length →
    ∃ seg post, rs.drop n = seg ++ post ∧ Got r.unparsed seg es := by
  have split : ∀ {n k : Nat} {ms : List TLSMessage}, (rs.drop n).take ms.length = ms.map rec →
      k = n + ms.length → rs.drop n = ms.map rec ++ rs.drop k := by
    intro n k ms h hk
    rw [← h, hk, ← List.drop_drop, List.take_append_drop]
  induction h with
  | nil =>
    intro n _ _
    exact ⟨[], rs.drop n, rfl, rfl, by simp [handshakes], by simp, by simp⟩
  | @wait r r' buf h rest es ok hr _ ih =>
    intro n hl hn
    obtain ⟨ms, l1, b1, e1, e2, e3, e4⟩ := readEvent_need hr
    obtain ⟨f1, f2, f3, f4⟩ := reads_next hrs e1 n ok hl
    obtain ⟨seg, post, g1, g2⟩ := ih (n + ms.length) (read_need f1 e2) (by omega)
    refine ⟨ms.map rec ++ seg, post, by rw [split f2 rfl, g1, List.append_assoc], ?_⟩
    refine ⟨?_, ?_, ?_, g2.framed⟩
    · rw [stream_append, pick_append, stream_handshake e3, pick_tag, g2.app]; rfl
    · rw [stream_append, pick_append, stream_handshake e3, pick_tag, ← List.append_assoc]
      simpa [e4] using g2.hs
    · intro hf
      obtain ⟨frag, k1, k2⟩ := g2.final hf
      exact ⟨frag, by simp [k1], k2⟩
  | @event r r' buf e rest es ok hr _ ih =>
    intro n hl hn
    by_cases hh : ∃ m o, e = .handshake m o
    · obtain ⟨m, o, rfl⟩ := hh
      obtain ⟨ms, e1, e2, e3, e4, -⟩ := C10_reassembly _ _ _ _ _ _ hr
      obtain ⟨f1, f2, f3, f4⟩ := reads_next hrs e1 n ok hl
      obtain ⟨seg, post, g1, g2⟩ := ih (n + ms.length) f1 (by omega)
      refine ⟨ms.map rec ++ seg, post, by rw [split f2 rfl, g1, List.append_assoc], ?_⟩
      refine ⟨?_, ?_, ?_, ?_⟩
      · rw [stream_append, pick_append, stream_handshake e2, pick_tag]
        exact g2.app
      · rw [stream_append, pick_append, stream_handshake e2, pick_tag, if_pos rfl, ← List.append_assoc, e3,
          List.append_assoc]
        show o ++ handshakes es <+: _
        exact (List.prefix_append_right_inj _).2 g2.hs
      · rintro ⟨e, he, hf⟩
        rcases List.mem_cons.1 he with rfl | he
        · exact hf.elim
        · obtain ⟨frag, k1, k2⟩ := g2.final ⟨e, he, hf⟩
          exact ⟨frag, by simp [k1], k2⟩
      · intro m' o' he
        rcases List.mem_cons.1 he with he | he
        · cases he; exact e4
        · exact g2.framed _ _ he
    · obtain ⟨u1, u2, m, rest', e1, e2⟩ := C10_no_splice _ _ _ _ _ hr (fun m o he => hh ⟨m, o, he⟩)
      obtain ⟨f1, f2, f3⟩ := read_next hrs ok hl e1
      obtain ⟨hlt, f2'⟩ := List.getElem?_eq_some_iff.1 f2
      obtain ⟨seg, post, g1, g2⟩ := ih (n + 1) f1 (by omega)
      refine ⟨rec m :: seg, post, by rw [List.drop_eq_getElem_cons hlt, f2', g1, List.cons_append], ?_⟩
      have hs : ∀ t, pick t (stream (rec m :: seg)) = pick t (tag m.type m.fragment) ++ pick t (stream seg) :=
        fun t => pick_append _ _ _
      rw [u2] at g2
      rw [u1]
      rcases e2 with ⟨t1, rfl, -⟩ | ⟨t1, al, t2, t3⟩
      · refine ⟨?_, ?_, ?_, ?_⟩
        · rw [hs, pick_tag, t1, if_pos (by rfl), ← g2.app]; rfl
        · rw [hs, pick_tag, t1]
          exact g2.hs
        · rintro ⟨e, he, hf⟩
          rcases List.mem_cons.1 he with rfl | he
          · exact hf.elim
          · obtain ⟨frag, k1, k2⟩ := g2.final ⟨e, he, hf⟩
            exact ⟨frag, by simp [k1], k2⟩
        · intro m' o' he
          rcases List.mem_cons.1 he with he | he
          · cases he
          · exact g2.framed _ _ he
      · have hne : appData (e :: es) = appData es ∧ handshakes (e :: es) = handshakes es := by
          rcases t3 with ⟨-, rfl, -⟩ | ⟨-, rfl, -⟩ <;> exact ⟨rfl, rfl⟩
        refine ⟨?_, ?_, ?_, ?_⟩
        · rw [hs, pick_tag, t1, hne.1]
          exact g2.app
        · rw [hs, pick_tag, t1, hne.2]
          exact g2.hs
        · intro _
          refine ⟨m.fragment, ?_, alert_two t2⟩
          rw [rec, t1]
          exact List.mem_cons_self
        · intro m' o' he
          rcases List.mem_cons.1 he with he | he
          · exact absurd ⟨m', o', he.symm⟩ hh
          · exact g2.framed _ _ he

/-- All there is to know about one key: the records read are a first part of the sender's stream. -/
theorem carries_got {a : Aead} (hov : a.overhead ≤ 255) {cs es} (h : Carries a cs es) :
    ∃ seg more, itemStream cs = stream seg ++ more ∧ Got [] seg es := by
  obtain ⟨calls, h1, st, h2, h3, h4⟩ := h
  obtain ⟨rs, g1, g2⟩ := h1.records hov
  obtain ⟨seg, post, f1, f2⟩ := reading_got g1 h4 0 ⟨st, rfl, h2, by rw [h3]; rfl⟩ (by omega)
  exact ⟨seg, stream post, by rw [← g2, ← stream_append, ← f1]; rfl, f2⟩

/-- C78 (one key): on a network without forgeries, what a fresh read layer delivers as application data is a first
part of what was written under this key as application data, in the same order, and the same for
handshake messages. -/
theorem C78_key {a : Aead} (hov : a.overhead ≤ 255) {cs es} (h : Carries a cs es) :
    appData es <+: appBytes cs ∧ handshakes es <+: handshakeBytes cs := by
  obtain ⟨seg, more, h1, h2⟩ := carries_got hov h
  have key : ∀ t, pick t (stream seg) <+: pick t (itemStream cs) := by
    intro t; rw [h1]; exact pick_prefix (List.prefix_append _ _)
  constructor
  · rw [h2.app]
    refine (key 23).trans ?_
    rw [pick_items]
    exact List.prefix_rfl
  · refine h2.hs.trans ?_
    rw [List.nil_append]
    refine (key 22).trans ?_
    rw [pick_items]
    exact List.prefix_rfl

end Fizz.Channel
