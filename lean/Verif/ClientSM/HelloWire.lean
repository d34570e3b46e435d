import Verif.ClientSM.HelloFacts

/-!
# The ClientHello on the wire
-/

namespace Fizz.ClientSM
open Fizz.Codec Fizz.Crypto
open Fizz.Server (Level RLayer WLayer Content KeyExchangeType HsCtx SockIn PeerCert content
  deref derefPtr check ksState ksSecret transcriptHash finishedData
  derefPtr_eq_ok deref_eq_ok check_eq_ok pure_eq_ok ks_deriveEarly ks_getEarly finishedData_eq
  DeriveSecret_len frame_eq encode_eq)
open Fizz.Server.Spec (messageHash finishedMac)
open Fizz.Client (CachedPsk PskType)
open Fizz.Conn (Trig)
open Spec (Offer PskOffer Public Neg)

/-! ## Removing and replacing extensions -/

theorem removeExt_sub {t l} {e : Extension} (h : e ∈ removeExt t l) : e ∈ l := by
  induction l with
  | nil => exact h
  | cons a l ih =>
    rw [removeExt] at h
    split_ifs at h
    · exact .tail _ h
    · rcases List.mem_cons.1 h with rfl | h
      · exact .head _
      · exact .tail _ (ih h)

theorem removeExt_filter {t l} {p : Extension → Bool} (hp : ∀ e, p e = true → e.extension_type ≠ t) :
    (removeExt t l).filter p = l.filter p := by
  induction l with
  | nil => rfl
  | cons a l ih =>
    rw [removeExt]
    split_ifs with h
    · rw [List.filter_cons_of_neg]; intro hh; exact hp a hh h
    · rw [List.filter_cons, List.filter_cons, ih]

theorem replaceExt_filter {n l} {p : Extension → Bool} (hp : ∀ e, p e = true → e.extension_type ≠ n.extension_type) :
    (replaceExt n l).filter p = l.filter p := by
  have hn : p n = false := by
    cases h : p n with
    | false => rfl
    | true => exact absurd rfl (hp n h)
  induction l with
  | nil => simp [replaceExt, hn]
  | cons a l ih =>
    rw [replaceExt]
    split_ifs with h
    · rw [List.filter_cons_of_neg (by simp [hn]), List.filter_cons_of_neg]
      intro hh; exact hp a hh h
    · rw [List.filter_cons, List.filter_cons, ih]

/-- The number of extensions of a type. -/
def ofType (t : UInt16) (l : List Extension) : Nat := l.countP fun e => e.extension_type = t

theorem removeExt_other {t k l} (h : t ≠ k) : ofType k (removeExt t l) = ofType k l := by
  induction l with
  | nil => rfl
  | cons a l ih =>
    rw [removeExt]
    split_ifs with ha
    · simp only [ofType, List.countP_cons]
      rw [if_neg (by simp only [decide_eq_true_eq]; intro hh; exact h (ha.symm.trans hh))]; rfl
    · simp only [ofType, List.countP_cons] at ih ⊢
      rw [ih]

theorem removeExt_self {t l} : ofType t (removeExt t l) = ofType t l - 1 := by
  induction l with
  | nil => rfl
  | cons a l ih =>
    rw [removeExt]
    split_ifs with ha
    · simp [ofType, List.countP_cons, ha]
    · simp only [ofType, List.countP_cons] at ih ⊢
      rw [ih]
      simp [ha]

theorem replaceExt_mem {n l} {e : Extension} (h : e ∈ replaceExt n l) :
    e = n ∨ (e ∈ l ∧ (e.extension_type = n.extension_type → 2 ≤ ofType n.extension_type l)) := by
  induction l with
  | nil => simpa [replaceExt] using h
  | cons a l ih =>
    rw [replaceExt] at h
    split_ifs at h with ha
    · rcases List.mem_cons.1 h with rfl | h
      · exact .inl rfl
      · refine .inr ⟨.tail _ h, fun ht => ?_⟩
        have : 0 < ofType n.extension_type l := List.countP_pos_iff.2 ⟨e, h, by simpa using ht⟩
        simp only [ofType, List.countP_cons] at this ⊢
        rw [if_pos (by simpa using ha)]
        omega
    · rcases List.mem_cons.1 h with rfl | h
      · exact .inr ⟨.head _, fun ht => absurd ht ha⟩
      · rcases ih h with rfl | ⟨h1, h2⟩
        · exact .inl rfl
        · refine .inr ⟨.tail _ h1, fun ht => ?_⟩
          have := h2 ht
          simp only [ofType, List.countP_cons] at this ⊢
          omega

theorem replaceExt_split (n : Extension) (l : List Extension) :
    ∃ pre post, replaceExt n l = pre ++ n :: post ∧ ∀ e ∈ pre, e.extension_type ≠ n.extension_type := by
  induction l with
  | nil => exact ⟨[], [], rfl, by simp⟩
  | cons a l ih =>
    rw [replaceExt]
    split_ifs with ha
    · exact ⟨[], l, rfl, by simp⟩
    · obtain ⟨pre, post, h1, h2⟩ := ih
      exact ⟨a :: pre, post, by rw [h1]; rfl, by simpa using ⟨ha, h2⟩⟩

/-! ## The types of our own extensions -/

theorem opt_types {α} (f : α → Extension) (k : UInt16) (hk : ∀ a, (f a).extension_type = k) (a : Option α) :
    ((Spec.opt f a).map (·.extension_type)).Sublist [k] := by
  cases a with
  | none => simp [Spec.opt]
  | some a => simp [Spec.opt, hk]

theorem ite_types {c : Prop} [Decidable c] {e : Extension} {k : UInt16} (hk : e.extension_type = k) :
    ((if c then [] else [e]).map (·.extension_type)).Sublist [k] := by
  split_ifs <;> simp [hk]

theorem ite_types' {c : Prop} [Decidable c] {e : Extension} {k : UInt16} (hk : e.extension_type = k) :
    ((if c then [e] else []).map (·.extension_type)).Sublist [k] := by
  split_ifs <;> simp [hk]

theorem sub_app {α} {a a' : List α} (b b' : List α) (h1 : a.Sublist b) (h2 : a'.Sublist b') :
    (a ++ a').Sublist (b ++ b') := h1.append h2

/-- Our own extensions have different types. -/
theorem own_types {cfg : Cfg} {o : Offer} (t : UInt16) (h : (o.ech.map (·.extension_type)).Sublist [0xfe0d]) :
    ofType t (o.extensions cfg) ≤ ofType t o.extra + 1 := by
  have hsplit : ∃ A B, o.extensions cfg = A ++ o.extra ++ B ∧
      ((A ++ B).map (·.extension_type)).Sublist [0, 43, 10, 51, 13, 16, 45, 42, 44, 27, 0xfe0d, 41] := by
    refine ⟨_, o.ech ++ Spec.opt PskOffer.ext o.psk, by rw [Offer.extensions, ← List.append_assoc], ?_⟩
    simp only [List.map_append, List.append_assoc]
    have h1 := opt_types (fun n => Codec.Spec.serverNameListWire ⟨[{ hostname := n }]⟩) 0 (fun _ => rfl) o.sni
    have h2 := opt_types (fun n => Codec.Spec.cookieWire ⟨n⟩) 44 (fun _ => rfl) o.cookie
    have h3 := opt_types PskOffer.ext 41 (fun _ => rfl) o.psk
    refine sub_app [0] [43, 10, 51, 13, 16, 45, 42, 44, 27, 0xfe0d, 41] h1 ?_
    refine sub_app [43, 10, 51, 13] [16, 45, 42, 44, 27, 0xfe0d, 41]
      (List.Sublist.refl _) ?_
    refine sub_app [16] [45, 42, 44, 27, 0xfe0d, 41] (ite_types rfl) ?_
    refine sub_app [45] [42, 44, 27, 0xfe0d, 41] (ite_types rfl) ?_
    refine sub_app [42] [44, 27, 0xfe0d, 41] (ite_types' rfl) ?_
    refine sub_app [44] [27, 0xfe0d, 41] h2 ?_
    refine sub_app [27] [0xfe0d, 41] (ite_types rfl) ?_
    exact sub_app [0xfe0d] [41] h h3
  obtain ⟨A, B, he, hs⟩ := hsplit
  have hc : ofType t (A ++ B) ≤ 1 := by
    have := hs.countP_le (p := fun x => decide (x = t))
    rw [List.countP_map] at this
    refine Nat.le_trans this ?_
    have hn : ([0, 43, 10, 51, 13, 16, 45, 42, 44, 27, 0xfe0d, 41] : List UInt16).Nodup := by decide
    have := List.nodup_iff_count.1 hn t
    rw [List.count_eq_countP] at this
    refine Nat.le_trans (Nat.le_of_eq ?_) this
    congr 1
  unfold ofType at hc ⊢
  rw [he]
  simp only [List.countP_append] at hc ⊢
  omega

/-! ## The outer ClientHello -/

theorem outer_facts {cfg : Cfg} {inp : Inp} {first : Bool} {o : Offer} {random : Random} {name : Bytes}
    {grease : Option ClientPresharedKey} {outer : ClientHello}
    (hech : (o.ech.map (·.extension_type)).Sublist [0xfe0d])
    (h : encryptHello inp first (o.hello cfg) random name grease = .ok outer) :
    Spec.Outer cfg inp first o ⟨random, name⟩ outer := by
  unfold encryptHello at h
  simp only [Res.bind_eq_ok] at h
  obtain ⟨sni, h1, ech, h2, g, h3, h⟩ := h
  rw [← pure_eq_ok.1 h]
  unfold echExt at h2
  rw [Res.bind_eq_ok] at h2
  obtain ⟨body, h21, h2⟩ := h2
  have hw := ((C03_serverNameList _).1 _ |>.1 h1).2
  have hg : g = Spec.opt Codec.Spec.clientPresharedKeyWire grease := by
    cases grease with
    | none => exact (Except.ok.inj h3).symm
    | some k =>
      unfold greaseExt at h3
      simp only at h3
      rcases optExt_eq h3 with ⟨-, e, h4, h5⟩ | ⟨h4, -⟩
      · rw [h5, ((C03_clientPresharedKey _).1 _ |>.1 h4).2]; rfl
      · cases h4
  subst hg
  have ht0 : sni.extension_type = 0 := by rw [hw]; rfl
  refine ⟨rfl, rfl, rfl, rfl, rfl, _, body, grease, h21, ?_, ?_, ?_, ?_⟩
  · rw [← pure_eq_ok.1 h2]
  · rw [replaceExt_filter]
    · split_ifs with hf
      · subst hf
        rw [removeExt_filter, removeExt_filter, removeExt_filter]
        · rfl
        all_goals (intro e he; simp only [Spec.common, decide_eq_true_eq] at he; simp [he])
      · rw [removeExt_filter, removeExt_filter]
        · rfl
        all_goals (intro e he; simp only [Spec.common, decide_eq_true_eq] at he; simp [he])
    · intro e he; simp only [Spec.common, decide_eq_true_eq] at he; rw [ht0]; exact he.1
  · obtain ⟨pre, post, he, hp⟩ := replaceExt_split sni
      (if first = true then removeExt 42 (removeExt 41 (removeExt 0xfe0d (o.hello cfg).extensions))
        else removeExt 41 (removeExt 0xfe0d (o.hello cfg).extensions))
    refine ((C03_serverNameList _).2.1 _).2 ⟨sni, pre, post, h1, he, ?_⟩
    rw [ht0] at hp; exact hp
  · intro e he hcm
    rcases replaceExt_mem he with rfl | ⟨hm, h2⟩
    · exact .inl hw
    · refine .inr ?_
      rw [ht0] at h2
      have key : 2 ≤ ofType e.extension_type (o.extensions cfg) := by
        simp only [Spec.common, decide_eq_false_iff_not] at hcm
        have hpos : 0 < ofType e.extension_type _ := List.countP_pos_iff.2 ⟨e, hm, by simp⟩
        by_cases h0 : e.extension_type = 0
        · have := h2 h0
          rw [h0]
          split_ifs at this
          · rw [removeExt_other (by decide), removeExt_other (by decide), removeExt_other (by decide)] at this
            exact this
          · rw [removeExt_other (by decide), removeExt_other (by decide)] at this
            exact this
        by_cases h41 : e.extension_type = 41
        · rw [h41] at hpos ⊢
          split_ifs at hpos
          · rw [removeExt_other (by decide), removeExt_self, removeExt_other (by decide)] at hpos
            change 0 < ofType 41 (o.extensions cfg) - 1 at hpos
            omega
          · rw [removeExt_self, removeExt_other (by decide)] at hpos
            change 0 < ofType 41 (o.extensions cfg) - 1 at hpos
            omega
        by_cases hfe : e.extension_type = 0xfe0d
        · rw [hfe] at hpos ⊢
          split_ifs at hpos
          · rw [removeExt_other (by decide), removeExt_other (by decide), removeExt_self] at hpos
            change 0 < ofType 0xfe0d (o.extensions cfg) - 1 at hpos
            omega
          · rw [removeExt_other (by decide), removeExt_self] at hpos
            change 0 < ofType 0xfe0d (o.extensions cfg) - 1 at hpos
            omega
        by_cases hf : first = true ∧ e.extension_type = 42
        · rw [hf.2, if_pos hf.1] at hpos
          rw [hf.2]
          rw [removeExt_self, removeExt_other (by decide), removeExt_other (by decide)] at hpos
          change 0 < ofType 42 (o.extensions cfg) - 1 at hpos
          omega
        · exact absurd ⟨h0, h41, hfe, fun a b => hf ⟨a, b⟩⟩ hcm
      have := own_types (cfg := cfg) e.extension_type hech
      have : 0 < ofType e.extension_type o.extra := by omega
      obtain ⟨x, hx, hxt⟩ := List.countP_pos_iff.1 this
      exact ⟨x, hx, by simpa using hxt⟩

end Fizz.ClientSM
