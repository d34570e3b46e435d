import Verif.Agree.Spec
import Verif.Server.HelloFacts

/-! # Equal verify_data means equal keys and equal transcripts, unless the hash collides -/

namespace Fizz.Agree
open Fizz Fizz.Crypto Fizz.Crypto.Spec Fizz.KS.Spec Fizz.Agree.Spec

variable {h : HashAlg} (ok : h.Ok)

theorem NoClash.mono {h : Hash} {P Q P' Q' : List Bytes} (hn : NoClash h P Q) (hp : ∀ a ∈ P', a ∈ P)
    (hq : ∀ a ∈ Q', a ∈ Q) : NoClash h P' Q' := fun a ha b hb => hn a (hp a ha) b (hq b hb)

theorem xorAll_inj (p : UInt8) : ∀ {a b : Bytes}, xorAll p a = xorAll p b → a = b
  | [], [], _ => rfl
  | [], _ :: _, h => by simp [xorAll] at h
  | _ :: _, [], h => by simp [xorAll] at h
  | a :: as, b :: bs, h => by
    simp only [xorAll, List.map_cons, List.cons.injEq] at h
    have h1 : a = b := by
      have := congrArg (p ^^^ ·) h.1
      simpa [← UInt8.xor_assoc] using this
    rw [h1, xorAll_inj p (a := as) (b := bs) h.2]

include ok

theorem padKey_of_len {k : Bytes} (hk : k.length = h.hashLen) :
    padKey h.spec k = k ++ List.replicate (h.blockSize - h.hashLen) 0 := by
  have := ok.le
  unfold padKey HashAlg.spec
  simp only
  rw [if_neg (by omega), hk]

theorem hmac_inj {k k' t t' : Bytes} (hk : k.length = h.hashLen) (hk' : k'.length = h.hashLen)
    (hn : NoClash h.spec (hmacQueries h.spec k t) (hmacQueries h.spec k' t'))
    (he : HMAC h.spec k t = HMAC h.spec k' t') : k = k' ∧ t = t' := by
  have e1 := hn _ (by simp [hmacQueries]) _ (by simp [hmacQueries]) he
  have hl : ∀ p k, (xorAll p (padKey h.spec k)).length = h.blockSize := fun p k => by
    rw [xorAll, List.length_map, padKey_length ok]
  obtain ⟨e2, e3⟩ := List.append_inj e1 (by rw [hl, hl])
  have e4 := hn _ (by simp [hmacQueries]) _ (by simp [hmacQueries]) e3
  obtain ⟨-, e5⟩ := List.append_inj e4 (by rw [hl, hl])
  have e6 := xorAll_inj _ e2
  rw [padKey_of_len ok hk, padKey_of_len ok hk'] at e6
  exact ⟨(List.append_inj e6 (by rw [hk, hk'])).1, e5⟩

theorem derive_eq (s : Bytes) (l : String) (ctx : Bytes) :
    DeriveSecret h.spec s l ctx = HMAC h.spec s
      (Codec.Spec.hkdfLabel (UInt16.ofNat h.spec.L) (ascii l) ctx [116, 108, 115, 49, 51, 32] ++ [1]) := by
  have h1 := ok.pos
  have h2 := ok.le
  have h3 := ok.max
  unfold DeriveSecret ExpandLabel Expand
  have e : (UInt16.ofNat h.spec.L).toNat = h.hashLen := by
    show (UInt16.ofNat h.hashLen).toNat = h.hashLen
    rw [UInt16.toNat_ofNat_of_lt']
    show h.hashLen < 65536
    omega
  have e' : (h.hashLen + h.spec.L - 1) / h.spec.L = 1 := by
    show (h.hashLen + h.hashLen - 1) / h.hashLen = 1
    rw [show h.hashLen + h.hashLen - 1 = (h.hashLen - 1) + h.hashLen by omega,
      Nat.add_div_right _ h1, Nat.div_eq_of_lt (by omega)]
  rw [e, e', Tcat, Tcat, List.nil_append, List.take_of_length_le (by rw [T_length ok]; exact Nat.le_refl _)]
  rfl

theorem derive_inj {s s' : Bytes} {l : String} {c c' : Bytes} (hs : s.length = h.hashLen)
    (hs' : s'.length = h.hashLen) (hc : c.length = c'.length)
    (hn : NoClash h.spec (labelQueries h.spec s l c) (labelQueries h.spec s' l c'))
    (he : DeriveSecret h.spec s l c = DeriveSecret h.spec s' l c') : s = s' ∧ c = c' := by
  rw [derive_eq ok, derive_eq ok] at he
  obtain ⟨e1, e2⟩ := hmac_inj ok hs hs' hn he
  refine ⟨e1, ?_⟩
  have e3 := (List.append_inj' e2 rfl).1
  unfold Codec.Spec.hkdfLabel at e3
  have e4 := (List.append_inj e3 rfl).2
  unfold Codec.vec at e4
  exact (List.append_inj e4 (by rw [hc])).2

theorem extract_eq' {s ikm : Bytes} (hs : s.length = h.hashLen) : Extract h.spec s ikm = HMAC h.spec s ikm := by
  unfold Extract
  rw [if_neg]
  rintro rfl
  have := ok.pos
  simp at hs
  omega

theorem zero_len : (zero h.spec).length = h.hashLen := by simp [zero, HashAlg.spec]

theorem early_len (psk : Option Bytes) : (early h.spec psk).length = h.hashLen := by
  unfold early
  rw [extract_eq' ok (zero_len ok)]
  exact ok.len _

theorem handshake_eq (i : Inputs) : KS.Spec.handshake h.spec i =
    HMAC h.spec (DeriveSecret h.spec (early h.spec i.psk) "derived" (h.spec.H [])) (i.ecdhe.getD (zero h.spec)) := by
  unfold KS.Spec.handshake
  rw [extract_eq' ok (Server.DeriveSecret_len ok _ _ _)]

theorem handshake_len (i : Inputs) : (KS.Spec.handshake h.spec i).length = h.hashLen := by
  rw [handshake_eq ok]
  exact ok.len _

/-- The core of C58. -/
theorem finished_inj {i j : Inputs} {l : String} {hello hello' msgs msgs' : Bytes}
    (hn : NoClash h.spec (finishedQueries h.spec i l hello msgs) (finishedQueries h.spec j l hello' msgs'))
    (he : Server.Spec.finishedMac h.spec (DeriveSecret h.spec (KS.Spec.handshake h.spec i) l (h.digest hello))
        (h.digest msgs) =
      Server.Spec.finishedMac h.spec (DeriveSecret h.spec (KS.Spec.handshake h.spec j) l (h.digest hello'))
        (h.digest msgs')) :
    SameInputs h.spec i j ∧ hello = hello' ∧ msgs = msgs' := by
  have hd : ∀ s l c, (DeriveSecret h.spec s l c).length = h.hashLen := fun s l c =>
    Server.DeriveSecret_len ok s l c
  have sub : ∀ {P' Q' : List Bytes}, (∀ a ∈ P', a ∈ finishedQueries h.spec i l hello msgs) →
      (∀ a ∈ Q', a ∈ finishedQueries h.spec j l hello' msgs') → NoClash h.spec P' Q' :=
    fun hp hq => NoClash.mono hn hp hq
  obtain ⟨e1, e2⟩ := hmac_inj ok (hd _ "finished" []) (hd _ "finished" [])
    (sub (by intro a ha; simp only [finishedQueries, List.mem_append]; exact .inr ha)
      (by intro a ha; simp only [finishedQueries, List.mem_append]; exact .inr ha)) he
  have e3 := hn msgs (by simp [finishedQueries]) msgs' (by simp [finishedQueries]) e2
  obtain ⟨e4, -⟩ := derive_inj ok (hd _ _ _) (hd _ _ _) rfl
    (sub (by intro a ha; simp only [finishedQueries, List.mem_append]; exact .inl (.inr ha))
      (by intro a ha; simp only [finishedQueries, List.mem_append]; exact .inl (.inr ha))) e1
  obtain ⟨e5, e6⟩ := derive_inj ok (handshake_len ok _) (handshake_len ok _) (by rw [ok.len, ok.len])
    (sub (by intro a ha; simp only [finishedQueries, List.mem_append]; exact .inl (.inl (.inr ha)))
      (by intro a ha; simp only [finishedQueries, List.mem_append]; exact .inl (.inl (.inr ha)))) e4
  have e7 := hn hello (by simp [finishedQueries]) hello' (by simp [finishedQueries]) e6
  rw [handshake_eq ok, handshake_eq ok] at e5
  obtain ⟨e8, e9⟩ := hmac_inj ok (hd _ _ _) (hd _ _ _)
    (sub (by intro a ha; simp only [finishedQueries, List.mem_append]; exact .inl (.inl (.inl (.inr ha))))
      (by intro a ha; simp only [finishedQueries, List.mem_append]; exact .inl (.inl (.inl (.inr ha))))) e5
  obtain ⟨e10, -⟩ := derive_inj ok (early_len ok _) (early_len ok _) rfl
    (sub (by intro a ha; simp only [finishedQueries, List.mem_append]; exact .inl (.inl (.inl (.inl (.inr ha)))))
      (by intro a ha; simp only [finishedQueries, List.mem_append]; exact .inl (.inl (.inl (.inl (.inr ha)))))) e8
  unfold early at e10
  rw [extract_eq' ok (zero_len ok), extract_eq' ok (zero_len ok)] at e10
  obtain ⟨-, e11⟩ := hmac_inj ok (zero_len ok) (zero_len ok)
    (sub (by intro a ha; simp only [finishedQueries, List.mem_append]; exact .inl (.inl (.inl (.inl (.inl (.inr ha))))))
      (by intro a ha; simp only [finishedQueries, List.mem_append]; exact .inl (.inl (.inl (.inl (.inl (.inr ha))))))) e10
  exact ⟨⟨e11, e9⟩, e7, e3⟩

omit ok in
/-- Connections with the same inputs have the same secrets. -/
theorem SameInputs.eq {H : Hash} {i j : Inputs} (hs : SameInputs H i j) :
    KS.Spec.handshake H i = KS.Spec.handshake H j ∧ KS.Spec.master H i = KS.Spec.master H j := by
  have e : KS.Spec.handshake H i = KS.Spec.handshake H j := by
    unfold KS.Spec.handshake early
    rw [hs.1, hs.2]
  exact ⟨e, by unfold KS.Spec.master; rw [e]⟩

end Fizz.Agree
