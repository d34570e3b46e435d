import Verif.Crypto.Hkdf
import Verif.Crypto.Spec
import Verif.Codec.Props

/-!
# C23, C43: HMAC and HKDF equal their RFCs
-/

namespace Fizz.Crypto
open Fizz.Codec

/-- What is assumed of a hash algorithm: digests have the declared length, which is positive and at
most the block size; the block size is at most 128; the stored blank hash is the digest of the
empty string.  True of SHA-256/384/512 (`fizz/crypto/Crypto.h:84-107`). -/
structure HashAlg.Ok (h : HashAlg) : Prop where
  len : ∀ m, (h.digest m).length = h.hashLen
  pos : 0 < h.hashLen
  le : h.hashLen ≤ h.blockSize
  max : h.blockSize ≤ 128
  blank : h.blankHash = h.digest []

/-- The algorithm as the specification sees it. -/
def HashAlg.spec (h : HashAlg) : Spec.Hash := ⟨h.hashLen, h.blockSize, h.digest⟩

/-! ## Helpers -/

theorem overwrite_zero (buf data : Bytes) : overwrite buf 0 data = data ++ buf.drop data.length := by
  simp [overwrite]

theorem overwrite_length {buf data : Bytes} {off : Nat} (h : off + data.length ≤ buf.length) :
    (overwrite buf off data).length = buf.length := by
  simp [overwrite]; omega

theorem overwrite_full {buf data : Bytes} (h : buf.length = data.length) :
    overwrite buf 0 data = data := by
  rw [overwrite_zero, ← h, List.drop_length, List.append_nil]

theorem xorPad_eq (pad : UInt8) (B : Nat) (k : Bytes) (h : k.length = B) :
    xorPad pad B k = Spec.xorAll pad k := by
  subst h
  unfold xorPad Spec.xorAll
  induction k with
  | nil => rfl
  | cons a k ih => simp [List.replicate_succ, ih]

theorem finalKey_eq {h : HashAlg} (ok : h.Ok) (key : Bytes) :
    (if key.length > h.blockSize then overwrite (List.replicate h.blockSize 0) 0 (h.digest key)
      else overwrite (List.replicate h.blockSize 0) 0 key) = Spec.padKey h.spec key := by
  have := ok.le
  unfold Spec.padKey HashAlg.spec
  simp only
  split
  · rw [overwrite_zero, List.drop_replicate]
  · rw [overwrite_zero, List.drop_replicate]

theorem padKey_length {h : HashAlg} (ok : h.Ok) (key : Bytes) :
    (Spec.padKey h.spec key).length = h.blockSize := by
  have := ok.le
  have := ok.len key
  unfold Spec.padKey HashAlg.spec
  simp only
  split <;> simp <;> omega

theorem hmac_eq {h : HashAlg} (ok : h.Ok) (key : Bytes) (inp : List Bytes) (out : Bytes)
    (ho : h.hashLen ≤ out.length) :
    hmac h key inp out = .ok (Spec.HMAC h.spec key inp.flatten ++ out.drop h.hashLen) := by
  have h1 := ok.pos
  have h2 := ok.le
  have h3 := ok.max
  unfold hmac
  simp only
  rw [if_neg (by omega), if_neg (by omega), if_neg (by simp only [kHashMaxBlockSize]; omega)]
  rw [finalKey_eq ok, xorPad_eq _ _ _ (padKey_length ok key), xorPad_eq _ _ _ (padKey_length ok key)]
  rw [overwrite_zero, ok.len, List.take_of_length_le (by rw [ok.len]; exact Nat.le_refl _)]
  rfl

theorem hmac_eq' {h : HashAlg} (ok : h.Ok) (key : Bytes) (inp : List Bytes) :
    hmac h key inp (List.replicate h.hashLen 0) = .ok (Spec.HMAC h.spec key inp.flatten) := by
  rw [hmac_eq ok _ _ _ (by simp)]; simp

theorem HMAC_length {h : HashAlg} (ok : h.Ok) (k t : Bytes) :
    (Spec.HMAC h.spec k t).length = h.hashLen := ok.len _

/-- C43: `hmac` writes exactly the RFC 2104 HMAC of the whole chain at the start of the output
memory and leaves the rest of it alone, for every key length (shorter, equal or longer than a
block), every text and every fragmentation of it. -/
theorem C43_hmac (h : HashAlg) (ok : h.Ok) (key : Bytes) (inp : List Bytes) (out : Bytes)
    (ho : h.hashLen ≤ out.length) :
    hmac h key inp out = .ok (Spec.HMAC h.spec key inp.flatten ++ out.drop h.hashLen) :=
  hmac_eq ok key inp out ho

/-- C43: an output memory shorter than a digest stops the process instead of being overrun. -/
theorem C43_short_output (h : HashAlg) (key : Bytes) (inp : List Bytes) (out : Bytes)
    (ho : out.length < h.hashLen) : hmac h key inp out = .error .abort := by
  unfold hmac; simp only; rw [if_pos ho]

theorem extract_eq {h : HashAlg} (ok : h.Ok) (salt ikm : Bytes) :
    extract h salt ikm = .ok (Spec.Extract h.spec salt ikm) := by
  unfold extract Spec.Extract
  simp only
  rw [hmac_eq' ok]
  cases salt <;> simp [HashAlg.spec]

theorem T_length {h : HashAlg} (ok : h.Ok) (prk info : Bytes) (i : Nat) :
    (Spec.T h.spec prk info (i + 1)).length = h.hashLen := HMAC_length ok _ _

theorem Tcat_length {h : HashAlg} (ok : h.Ok) (prk info : Bytes) (n : Nat) :
    (Spec.Tcat h.spec prk info n).length = n * h.hashLen := by
  induction n with
  | zero => simp [Spec.Tcat]
  | succ n ih => simp [Spec.Tcat, ih, T_length ok, Nat.succ_mul]

theorem expandLoop_eq {h : HashAlg} (ok : h.Ok) (prk info : Bytes) :
    ∀ (n k : Nat) (pre : Bytes) (c : UInt8), pre.length = h.hashLen →
      expandLoop h prk info.length n (k + 2) (pre ++ info ++ [c]) (Spec.Tcat h.spec prk info (k + 1)) =
        .ok (Spec.Tcat h.spec prk info (k + 1 + n)) := by
  intro n
  induction n with
  | zero => intros; rfl
  | succ n ih =>
    intro k pre c hp
    have e1 : ((Spec.Tcat h.spec prk info (k + 1)).drop (k * h.hashLen)).take h.hashLen =
        Spec.T h.spec prk info (k + 1) := by
      rw [Spec.Tcat, List.drop_append, Tcat_length ok, List.drop_of_length_le (by rw [Tcat_length ok]; exact Nat.le_refl _)]
      simp
      exact List.take_of_length_le (by rw [T_length ok]; exact Nat.le_refl _)
    have e2 : overwrite (pre ++ info ++ [c]) 0 (Spec.T h.spec prk info (k + 1)) =
        Spec.T h.spec prk info (k + 1) ++ info ++ [c] := by
      rw [overwrite_zero, T_length ok, ← hp]; simp
    have e3 : ∀ (d : UInt8), overwrite (Spec.T h.spec prk info (k + 1) ++ info ++ [c]) (h.hashLen + info.length) [d] =
        Spec.T h.spec prk info (k + 1) ++ info ++ [d] := by
      intro d
      have hl : (Spec.T h.spec prk info (k + 1) ++ info).length = h.hashLen + info.length := by
        simp [T_length ok]
      rw [← hl, overwrite, List.take_left, List.drop_of_length_le (by simp; omega), List.append_nil]
    rw [expandLoop]
    simp only [Nat.add_sub_cancel]
    rw [e1, e2, e3, hmac_eq' ok]
    simp only [List.flatten_cons, List.flatten_nil, List.append_nil, Res.ok_bind]
    have := ih (k + 1) (Spec.T h.spec prk info (k + 1)) (UInt8.ofNat (k + 2)) (T_length ok ..)
    rw [Spec.Tcat] at this
    rw [show k + 2 + 1 = k + 1 + 2 from rfl, show k + 1 + (n + 1) = k + 1 + 1 + n by omega]
    exact this

theorem expand_eq {h : HashAlg} (ok : h.Ok) (prk info : Bytes) (len : Nat)
    (hk : prk.length = h.hashLen) (hl : len ≤ 255 * h.hashLen) :
    expand h prk info len = .ok (Spec.Expand h.spec prk info len) := by
  have hpos := ok.pos
  unfold expand
  simp only
  rw [if_neg (by simpa using hk), if_neg (by omega)]
  by_cases h0 : len = 0
  · subst h0; simp [Spec.Expand]
  rw [if_neg h0]
  have e1 : overwrite (List.replicate (h.hashLen + info.length + 1) 0) h.hashLen info =
      List.replicate h.hashLen 0 ++ info ++ [0] := by
    simp only [overwrite, List.take_replicate, List.drop_replicate]
    rw [show min h.hashLen (h.hashLen + info.length + 1) = h.hashLen by omega,
      show h.hashLen + info.length + 1 - (h.hashLen + info.length) = 1 by omega]
    rfl
  have e2 : overwrite (List.replicate h.hashLen 0 ++ info ++ [0]) (h.hashLen + info.length) [1] =
      List.replicate h.hashLen 0 ++ info ++ [1] := by
    have hlen : (List.replicate h.hashLen (0 : UInt8) ++ info).length = h.hashLen + info.length := by simp
    rw [← hlen, overwrite, List.take_left, List.drop_of_length_le (by simp; omega), List.append_nil]
  have e3 : ((List.replicate h.hashLen (0 : UInt8) ++ info ++ [1]).drop h.hashLen).take (info.length + 1) =
      info ++ [1] := by
    rw [List.append_assoc, List.drop_append]
    simp [List.drop_of_length_le]
    exact List.take_of_length_le (by simp)
  rw [e1, e2, e3, hmac_eq' ok]
  simp only [List.flatten_cons, List.flatten_nil, List.append_nil, Res.ok_bind]
  have e4 := expandLoop_eq ok prk info ((len + h.hashLen - 1) / h.hashLen - 1) 0
    (List.replicate h.hashLen 0) 1 (by simp)
  have e5 : Spec.HMAC h.spec prk (info ++ [1]) = Spec.Tcat h.spec prk info (0 + 1) := by
    simp [Spec.Tcat, Spec.T]
  rw [e5, show (2 : Nat) = 0 + 2 from rfl, e4]
  have hr : 0 + 1 + ((len + h.hashLen - 1) / h.hashLen - 1) = (len + h.hashLen - 1) / h.hashLen := by
    have : 1 ≤ (len + h.hashLen - 1) / h.hashLen := by
      rw [Nat.le_div_iff_mul_le hpos]; omega
    omega
  rw [hr]
  simp only [Res.ok_bind, Res.pure_eq, Except.ok.injEq]
  rw [Tcat_length ok]
  have hge : len ≤ (len + h.hashLen - 1) / h.hashLen * h.hashLen := by
    have h1 := Nat.div_add_mod (len + h.hashLen - 1) h.hashLen
    have h2 := Nat.mod_lt (len + h.hashLen - 1) hpos
    rw [Nat.mul_comm] at h1
    omega
  unfold Spec.Expand
  congr 1
  show _ = len
  omega

theorem Expand_length {h : HashAlg} (ok : h.Ok) (prk info : Bytes) (len : Nat) :
    (Spec.Expand h.spec prk info len).length = len := by
  have hpos := ok.pos
  unfold Spec.Expand
  rw [List.length_take, Tcat_length ok]
  show min len ((len + h.hashLen - 1) / h.hashLen * h.hashLen) = len
  have h1 := Nat.div_add_mod (len + h.hashLen - 1) h.hashLen
  have h2 := Nat.mod_lt (len + h.hashLen - 1) hpos
  rw [Nat.mul_comm] at h1
  omega

/-! ## C23 -/

/-- C23: `Hkdf::expand` is RFC 5869 HKDF-Expand for every output length up to 255 hash lengths. -/
theorem C23_expand (h : HashAlg) (ok : h.Ok) (prk info : Bytes) (len : Nat)
    (hk : prk.length = h.hashLen) (hl : len ≤ 255 * h.hashLen) :
    expand h prk info len = .ok (Spec.Expand h.spec prk info len) ∧
      (Spec.Expand h.spec prk info len).length = len :=
  ⟨expand_eq ok prk info len hk hl, Expand_length ok prk info len⟩

/-- C23: a longer output is refused, and a pseudorandom key of the wrong size stops the process. -/
theorem C23_refuses (h : HashAlg) (prk info : Bytes) (len : Nat) :
    (prk.length = h.hashLen → 255 * h.hashLen < len →
      expand h prk info len = .error (Failure.rt "Output too long")) ∧
    (prk.length ≠ h.hashLen → expand h prk info len = .error .abort) := by
  unfold expand
  simp only
  constructor
  · intro h1 h2; rw [if_neg (by simpa using h1), if_pos (by omega)]
  · intro h1; rw [if_pos h1]

/-- C23: shorter outputs are prefixes of longer ones. -/
theorem C23_prefix (h : HashAlg) (ok : h.Ok) (prk info : Bytes) (a b : Nat) (hab : a ≤ b)
    (x y : Bytes) (hx : expand h prk info a = .ok x) (hy : expand h prk info b = .ok y) :
    x = y.take a := by
  have hpos := ok.pos
  have hk : prk.length = h.hashLen := by
    apply Classical.byContradiction; intro hn
    rw [(C23_refuses h prk info a).2 hn] at hx; cases hx
  have hb : b ≤ 255 * h.hashLen := by
    apply Classical.byContradiction; intro hn
    rw [(C23_refuses h prk info b).1 hk (by omega)] at hy; cases hy
  rw [expand_eq ok _ _ _ hk (by omega)] at hx
  rw [expand_eq ok _ _ _ hk hb] at hy
  cases hx; cases hy
  have mono : ∀ d n, ∃ r, Spec.Tcat h.spec prk info (n + d) = Spec.Tcat h.spec prk info n ++ r := by
    intro d
    induction d with
    | zero => exact fun n => ⟨[], by simp⟩
    | succ d ih =>
      intro n
      obtain ⟨r, hr⟩ := ih n
      refine ⟨r ++ Spec.T h.spec prk info (n + d + 1), ?_⟩
      rw [← Nat.add_assoc, Spec.Tcat, hr, List.append_assoc]
  unfold Spec.Expand
  show (Spec.Tcat h.spec prk info ((a + h.hashLen - 1) / h.hashLen)).take a =
    ((Spec.Tcat h.spec prk info ((b + h.hashLen - 1) / h.hashLen)).take b).take a
  rw [List.take_take, Nat.min_eq_left hab]
  have hm : (a + h.hashLen - 1) / h.hashLen ≤ (b + h.hashLen - 1) / h.hashLen :=
    Nat.div_le_div_right (by omega)
  obtain ⟨r, hr⟩ := mono ((b + h.hashLen - 1) / h.hashLen - (a + h.hashLen - 1) / h.hashLen)
    ((a + h.hashLen - 1) / h.hashLen)
  rw [Nat.add_sub_cancel' hm] at hr
  rw [hr, List.take_append_of_le_length]
  rw [Tcat_length ok]
  have h1 := Nat.div_add_mod (a + h.hashLen - 1) h.hashLen
  have h2 := Nat.mod_lt (a + h.hashLen - 1) hpos
  rw [Nat.mul_comm] at h1
  omega

/-- C23: `Hkdf::extract` is RFC 5869 HKDF-Extract, and `hkdf` is one after the other. -/
theorem C23_extract (h : HashAlg) (ok : h.Ok) (salt ikm info : Bytes) (len : Nat)
    (hl : len ≤ 255 * h.hashLen) :
    extract h salt ikm = .ok (Spec.Extract h.spec salt ikm) ∧
    hkdf h ikm salt info len = .ok (Spec.Expand h.spec (Spec.Extract h.spec salt ikm) info len) := by
  refine ⟨extract_eq ok salt ikm, ?_⟩
  unfold hkdf
  rw [extract_eq ok]
  simp only [Res.ok_bind]
  exact expand_eq ok _ _ _ (HMAC_length ok _ _) hl

theorem expandLabel_eq {h : HashAlg} (ok : h.Ok) (secret label ctx : Bytes) (len : UInt16)
    (hk : secret.length = h.hashLen) (hl : len.toNat ≤ 255 * h.hashLen)
    (h1 : label.length ≤ 249) (h2 : ctx.length ≤ 255) :
    expandLabel h secret label ctx len = .ok (Spec.ExpandLabel h.spec secret label ctx len) := by
  obtain ⟨bs, hb⟩ := (C22_refuses len label ctx kHkdfLabelPrefix).2
    ⟨by simp [kHkdfLabelPrefix]; omega, h2⟩
  unfold expandLabel
  rw [hb]
  simp only [Res.ok_bind]
  rw [expand_eq ok _ _ _ hk hl, C22_layout _ _ _ _ _ hb]
  rfl

/-- C23: `expandLabel` is RFC 8446 HKDF-Expand-Label. -/
theorem C23_expandLabel (h : HashAlg) (ok : h.Ok) (secret label ctx : Bytes) (len : UInt16)
    (hk : secret.length = h.hashLen) (hl : len.toNat ≤ 255 * h.hashLen)
    (h1 : label.length ≤ 249) (h2 : ctx.length ≤ 255) :
    expandLabel h secret label ctx len = .ok (Spec.ExpandLabel h.spec secret label ctx len) :=
  expandLabel_eq ok secret label ctx len hk hl h1 h2

theorem deriveSecret_eq {h : HashAlg} (ok : h.Ok) (secret label th : Bytes) (len : UInt16)
    (hk : secret.length = h.hashLen) (ht : th.length = h.hashLen) (hp : 0 < len.toNat)
    (hl : len.toNat ≤ 255 * h.hashLen) (h1 : label.length ≤ 249) :
    deriveSecret h secret label th len = .ok (Spec.ExpandLabel h.spec secret label th len) := by
  unfold deriveSecret
  have := ok.le
  have := ok.max
  rw [if_neg (by simpa using hk), if_neg (by simpa using ht), if_neg (by omega),
    expandLabel_eq ok _ _ _ _ hk hl h1 (by omega)]
  simp only [Res.ok_bind, Res.pure_eq, Except.ok.injEq]
  have hlen : (Spec.ExpandLabel h.spec secret label th len).length = len.toNat := Expand_length ok ..
  rw [List.take_of_length_le (by omega), overwrite_full (by simp [hlen])]

/-! ## A concrete hash (a toy checksum) meeting the assumptions, and a run of the loop over three
blocks. -/

/-- Two-byte checksum with four-byte blocks, only to run the model. -/
def toyHash : HashAlg where
  hashLen := 2
  blockSize := 4
  blankHash := [7, 0]
  digest := fun m => [m.foldl (fun a b => a * 3 + b) 7, UInt8.ofNat m.length]

theorem toyHash_ok : toyHash.Ok := by
  constructor <;> first | decide | (intro m; rfl)

example : expand toyHash [1, 2] [9] 5 = .ok (Spec.Expand toyHash.spec [1, 2] [9] 5) ∧
    (Spec.Expand toyHash.spec [1, 2] [9] 5).length = 5 ∧
    Spec.Expand toyHash.spec [1, 2] [9] 5 ≠ Spec.Expand toyHash.spec [1, 2] [8] 5 := by decide
example : hmac toyHash [1, 2, 3, 4, 5] [[6], [], [7]] [0, 0, 42] =
    .ok (Spec.HMAC toyHash.spec [1, 2, 3, 4, 5] [6, 7] ++ [42]) := by decide

end Fizz.Crypto
