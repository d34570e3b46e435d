import Verif.Aead.Props

/-!
# A machine meeting the hypotheses of C37

A toy AEAD (every byte xored with 0x5a; the tag is the length of everything, repeated) computed
incrementally in blocks of any size, and runs of the model over awkward chains.
-/

namespace Fizz.Aead.Example

/-- Nonce, associated data, input so far, expected tag. -/
abbrev S := Bytes × Bytes × Bytes × Bytes

def flip (p : Bytes) : Bytes := p.map (· ^^^ 0x5a)

/-- Number of bytes put out after `n` bytes of input. -/
def out (bs n : Nat) : Nat := n - n % bs

def tagOf (n a c : Bytes) : Bytes :=
  List.replicate 16 (UInt8.ofNat (n.length + a.length + c.sum.toNat))

/-- Incremental machine with block size `bs`. -/
def evp (bs : Nat) : Evp S where
  encInit n := some (n, [], [], [])
  encAad s x := some (s.1, s.2.1 ++ x, s.2.2)
  encUpdate s x :=
    some ((flip (s.2.2.1 ++ x)).take (out bs (s.2.2.1 ++ x).length) |>.drop (out bs s.2.2.1.length),
      (s.1, s.2.1, s.2.2.1 ++ x, s.2.2.2))
  encFinal s := some ((flip s.2.2.1).drop (out bs s.2.2.1.length), s)
  getTag s n := if n = 16 then some (tagOf s.1 s.2.1 (flip s.2.2.1)) else none
  decInit n := some (n, [], [], [])
  decAad s x := some (s.1, s.2.1 ++ x, s.2.2)
  decUpdate s x :=
    some ((flip (s.2.2.1 ++ x)).take (out bs (s.2.2.1 ++ x).length) |>.drop (out bs s.2.2.1.length),
      (s.1, s.2.1, s.2.2.1 ++ x, s.2.2.2))
  setTag s t := some (s.1, s.2.1, s.2.2.1, t)
  decFinal s :=
    if s.2.2.2 = tagOf s.1 s.2.1 s.2.2.1 then some ((flip s.2.2.1).drop (out bs s.2.2.1.length))
    else none

def ideal : Ideal where
  tagLen := 16
  sealing n a p := (flip p, tagOf n a (flip p))
  opening n a c t := if t = tagOf n a c then some (flip c) else none

theorem flip_flip (p : Bytes) : flip (flip p) = p := by
  induction p with
  | nil => rfl
  | cons b p ih =>
    simp only [flip, List.map_cons] at ih ⊢
    rw [ih, UInt8.xor_assoc]
    simp

theorem ideal_ok : ideal.Ok where
  cipherLen n a p := by simp [ideal, flip]
  tagLen n a p := by simp [ideal, tagOf]
  plainLen n a c t p h := by
    simp only [ideal] at h
    split at h
    · cases h; simp [flip]
    · simp at h
  correct n a p := by simp [ideal, flip_flip]

theorem out_le (bs n : Nat) : out bs n ≤ n := Nat.sub_le _ _

theorem out_mono (bs a b : Nat) : out bs a ≤ out bs (a + b) := by
  have e : ∀ n, out bs n = bs * (n / bs) := by
    intro n; have := Nat.mod_add_div n bs; simp only [out]; omega
  rw [e, e]
  exact Nat.mul_le_mul_left _ (Nat.div_le_div_right (by omega))

theorem step_eq (bs : Nat) (p x : Bytes) :
    (flip p).take (out bs p.length) ++
      (((flip (p ++ x)).take (out bs (p ++ x).length)).drop (out bs p.length)) =
      (flip (p ++ x)).take (out bs (p ++ x).length) := by
  have h1 : (flip p).take (out bs p.length) =
      ((flip (p ++ x)).take (out bs (p ++ x).length)).take (out bs p.length) := by
    rw [List.take_take, List.length_append, Nat.min_eq_left (out_mono _ _ _)]
    simp only [flip, List.map_append]
    rw [List.take_append_of_le_length (by simpa using out_le _ _)]
  rw [h1]
  exact List.take_append_drop _ _

/-- The machine implements the AEAD. -/
def implements (bs : Nat) : Implements (evp bs) bs ideal where
  e n a p := (n, a, p, [])
  eo n a p := (flip p).take (out bs p.length)
  d n a c := (n, a, c, [])
  dt n a c t := (n, a, c, t)
  po n a c := (flip c).take (out bs c.length)
  encInit n := rfl
  encAad n a x := rfl
  encUpdate n a p x := ⟨_, rfl, step_eq bs p x⟩
  eoLen n a p := by
    have := out_le bs p.length
    simp [flip]; simp only [out] at this ⊢; omega
  encFinal n a p := ⟨_, _, rfl, List.take_append_drop _ _, rfl⟩
  decInit n := rfl
  decAad n a x := rfl
  decUpdate n a p x := ⟨_, rfl, step_eq bs p x⟩
  poLen n a p := by
    have := out_le bs p.length
    simp [flip]; simp only [out] at this ⊢; omega
  setTag n a c t _ := rfl
  decBad n a c t h := by
    simp only [ideal] at h
    split at h
    · simp at h
    · rename_i hne; simp [evp, hne]
  decGood n a c t p h := by
    simp only [ideal] at h
    split at h
    · rename_i he
      cases h
      exact ⟨_, by simp only [evp, he, if_true], List.take_append_drop _ _⟩
    · simp at h

def cipher (blocks : Bool) : EvpCipher S :=
  ⟨evp (if blocks then 16 else 1), 16, blocks, 10, 3⟩

/-- A plaintext of 40 bytes in buffers of 0, 7, 0, 20, 13 bytes. -/
def plain (shared : Bool) : List Buf :=
  [⟨[], 0, false⟩, ⟨List.replicate 7 1, 4, shared⟩, ⟨[], 2, false⟩, ⟨List.replicate 20 2, 0, false⟩,
    ⟨List.replicate 13 3, 20, false⟩]

/-- C37_encrypt and C37_decrypt apply to both modes. -/
example (blocks : Bool) :
    ∃ r, (cipher blocks).encrypt (plain true) (some [[1,2],[],[3]]) [9,9] ⟨.respectSharedPolicy, .allow⟩
      = .ok r ∧ (datas r).flatten = (ideal.sealing [9,9] [1,2,3] (datas (plain true)).flatten).1 ++
        (ideal.sealing [9,9] [1,2,3] (datas (plain true)).flatten).2 := by
  exact (C37_encrypt (cipher blocks) ideal_ok (implements _) rfl (plain true) (by decide)
    (some [[1,2],[],[3]]) [9,9] ⟨.respectSharedPolicy, .allow⟩ (by decide) (by decide)
    (by cases blocks <;> decide)).2.2 (Or.inl rfl)

/-- In place, in blocks of 16 over buffers of 0, 7, 0, 20, 13: a block crosses two boundaries. -/
example : ((cipher true).encrypt (plain false) none [9] ⟨.allowInPlace, .deny⟩).map
    (fun r => r.map fun b => b.data.length) = .ok [0, 7, 0, 20, 29] := by decide +kernel

/-- With a shared chain and no allocation nothing is done. -/
example : (cipher true).encrypt (plain true) none [9] ⟨.respectSharedPolicy, .deny⟩ =
    .error (.rt "Cannot encrypt (must be in-place or allow allocation)") := by rfl

/-- A ciphertext whose tag is spread over three buffers comes back. -/
example : ((cipher true).encrypt (plain false) none [9] ⟨.allowInPlace, .deny⟩ >>= fun r =>
    let w := (datas r).flatten
    (cipher true).tryDecrypt [⟨w.take 45, 0, true⟩, ⟨(w.drop 45).take 3, 0, false⟩, ⟨w.drop 48, 0, true⟩]
      none [9] ⟨.respectSharedPolicy, .allow⟩).map (fun r => r.map fun b => (datas b).flatten) =
    .ok (some (datas (plain false)).flatten) := by decide +kernel

/-- A changed tag is refused. -/
example : ((cipher true).encrypt (plain false) none [9] ⟨.allowInPlace, .deny⟩ >>= fun r =>
    let w := (datas r).flatten
    (cipher true).tryDecrypt [⟨w.dropLast, 0, true⟩, ⟨[0], 0, false⟩]
      none [9] ⟨.respectSharedPolicy, .allow⟩).map (fun r => r.map fun b => (datas b).flatten) =
    .ok none := by decide +kernel

/-- The functions handed to the traversals meet the hypotheses of C37_transform and C37_blocks. -/
example : Spec.SameLength (encFn (evp 1)) (([9], [], [], []), 0) :=
  (encFn_wraps (implements 1) [9] []).sameLength (by intro p; rw [(implements 1).eoLen, Nat.mod_one]; rfl)

example : Spec.WholeBlocks 16 (fun s => s.input - s.written) (encBlk (evp 16))
    ⟨([9], [], [], []), 0, 0⟩ :=
  (encBlk_wraps (implements 16) [9] []).wholeBlocks (by decide) ((implements 16).eoLen [9] []) (by
    intro p
    have := (implements 16).eoLen [9] [] p
    have := Nat.mod_le p.length 16
    simp only; omega)

end Fizz.Aead.Example
