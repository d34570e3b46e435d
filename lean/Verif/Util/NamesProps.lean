import Verif.Util.Names

/-!
# Names, numbers and algorithms agree

The specification is the part in `Spec`: the parameters of the cipher suites as RFC 8446 (B.4), RFC 5116, RFC 8439
and the AEGIS drafts give them, and the table of key encapsulation mechanisms of RFC 9180 (7.1).
-/

namespace Fizz.Names
open Fizz Fizz.Ech

namespace Spec

/-- The cipher suites: number, hash function and the lengths of key, nonce and tag. -/
def suites : List (UInt16 × HashFn × Nat × Nat × Nat) :=
  [ (0x1301, .sha256, 16, 12, 16),   -- TLS_AES_128_GCM_SHA256
    (0x1302, .sha384, 32, 12, 16),   -- TLS_AES_256_GCM_SHA384
    (0x1303, .sha256, 32, 12, 16),   -- TLS_CHACHA20_POLY1305_SHA256
    (0x1306, .sha512, 32, 32, 16),   -- TLS_AEGIS_256_SHA512
    (0x1307, .sha256, 16, 16, 16),   -- TLS_AEGIS_128L_SHA256
    (0xff01, .sha256, 16, 16, 16),   -- AEGIS-128X2, experimental
    (0xff03, .sha256, 16, 16, 16) ]  -- AEGIS-128X4, experimental

/-- The three suites of RFC 8446 that every build has. -/
def rfc8446 (v : UInt16) : Prop := v = 0x1301 ∨ v = 0x1302 ∨ v = 0x1303

/-- The output length of a hash function (FIPS 180-4). -/
def hashLen : HashFn → Nat
  | .sha256 => 256 / 8
  | .sha384 => 384 / 8
  | .sha512 => 512 / 8

/-- RFC 9180 7.1: the KEM identifier, the TLS group, the hash function of its KDF and `Nenc`. For the NIST curves
`Nenc` is the length of an uncompressed point, `1 + 2 ⌈bits / 8⌉`. -/
def kems : List (UInt16 × UInt16 × HashFn × Nat) :=
  [ (0x0010, 23, .sha256, 1 + 2 * ((256 + 7) / 8)),   -- DHKEM(P-256, HKDF-SHA256)
    (0x0011, 24, .sha384, 1 + 2 * ((384 + 7) / 8)),   -- DHKEM(P-384, HKDF-SHA384)
    (0x0012, 25, .sha512, 1 + 2 * ((521 + 7) / 8)),   -- DHKEM(P-521, HKDF-SHA512)
    (0x0020, 29, .sha256, 32) ]                       -- DHKEM(X25519, HKDF-SHA256)

end Spec

/-! ## Hexadecimal -/

/-- The sixteen digits. -/
def isHex (c : Char) : Bool :=
  ['0', '1', '2', '3', '4', '5', '6', '7', '8', '9', 'a', 'b', 'c', 'd', 'e', 'f'].contains c

theorem hexDigit_inj : ∀ m, m < 16 → ∀ n, n < 16 → hexDigit m = hexDigit n → m = n := by decide

theorem hexDigit_isHex : ∀ m, m < 16 → isHex (hexDigit m) = true := by decide

theorem hexByte_inj {a b : Nat} (ha : a < 256) (hb : b < 256) (h : hexByte a = hexByte b) : a = b := by
  simp only [hexByte, List.cons.injEq, and_true] at h
  have h1 := hexDigit_inj _ (by omega) _ (by omega) h.1
  have h2 := hexDigit_inj _ (by omega) _ (by omega) h.2
  omega

theorem hexByte_isHex {a : Nat} (ha : a < 256) : (hexByte a).all isHex = true := by
  simp only [hexByte, List.all_cons, List.all_nil, Bool.and_true, Bool.and_eq_true]
  exact ⟨hexDigit_isHex _ (by omega), hexDigit_isHex _ (by omega)⟩

theorem hex16_inj {a b : UInt16} (h : hex16 a = hex16 b) : a = b := by
  have h' := String.ofList_injective h
  have la := a.toNat_lt
  have lb := b.toNat_lt
  have hh := List.append_inj h' (by simp [hexByte])
  have h1 := hexByte_inj (by omega) (by omega) hh.1
  have h2 := hexByte_inj (by omega) (by omega) hh.2
  apply UInt16.toNat_inj.mp
  omega

theorem hex8_inj {a b : UInt8} (h : hex8 a = hex8 b) : a = b := by
  have h' := String.ofList_injective h
  have la := a.toNat_lt
  have lb := b.toNat_lt
  exact UInt8.toNat_inj.mp (hexByte_inj (by omega) (by omega) h')

/-- A text of `w` hexadecimal digits. (`ed25519` is hexadecimal digits throughout, but not four of them.) -/
def looksHex (w : Nat) (s : String) : Bool := s.toList.length == w && s.toList.all isHex

theorem hex16_isHex (a : UInt16) : looksHex 4 (hex16 a) = true := by
  have la := a.toNat_lt
  simp only [looksHex, hex16, String.toList_ofList, List.all_append, Bool.and_eq_true]
  exact ⟨by simp [hexByte], hexByte_isHex (by omega), hexByte_isHex (by omega)⟩

theorem hex8_isHex (a : UInt8) : looksHex 2 (hex8 a) = true := by
  have la := a.toNat_lt
  simp only [looksHex, hex8, String.toList_ofList, Bool.and_eq_true]
  exact ⟨by simp [hexByte], hexByte_isHex (by omega)⟩

/-! ## Tables -/

theorem nameIn_mem {α} [DecidableEq α] {t : List (α × String)} {v : α} {n : String}
    (h : nameIn t v = some n) : (v, n) ∈ t := by
  obtain ⟨e, he, rfl⟩ := Option.map_eq_some_iff.mp h
  have h1 := List.mem_of_find?_eq_some he
  have h2 := List.find?_some he
  simp only [decide_eq_true_eq] at h2
  rw [← h2]
  exact h1

theorem nameIn_none {α} [DecidableEq α] {t : List (α × String)} {v : α}
    (h : nameIn t v = none) (n : String) : (v, n) ∉ t := by
  intro hm
  have h' := List.find?_eq_none.mp (Option.map_eq_none_iff.mp h) _ hm
  simp at h'

/-- No two entries share a name, and no name could be a number in hexadecimal. -/
def Distinct {α} (w : Nat) (t : List (α × String)) : Prop :=
  (t.map (·.2)).Nodup ∧ ∀ n ∈ t.map (·.2), looksHex w n = false

theorem mem_unique {α} {t : List (α × String)} (ht : (t.map (·.2)).Nodup) {a b : α} {n : String}
    (ha : (a, n) ∈ t) (hb : (b, n) ∈ t) : a = b := by
  induction t with
  | nil => cases ha
  | cons e t ih =>
    simp only [List.map_cons, List.nodup_cons] at ht
    have h1 := ht.1
    rcases List.mem_cons.mp ha with ha | ha <;> rcases List.mem_cons.mp hb with hb | hb
    · rw [← hb] at ha
      exact (Prod.mk.inj ha).1
    · rw [← ha] at h1
      exact absurd (List.mem_map_of_mem (f := Prod.snd) hb) h1
    · rw [← hb] at h1
      exact absurd (List.mem_map_of_mem (f := Prod.snd) ha) h1
    · exact ih ht.2 ha hb

theorem print_inj {α} [DecidableEq α] {t : List (α × String)} {w : Nat} (ht : Distinct w t) {hex : α → String}
    (hi : ∀ a b, hex a = hex b → a = b) (hh : ∀ a, looksHex w (hex a) = true)
    {a b : α} (h : (nameIn t a).getD (hex a) = (nameIn t b).getD (hex b)) : a = b := by
  cases ha : nameIn t a with
  | some n =>
    have ma := nameIn_mem ha
    cases hb : nameIn t b with
    | some m =>
      rw [ha, hb] at h
      simp only [Option.getD_some] at h
      subst h
      exact mem_unique ht.1 ma (nameIn_mem hb)
    | none =>
      rw [ha, hb] at h
      simp only [Option.getD_some, Option.getD_none] at h
      have := ht.2 n (List.mem_map_of_mem (f := Prod.snd) ma)
      rw [h, hh] at this
      cases this
  | none =>
    cases hb : nameIn t b with
    | some m =>
      rw [ha, hb] at h
      simp only [Option.getD_some, Option.getD_none] at h
      have := ht.2 m (List.mem_map_of_mem (f := Prod.snd) (nameIn_mem hb))
      rw [← h, hh] at this
      cases this
    | none =>
      rw [ha, hb] at h
      exact hi _ _ h

/-- **C100 (printing loses nothing).** For versions, extension types, alerts, cipher suites, PSK modes, signature
schemes, groups and compression algorithms alike, and for every value the wire can carry, known or not: two values
that print the same are the same. -/
theorem C100_printed_injective :
    (∀ a b, versionName a = versionName b → a = b) ∧
    (∀ a b, extensionName a = extensionName b → a = b) ∧
    (∀ a b, alertName a = alertName b → a = b) ∧
    (∀ a b, suiteName a = suiteName b → a = b) ∧
    (∀ a b, pskModeName a = pskModeName b → a = b) ∧
    (∀ a b, schemeName a = schemeName b → a = b) ∧
    (∀ a b, groupName a = groupName b → a = b) ∧
    (∀ a b, compressionName a = compressionName b → a = b) :=
  ⟨fun _ _ => print_inj (by unfold Distinct; decide) (fun _ _ => hex16_inj) hex16_isHex,
   fun _ _ => print_inj (by unfold Distinct; decide +kernel) (fun _ _ => hex16_inj) hex16_isHex,
   fun _ _ => print_inj (by unfold Distinct; decide +kernel) (fun _ _ => hex8_inj) hex8_isHex,
   fun _ _ => print_inj (by unfold Distinct; decide) (fun _ _ => hex16_inj) hex16_isHex,
   fun _ _ => print_inj (by unfold Distinct; decide) (fun _ _ => hex8_inj) hex8_isHex,
   fun _ _ => print_inj (by unfold Distinct; decide +kernel) (fun _ _ => hex16_inj) hex16_isHex,
   fun _ _ => print_inj (by unfold Distinct; decide +kernel) (fun _ _ => hex16_inj) hex16_isHex,
   fun _ _ => print_inj (by unfold Distinct; decide) (fun _ _ => hex16_inj) hex16_isHex⟩

/-- A value that is in no list prints as its digits: an unknown cipher suite and an unknown alert. -/
example : suiteName 0x0a1f = "0a1f" ∧ alertName 0xfe = "fe" ∧ suiteName 0x1301 = "TLS_AES_128_GCM_SHA256" := by
  decide +kernel

/-! ## Parsing -/

theorem find_iff {t : List (String × UInt16)} (ht : (t.map (·.1)).Nodup) {s : String} {v : UInt16} :
    (t.find? (fun e => e.1 = s)).map (·.2) = some v ↔ (s, v) ∈ t := by
  induction t with
  | nil => simp
  | cons e t ih =>
    simp only [List.map_cons, List.nodup_cons] at ht
    rw [List.find?_cons]
    by_cases he : e.1 = s
    · subst he
      simp only [decide_true, Option.map_some, Option.some.injEq, List.mem_cons]
      constructor
      · rintro rfl; exact .inl rfl
      · rintro (h | h)
        · rw [← h]
        · exact absurd (List.mem_map_of_mem (f := Prod.fst) h) ht.1
    · simp only [he, decide_false, ih ht.2, List.mem_cons]
      constructor
      · exact .inr
      · rintro (h | h)
        · exact absurd (by rw [← h]) he
        · exact h

/-- What one `parse` gives, for every text. -/
theorem parse_iff {t : List (String × UInt16)} (ht : (t.map (·.1)).Nodup) {p : String → Res UInt16} {msg : String}
    (hp : ∀ s, p s = match t.find? (fun e => e.1 = s) with
      | some e => .ok e.2
      | none => .error (Failure.rt (msg ++ s)))
    {name : UInt16 → String} (hn : ∀ e ∈ t, name e.2 = e.1) (s : String) :
    (∀ v, p s = .ok v ↔ s = name v ∧ v ∈ t.map (·.2)) ∧
    ((∀ v ∈ t.map (·.2), s ≠ name v) → p s = .error (Failure.rt (msg ++ s))) := by
  have key : ∀ v, p s = .ok v ↔ (s, v) ∈ t := by
    intro v
    rw [← find_iff ht, hp]
    cases t.find? (fun e => e.1 = s) with
    | none => simp
    | some e => simp
  refine ⟨fun v => (key v).trans ⟨fun h => ⟨(hn _ h).symm, List.mem_map_of_mem (f := Prod.snd) h⟩, ?_⟩, ?_⟩
  · rintro ⟨rfl, h⟩
    obtain ⟨e, he, rfl⟩ := List.mem_map.mp h
    rw [hn e he]
    exact he
  · intro h
    rw [hp]
    cases hf : t.find? (fun e => e.1 = s) with
    | none => rfl
    | some e =>
      have h1 := List.mem_of_find?_eq_some hf
      have h2 := List.find?_some hf
      simp only [decide_eq_true_eq] at h2
      exact absurd (h2.symm.trans (hn e h1).symm) (h _ (List.mem_map_of_mem (f := Prod.snd) h1))

/-- **C100 (cipher suite names).** A text names a cipher suite exactly if it is what that suite prints as and it is
one of the seven; any other text is refused, with the text in the message. -/
theorem C100_suite (s : String) :
    (∀ v, parseSuite s = .ok v ↔ s = suiteName v ∧ v ∈ Spec.suites.map (·.1)) ∧
    ((∀ v ∈ Spec.suites.map (·.1), s ≠ suiteName v) →
      parseSuite s = .error (Failure.rt ("Unknown cipher suite: " ++ s))) := by
  have h := parse_iff (t := suiteValues) (by decide) (p := parseSuite) (fun _ => rfl) (name := suiteName)
    (by decide) s
  have hm : ∀ v, v ∈ suiteValues.map (·.2) ↔ v ∈ Spec.suites.map (·.1) := by
    intro v; simp only [suiteValues, Spec.suites, List.map, List.mem_cons, List.not_mem_nil, or_false]
    constructor <;> rintro (h|h|h|h|h|h|h) <;> simp [h]
  exact ⟨fun v => by rw [h.1 v, hm], fun hv => h.2 (fun v hv' => hv v ((hm v).mp hv'))⟩

/-- **C100 (signature scheme names).** The eight schemes that fizz signs with by themselves; a batch scheme and a
scheme that fizz only knows by name cannot be named. -/
theorem C100_scheme (s : String) :
    (∀ v, parseScheme s = .ok v ↔
      s = schemeName v ∧ v ∈ [0x0403, 0x0503, 0x0603, 0x0804, 0x0805, 0x0806, 0x0807, 0x0808]) ∧
    ((∀ v ∈ [0x0403, 0x0503, 0x0603, 0x0804, 0x0805, 0x0806, 0x0807, 0x0808], s ≠ schemeName v) →
      parseScheme s = .error (Failure.rt ("Unknown signature scheme: " ++ s))) :=
  parse_iff (t := schemeValues) (by decide) (p := parseScheme) (fun _ => rfl) (name := schemeName) (by decide) s

/-- **C100 (group names).** The nine groups: the NIST curves, x25519, the three ML-KEMs and the two hybrids of
x25519. A group that only has a printed name (x448, SecP256r1MLKEM768 and the Kyber groups) cannot be named. -/
theorem C100_group (s : String) :
    (∀ v, parseGroup s = .ok v ↔ s = groupName v ∧ v ∈ [23, 24, 25, 29, 65026, 4588, 512, 513, 514]) ∧
    ((∀ v ∈ [23, 24, 25, 29, 65026, 4588, 512, 513, 514], s ≠ groupName v) →
      parseGroup s = .error (Failure.rt ("Unknown named group: " ++ s))) :=
  parse_iff (t := groupValues) (by decide) (p := parseGroup) (fun _ => rfl) (name := groupName) (by decide) s

/-- **C100 (compression algorithm names).** -/
theorem C100_compression (s : String) :
    (∀ v, parseCompression s = .ok v ↔ s = compressionName v ∧ v ∈ [1, 2, 3]) ∧
    ((∀ v ∈ [1, 2, 3], s ≠ compressionName v) →
      parseCompression s = .error (Failure.rt ("Unknown compression algorithm: " ++ s))) :=
  parse_iff (t := compressionValues) (by decide) (p := parseCompression) (fun _ => rfl) (name := compressionName)
    (by decide) s

/-- The texts of a command line, one that is known and two that are not. -/
example : parseSuite "TLS_CHACHA20_POLY1305_SHA256" = .ok 0x1303 ∧
    parseGroup (groupName 30) = .error (Failure.rt "Unknown named group: x448") ∧
    parseSuite "1301" = .error (Failure.rt "Unknown cipher suite: 1301") := by decide +kernel

/-! ## Algorithms -/

/-- **C100 (algorithms).** In a build with AEGIS a cipher suite has an AEAD exactly if it has a hash function, and
exactly if it is one of the seven; the key, nonce and tag lengths and the length of the hash are those of the
documents. In a build without, the AEADs are those of the three suites of RFC 8446, with the same lengths. -/
theorem C100_algorithms (v : UInt16) :
    (∀ l h, makeAead true v = .ok l ∧ getHashFunction v = .ok h ↔
      (v, h, l.key, l.iv, l.tag) ∈ Spec.suites) ∧
    ((∃ l, makeAead true v = .ok l) ↔ v ∈ Spec.suites.map (·.1)) ∧
    ((∃ h, getHashFunction v = .ok h) ↔ v ∈ Spec.suites.map (·.1)) ∧
    (∀ l, makeAead false v = .ok l ↔ Spec.rfc8446 v ∧ makeAead true v = .ok l) ∧
    (∀ h, getHashSize h = Spec.hashLen h) := by
  have hv : v ∈ Spec.suites.map (·.1) ∨ v ∉ Spec.suites.map (·.1) := Classical.em _
  rcases hv with hv | hv
  · simp only [Spec.suites, List.map, List.mem_cons, List.not_mem_nil, or_false] at hv
    refine ⟨?_, ?_, ?_, ?_, fun h => by cases h <;> rfl⟩
    all_goals
      rcases hv with rfl | rfl | rfl | rfl | rfl | rfl | rfl
    all_goals
      first
      | (intro l h; obtain ⟨k, i, g⟩ := l
         cases h <;>
         simp [makeAead, getHashFunction, Spec.suites, chaCha, aesGcm128, aesGcm256, aegis256, aegis128L, aegis128X2,
           aegis128X4, eq_comm, and_comm, and_left_comm])
      | simp [makeAead, getHashFunction, Spec.suites, Spec.rfc8446]
  · have hn := hv
    simp only [Spec.suites, List.map, List.mem_cons, List.not_mem_nil, or_false, not_or] at hn
    obtain ⟨h1, h2, h3, h4, h5, h6, h7⟩ := hn
    have e1 : ∀ b, makeAead b v = .error (Failure.rt "aead: not implemented") := by
      intro b; simp [makeAead, h1, h2, h3, h4, h5, h6, h7]
    have e2 : getHashFunction v = .error (Failure.rt "unknown cipher suite") := by
      simp [getHashFunction, h1, h2, h3, h4, h5, h6, h7]
    refine ⟨?_, ?_, ?_, ?_, fun h => by cases h <;> rfl⟩
    · intro l h
      rw [e1, e2]
      constructor
      · rintro ⟨h, _⟩; cases h
      · intro hm; exact absurd (List.mem_map_of_mem (f := Prod.fst) hm) hv
    · rw [e1]
      constructor
      · rintro ⟨_, h⟩; cases h
      · intro hm; exact absurd hm hv
    · rw [e2]
      constructor
      · rintro ⟨_, h⟩; cases h
      · intro hm; exact absurd hm hv
    · intro l
      rw [e1, e1]
      constructor
      · intro h; cases h
      · rintro ⟨_, h⟩; cases h

/-- A cipher suite with the hash function and the lengths of the table. -/
example : makeAead true 0x1306 = .ok ⟨32, 32, 16⟩ ∧ getHashFunction 0x1306 = .ok .sha512 ∧
    makeAead false 0x1306 = .error (Failure.rt "aead: not implemented") := by decide +kernel

/-- **C100 (HPKE).** The identifier of a KEM, the TLS group, the hash function of its KDF and the length of its
encapsulated key are those of RFC 9180, in both directions, and nothing else has any of them; the identifiers of
the KDFs and AEADs go back and forth, and the ciphertext expansion is the tag length of the suite's AEAD. -/
theorem C100_hpke :
    (∀ kem group, kexGroup kem = .ok group ↔ Hpke.dhkemId group = .ok kem) ∧
    (∀ kem group hash n, kexGroup kem = .ok group ∧ kemHash kem = .ok hash ∧ nenc kem = .ok n ↔
      (kem, group, hash, n) ∈ Spec.kems) ∧
    (∀ kem, ((∃ g, kexGroup kem = .ok g) ↔ kem ∈ Spec.kems.map (·.1)) ∧
      ((∃ h, kemHash kem = .ok h) ↔ kem ∈ Spec.kems.map (·.1)) ∧
      ((∃ n, nenc kem = .ok n) ↔ kem ∈ Spec.kems.map (·.1))) ∧
    (∀ kdf h, hashFunction kdf = .ok h ↔ kdf = kdfId h) ∧
    (∀ aead cs, cipherSuite aead = .ok cs ↔ aeadId cs = .ok aead) ∧
    (∀ aead cs, cipherSuite aead = .ok cs → ∃ l, makeAead false cs = .ok l ∧ cipherOverhead aead = .ok l.tag) ∧
    (∀ aead, (∃ n, cipherOverhead aead = .ok n) ↔ ∃ cs, cipherSuite aead = .ok cs) := by
  refine ⟨?_, ?_, ?_, ?_, ?_, ?_, ?_⟩
  · intro kem group
    unfold kexGroup Hpke.dhkemId
    (split; rotate_left; split; rotate_left; split; rotate_left; split) <;> (try subst_vars) <;>
      ((split; rotate_left; split; rotate_left; split; rotate_left; split)) <;> (try subst_vars) <;> simp_all [eq_comm]
  · intro kem group hash n
    unfold kexGroup kemHash nenc Spec.kems
    (split; rotate_left; split; rotate_left; split; rotate_left; split) <;> (try subst_vars) <;>
      simp_all [eq_comm, and_comm, and_left_comm]
  · intro kem
    unfold kexGroup kemHash nenc Spec.kems
    (split; rotate_left; split; rotate_left; split; rotate_left; split) <;> (try subst_vars) <;> simp_all
  · intro kdf h
    unfold hashFunction kdfId
    (split; rotate_left; split; rotate_left; split) <;> (try subst_vars) <;> cases h <;> simp_all
  · intro aead cs
    unfold cipherSuite aeadId
    (split; rotate_left; split; rotate_left; split) <;> (try subst_vars) <;>
      ((split; rotate_left; split; rotate_left; split)) <;> (try subst_vars) <;> simp_all [eq_comm]
  · intro aead cs
    unfold cipherSuite cipherOverhead
    (split; rotate_left; split; rotate_left; split) <;> (try subst_vars) <;> intro h
    all_goals first | (cases h; done) | (cases Except.ok.inj h; simp [makeAead, aesGcm128, aesGcm256, chaCha])
  · intro aead
    unfold cipherSuite cipherOverhead
    (split; rotate_left; split; rotate_left; split) <;> (try subst_vars) <;> simp_all

/-- The first row of the table, read both ways. -/
example : kexGroup 0x10 = .ok 23 ∧ nenc 0x10 = .ok 65 ∧ (0x10, 23, HashFn.sha256, 65) ∈ Spec.kems := by decide

/-! ## The version and the additional data -/

/-- The versions for which the record layer can be set up: TLS 1.3 and the drafts, with and without Facebook's
variant numbers. -/
def Spec.tls13 (v : UInt16) : Prop :=
  v = 0x0304 ∨ v = 0x7f17 ∨ v = 0xfb17 ∨ v = 0x7f1a ∨ v = 0xfb1a ∨ v = 0x7f1c

/-- Draft 23, the last one whose records have no additional data. -/
def Spec.draft23 (v : UInt16) : Prop := v = 0x7f17 ∨ v = 0xfb17

/-- **C100 (the version decides about the additional data, on both sides alike).** Whatever the state of the two
record layers, setting the version succeeds on one exactly if it succeeds on the other and exactly for TLS 1.3 and
its drafts; then both use the record header as additional data, except for draft 23, and nothing else in their
state has changed. So a writer and a reader told the same version agree. -/
theorem C100_version (r : Record.EncRd) (w : Record.EncWr) (v : UInt16) :
    ((∃ r', setReadVersion r v = .ok r') ↔ Spec.tls13 v) ∧
    ((∃ w', setWriteVersion w v = .ok w') ↔ Spec.tls13 v) ∧
    (∀ r' w', setReadVersion r v = .ok r' → setWriteVersion w v = .ok w' →
      (r'.useAD = true ↔ ¬ Spec.draft23 v) ∧ (w'.useAD = true ↔ ¬ Spec.draft23 v) ∧
      r' = { r with useAD := r'.useAD } ∧ w' = { w with useAD := w'.useAD }) ∧
    (∀ x, getRealDraftVersion v = .ok x → getRealDraftVersion x = .ok x) := by
  have hv : Spec.tls13 v ∨ ¬ Spec.tls13 v := Classical.em _
  rcases hv with hv | hv
  · unfold Spec.tls13 at hv
    rcases hv with rfl | rfl | rfl | rfl | rfl | rfl <;>
    refine ⟨?_, ?_, ?_, ?_⟩ <;>
    first
    | (intro x h; cases Except.ok.inj h; rfl)
    | (intro r' w' h1 h2; cases Except.ok.inj h1; cases Except.ok.inj h2
       exact ⟨by simp [Spec.draft23], by simp [Spec.draft23], rfl, rfl⟩)
    | exact ⟨fun _ => by simp [Spec.tls13], fun _ => ⟨_, rfl⟩⟩
  · have hv' := hv
    simp only [Spec.tls13, not_or] at hv'
    obtain ⟨h1, h2, h3, h4, h5, h6⟩ := hv'
    have e : getRealDraftVersion v = .error (Failure.rt "getRealDraftVersion: invalid protocol version") := by
      simp [getRealDraftVersion, h1, h2, h3, h4, h5, h6]
    refine ⟨⟨?_, fun h => absurd h hv⟩, ⟨?_, fun h => absurd h hv⟩, ?_, ?_⟩
    · rintro ⟨r', h⟩; rw [setReadVersion, e] at h; cases h
    · rintro ⟨r', h⟩; rw [setWriteVersion, e] at h; cases h
    · intro r' w' h; rw [setReadVersion, e] at h; cases h
    · intro x h; rw [e] at h; cases h

/-- A fresh pair of layers set to draft 23 and to TLS 1.3. -/
example (a : Option Record.Aead) : setWriteVersion { aead := a } 0xfb17 = .ok { aead := a, useAD := false } ∧
    setWriteVersion { aead := a } 0x0304 = .ok { aead := a, useAD := true } := ⟨rfl, rfl⟩

end Fizz.Names
