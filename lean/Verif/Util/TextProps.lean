import Verif.Util.Text

/-! # C90: hexadecimal text and the key log; C92: ALPN lists -/

namespace Fizz.Text
open Fizz.KS

/-! ## Specification -/

/-- Upper case `A`-`F` made lower case; nothing else changes. -/
def lowerAF (c : UInt8) : UInt8 := if 65 ≤ c ∧ c ≤ 70 then c + 32 else c

/-- The digit of a value below 16, as text. -/
def digit (n : Nat) : UInt8 := (lbl "0123456789abcdef").getD n 0

/-- Hexadecimal text: two digits for every byte, the high one first. -/
def hexText (b : Bytes) : Bytes := b.flatMap fun x => [digit (x.toNat / 16), digit (x.toNat % 16)]

/-! ## Lemmas -/

theorem digit_eq : ∀ n, n < 16 → kHexValues n = digit n := by decide +kernel

theorem table_digit : ∀ n, n < 16 → kHexTable (digit n) = n := by decide +kernel

theorem table_low : ∀ n, n < 256 → kHexTable (UInt8.ofNat n) ≤ 16 ∧
    (kHexTable (UInt8.ofNat n) < 16 → digit (kHexTable (UInt8.ofNat n)) = lowerAF (UInt8.ofNat n)) := by
  decide +kernel

theorem lower_table : ∀ n, n < 256 → kHexTable (lowerAF (UInt8.ofNat n)) = kHexTable (UInt8.ofNat n) := by
  decide +kernel

theorem digit_plain : ∀ n, n < 16 → digit n ≠ 32 ∧ digit n ≠ 10 := by decide +kernel

theorem u8_eta (c : UInt8) : UInt8.ofNat c.toNat = c := by simp

theorem table_le (c : UInt8) : kHexTable c ≤ 16 := by
  have := (table_low c.toNat c.toNat_lt).1
  rwa [u8_eta] at this

theorem digit_table (c : UInt8) (h : kHexTable c ≠ 16) : digit (kHexTable c) = lowerAF c := by
  have := table_le c
  have h2 := (table_low c.toNat c.toNat_lt).2
  rw [u8_eta] at h2
  exact h2 (by omega)

theorem table_lower (c : UInt8) : kHexTable (lowerAF c) = kHexTable c := by
  have := lower_table c.toNat c.toNat_lt
  rwa [u8_eta] at this

theorem hexlify_eq (b : Bytes) : hexlify b = hexText b := by
  induction b with
  | nil => rfl
  | cons x xs ih =>
    have hx := x.toNat_lt
    rw [hexlify, ih, digit_eq _ (by omega), digit_eq _ (by omega)]
    simp only [hexText, List.flatMap_cons, List.cons_append, List.nil_append]
    rw [show x.toNat / 16 % 16 = x.toNat / 16 by omega]

theorem hexlify_length (b : Bytes) : (hexlify b).length = 2 * b.length := by
  induction b with
  | nil => rfl
  | cons x xs ih => simp [hexlify, ih]; omega

theorem hexlify_cons (x : UInt8) (xs : Bytes) :
    hexlify (x :: xs) = digit (x.toNat / 16) :: digit (x.toNat % 16) :: hexlify xs := by
  rw [hexlify_eq, hexlify_eq]; rfl

theorem loop_iff : ∀ (n : Nat) (t b : Bytes), t.length = 2 * n →
    (unhexLoop t = .ok b ↔ t.map lowerAF = hexlify b) := by
  intro n
  induction n with
  | zero =>
    intro t b ht
    have : t = [] := List.length_eq_zero_iff.1 (by omega)
    subst this
    cases b with
    | nil => simp [unhexLoop, hexlify]
    | cons x xs => simp [unhexLoop, hexlify]
  | succ n ih =>
    intro t b ht
    match t, ht with
    | h :: l :: rest, ht =>
      have hr : rest.length = 2 * n := by simp only [List.length_cons] at ht; omega
      have th := table_le h
      have tl := table_le l
      unfold unhexLoop
      by_cases hb : kHexTable h = 16 ∨ kHexTable l = 16
      · rw [if_pos hb]
        simp only [reduceCtorEq, false_iff]
        intro e
        cases b with
        | nil => cases e
        | cons x xs =>
          rw [hexlify_cons] at e
          simp only [List.map_cons, List.cons.injEq] at e
          have hx := x.toNat_lt
          have e1 : kHexTable (digit (x.toNat / 16)) = x.toNat / 16 := table_digit _ (by omega)
          have e2 : kHexTable (digit (x.toNat % 16)) = x.toNat % 16 := table_digit _ (by omega)
          rw [← e.1, table_lower] at e1
          rw [← e.2.1, table_lower] at e2
          omega
      · rw [if_neg hb]
        simp only [not_or] at hb
        simp only [Res.bind_eq_ok, Res.pure_eq, Except.ok.injEq]
        constructor
        · rintro ⟨bs, h1, rfl⟩
          rw [hexlify_cons, UInt8.toNat_ofNat']
          rw [show (kHexTable h * 16 + kHexTable l) % 2 ^ 8 / 16 = kHexTable h by omega,
            show (kHexTable h * 16 + kHexTable l) % 2 ^ 8 % 16 = kHexTable l by omega,
            digit_table h hb.1, digit_table l hb.2, ← (ih rest bs hr).1 h1]
          rfl
        · intro e
          cases b with
          | nil => cases e
          | cons x xs =>
            rw [hexlify_cons] at e
            simp only [List.map_cons, List.cons.injEq] at e
            have hx := x.toNat_lt
            refine ⟨xs, (ih rest xs hr).2 e.2.2, ?_⟩
            have e1 : kHexTable (digit (x.toNat / 16)) = x.toNat / 16 := table_digit _ (by omega)
            have e2 : kHexTable (digit (x.toNat % 16)) = x.toNat % 16 := table_digit _ (by omega)
            rw [← e.1, table_lower] at e1
            rw [← e.2.1, table_lower] at e2
            rw [e1, e2, show x.toNat / 16 * 16 + x.toNat % 16 = x.toNat by omega, u8_eta]

/-! ## Theorems -/

/-- C90: `hexlify` gives two digits per byte, lower case, the high half first. -/
theorem C90_hexlify (b : Bytes) : hexlify b = hexText b := hexlify_eq b

/-- C90: `unhexlify` accepts exactly the hexadecimal text of some bytes, in either case, and gives these
bytes; odd lengths and other characters are refused. -/
theorem C90_unhexlify (t b : Bytes) : unhexlify t = .ok b ↔ t.map lowerAF = hexText b := by
  rw [← hexlify_eq]
  unfold unhexlify
  by_cases h : t.length % 2 = 0
  · rw [if_neg (by simpa using h)]
    exact loop_iff (t.length / 2) t b (by omega)
  · rw [if_pos h]
    simp only [reduceCtorEq, false_iff]
    intro e
    have := congrArg List.length e
    rw [List.length_map, hexlify_length] at this
    omega

theorem lower_digit : ∀ n, n < 16 → lowerAF (digit n) = digit n := by decide +kernel

theorem lower_hexText (b : Bytes) : (hexText b).map lowerAF = hexText b := by
  induction b with
  | nil => rfl
  | cons x xs ih =>
    have hx := x.toNat_lt
    simp only [hexText, List.flatMap_cons, List.map_append] at *
    rw [ih]
    simp only [List.map_cons, List.map_nil]
    rw [lower_digit _ (by omega), lower_digit _ (by omega)]

/-- C90: reading back what was written gives the same bytes. -/
theorem C90_roundtrip (b : Bytes) : unhexlify (hexlify b) = .ok b := by
  rw [C90_unhexlify, hexlify_eq, lower_hexText]

theorem hexlify_injective {a b : Bytes} (h : hexlify a = hexlify b) : a = b := by
  have h1 := C90_roundtrip a
  rw [h, C90_roundtrip] at h1
  cases h1; rfl

theorem hexlify_plain (b : Bytes) : 32 ∉ hexlify b ∧ 10 ∉ hexlify b := by
  induction b with
  | nil => simp [hexlify]
  | cons x xs ih =>
    have hx := x.toNat_lt
    rw [hexlify_cons]
    have h1 := digit_plain (x.toNat / 16) (by omega)
    have h2 := digit_plain (x.toNat % 16) (by omega)
    simp only [List.mem_cons, not_or]
    exact ⟨⟨h1.1.symm, h2.1.symm, ih.1⟩, h1.2.symm, h2.2.symm, ih.2⟩

theorem label_plain (l : Label) : 32 ∉ labelToString l := by
  cases l <;> decide +kernel

theorem label_injective : ∀ {a b : Label}, labelToString a = labelToString b → a = b := by
  intro a b
  cases a <;> cases b <;> decide +kernel

theorem sep_unique {α} {s : α} : ∀ {x y r r' : List α}, s ∉ x → s ∉ y → x ++ s :: r = y ++ s :: r' →
    x = y ∧ r = r' := by
  intro x
  induction x with
  | nil =>
    intro y r r' _ hy h
    cases y with
    | nil => cases h; exact ⟨rfl, rfl⟩
    | cons a as => cases h; simp at hy
  | cons a as ih =>
    intro y r r' hx hy h
    cases y with
    | nil => cases h; simp at hx
    | cons b bs =>
      simp only [List.cons_append, List.cons.injEq] at h
      simp only [List.mem_cons, not_or] at hx hy
      obtain ⟨h1, h2⟩ := ih hx.2 hy.2 h.2
      exact ⟨by rw [h.1, h1], h2⟩

theorem logFile_eq (before : Bytes) (ws : List Entry) :
    logFile before ws = before ++ ws.flatMap generateLogLine := by
  unfold logFile
  induction ws generalizing before with
  | nil => simp
  | cons w ws ih => rw [List.foldl_cons, ih]; simp

theorem line_shape (e : Entry) (rest : Bytes) : generateLogLine e ++ rest =
    labelToString e.label ++ 32 :: (hexlify e.clientRandom ++ 32 :: (hexlify e.secret ++ 10 :: rest)) := by
  simp [generateLogLine, List.append_assoc]

theorem lines_injective : ∀ (a b : List Entry), a.flatMap generateLogLine = b.flatMap generateLogLine →
    a = b := by
  have ne : ∀ (e : Entry) (r : Bytes), generateLogLine e ++ r ≠ [] := by
    intro e r h
    have := congrArg List.length h
    simp [generateLogLine] at this
  intro a
  induction a with
  | nil =>
    intro b h
    cases b with
    | nil => rfl
    | cons y ys => exact absurd h.symm (ne y _)
  | cons x xs ih =>
    intro b h
    cases b with
    | nil => exact absurd h (ne x _)
    | cons y ys =>
      simp only [List.flatMap_cons, line_shape] at h
      obtain ⟨h1, h⟩ := sep_unique (label_plain _) (label_plain _) h
      obtain ⟨h2, h⟩ := sep_unique (hexlify_plain _).1 (hexlify_plain _).1 h
      obtain ⟨h3, h⟩ := sep_unique (hexlify_plain _).2 (hexlify_plain _).2 h
      rw [ih ys h]
      congr 1
      obtain ⟨a1, a2, a3⟩ := x
      obtain ⟨b1, b2, b3⟩ := y
      simp only at h1 h2 h3
      rw [label_injective h1, hexlify_injective h2, hexlify_injective h3]

/-- C90: the key log keeps everything: a line is the label, the client random and the secret in
hexadecimal; a write only appends; and two histories of writes that leave the same file were the same,
write for write. -/
theorem C90_log (before : Bytes) (e : Entry) (ws ws' : List Entry) :
    generateLogLine e = labelToString e.label ++ [32] ++ hexText e.clientRandom ++ [32] ++
      hexText e.secret ++ [10] ∧
    logFile before (ws ++ [e]) = logFile before ws ++ generateLogLine e ∧
    (logFile before ws = logFile before ws' → ws = ws') := by
  refine ⟨by simp only [generateLogLine, hexlify_eq], by simp [logFile], fun h => ?_⟩
  rw [logFile_eq, logFile_eq] at h
  exact lines_injective _ _ (List.append_cancel_left h)

/-- The NSS key log format (draft-ietf-tls-keylogfile): the label of each logged secret of TLS 1.3, as
characters. -/
def nssName : SecretType → Option (List Char)
  | .early .clientEarlyTraffic => some "CLIENT_EARLY_TRAFFIC_SECRET".toList
  | .early .earlyExporter => some "EARLY_EXPORTER_SECRET".toList
  | .handshake .clientHandshakeTraffic => some "CLIENT_HANDSHAKE_TRAFFIC_SECRET".toList
  | .handshake .serverHandshakeTraffic => some "SERVER_HANDSHAKE_TRAFFIC_SECRET".toList
  | .app .clientAppTraffic => some "CLIENT_TRAFFIC_SECRET_0".toList
  | .app .serverAppTraffic => some "SERVER_TRAFFIC_SECRET_0".toList
  | .master .exporterMaster => some "EXPORTER_SECRET".toList
  | _ => none

/-- C90: every secret is written under the label the key log format has for it, and a secret the format
has no label for is not written. -/
theorem C90_names (t : SecretType) :
    (secretToNSSLabel t).map labelToString =
      (nssName t).map fun cs => cs.map fun c => UInt8.ofNat c.toNat := by
  cases t with
  | early s => cases s <;> rfl
  | handshake s => cases s <;> rfl
  | master s => cases s <;> rfl
  | app s => cases s <;> rfl

/-- C90: the labels: seven traffic and exporter secrets have one, each its own; binder keys, the
resumption master secret and the ECH confirmations have none.  No secret has the labels of earlier
TLS versions. -/
theorem C90_labels (t : SecretType) :
    (secretToNSSLabel t = none ↔ t ∈ [.early .externalPskBinder, .early .resumptionPskBinder,
      .early .echAcceptConfirmation, .early .hrrEchAcceptConfirmation,
      .handshake .echAcceptConfirmation, .master .resumptionMaster]) ∧
    (∀ t', secretToNSSLabel t ≠ none → secretToNSSLabel t = secretToNSSLabel t' → t = t') ∧
    secretToNSSLabel t ≠ some .rsa ∧ secretToNSSLabel t ≠ some .clientRandom := by
  refine ⟨?_, ?_, ?_, ?_⟩
  · rcases t with s | s | s | s <;> cases s <;> simp [secretToNSSLabel]
  · intro t'
    rcases t with s | s | s | s <;> cases s <;> rcases t' with s' | s' | s' | s' <;> cases s' <;>
      simp [secretToNSSLabel]
  · rcases t with s | s | s | s <;> cases s <;> simp [secretToNSSLabel]
  · rcases t with s | s | s | s <;> cases s <;> simp [secretToNSSLabel]

/-- C90 (what the code does): a secret without a label reaches the server's trace point with the label
`RSA`, the value 0, and not with a value out of range. -/
theorem C90_probe (t : SecretType) :
    probeLabel t = .rsa ↔ secretToNSSLabel t = none := by
  rcases t with s | s | s | s <;> cases s <;> simp [probeLabel, secretToNSSLabel]

/-- C90: an X25519 key pair written as text and read back is the same pair: the key exchange made of the
private key's text has the share whose text was published, and computes with this private key. -/
theorem C90_keypair (l : Kex.Lib) (readPem) (r : Bytes) (h : (l.x25519.privOf r).length = 32) :
    ∃ pub, unhexlify (generateKeypairCurve25519 l.x25519 r).1 = .ok pub ∧
      createKeyExchangeFromBuf l readPem 0x20 (generateKeypairCurve25519 l.x25519 r).2 =
        .ok (some ⟨Kex.x25519 l.x25519, some (l.x25519.privOf r, pub)⟩) ∧
      (Kex.x25519 l.x25519).getKeyShare (some (l.x25519.privOf r, pub)) = .ok pub ∧
      (Kex.x25519 l.x25519).generateKeyPair none r = .ok (some (l.x25519.privOf r, pub)) := by
  refine ⟨l.x25519.base (l.x25519.privOf r), C90_roundtrip _, ?_, rfl, rfl⟩
  unfold createKeyExchangeFromBuf generateKeypairCurve25519
  rw [if_neg (by decide), if_neg (by decide), if_neg (by decide), if_pos rfl]
  rw [C90_roundtrip]
  simp [setPrivateKeyX25519, h]

/-- C90: bad X25519 text is refused: not hexadecimal, or not 32 bytes. -/
theorem C90_bad_key (l : Kex.Lib) (readPem) (t : Bytes)
    (h : ∀ b, unhexlify t = .ok b → b.length ≠ 32) :
    ∃ f, createKeyExchangeFromBuf l readPem 0x20 t = .error f := by
  unfold createKeyExchangeFromBuf
  rw [if_neg (by decide), if_neg (by decide), if_neg (by decide), if_pos rfl]
  cases hu : unhexlify t with
  | error f => exact ⟨f, rfl⟩
  | ok b => exact ⟨_, by simp only [setPrivateKeyX25519, if_pos (h b hu)]; rfl⟩

/-- C90 (what the code does): for every other key encapsulation mechanism the call succeeds without
looking at the key, and the result is null. -/
theorem C90_null_kex (l : Kex.Lib) (readPem) (kem : UInt16) (t : Bytes)
    (h : kem ∉ [0x10, 0x11, 0x12, 0x20]) : createKeyExchangeFromBuf l readPem kem t = .ok none := by
  simp only [List.mem_cons, List.not_mem_nil, or_false, not_or] at h
  unfold createKeyExchangeFromBuf
  rw [if_neg h.1, if_neg h.2.1, if_neg h.2.2.1, if_neg h.2.2.2]

/-! ## C92: ALPN protocols from a weighted list -/

/-- The list of highest weight, the first one if there are several. -/
def Highest (l : List NpnItem) (p : List Bytes) : Prop :=
  ∃ pre i post, l = pre ++ i :: post ∧ i.protocols = p ∧ (∀ x ∈ pre, x.weight < i.weight) ∧
    ∀ x ∈ post, x.weight ≤ i.weight

theorem npnLoop_spec (w : Int) : ∀ (l : List NpnItem) (p : List Bytes),
    npnLoop w p l = match (l.filter fun i => i.weight > w).getLast? with
      | some i => i.protocols
      | none => p := by
  intro l
  induction l with
  | nil => intro p; rfl
  | cons x xs ih =>
    intro p
    rw [npnLoop, ih]
    by_cases hx : x.weight > w
    · rw [List.filter_cons_of_pos (by simpa using hx), if_pos hx, List.getLast?_cons]
      cases h : (xs.filter fun i => i.weight > w).getLast? <;> simp
    · rw [List.filter_cons_of_neg (by simpa using hx), if_neg hx]

/-- C92 (what the code does): the result is the protocols of the last item that outweighs the first
one, or of the first item if none does; an empty list ends the process. -/
theorem C92_what (i : NpnItem) (is : List NpnItem) :
    getAlpnsFromNpnList [] = .error Failure.abort ∧
    getAlpnsFromNpnList (i :: is) = .ok
      (match (is.filter fun x => x.weight > i.weight).getLast? with
       | some x => x.protocols
       | none => i.protocols) := by
  refine ⟨rfl, ?_⟩
  rw [getAlpnsFromNpnList, npnLoop_spec, List.filter_cons_of_neg (by simp)]

/-- C92: with at most one item that outweighs the first, in particular with one or two items, this is the
highest weighted list. -/
theorem C92_two (i : NpnItem) (is : List NpnItem) (p : List Bytes)
    (h : (is.filter fun x => x.weight > i.weight).length ≤ 1)
    (hp : getAlpnsFromNpnList (i :: is) = .ok p) : Highest (i :: is) p := by
  rw [(C92_what i is).2] at hp
  cases hf : is.filter (fun x => x.weight > i.weight) with
  | nil =>
    rw [hf] at hp
    cases hp
    refine ⟨[], i, is, rfl, rfl, by simp, ?_⟩
    intro x hx
    have : x ∉ is.filter fun x => x.weight > i.weight := by rw [hf]; simp
    rw [List.mem_filter] at this
    by_cases hw : x.weight > i.weight
    · exact absurd ⟨hx, by simpa using hw⟩ this
    · omega
  | cons j js =>
    rw [hf] at h
    have hjs : js = [] := List.length_eq_zero_iff.1 (by simpa using h)
    subst hjs
    rw [hf] at hp
    cases hp
    have hj : j ∈ is ∧ j.weight > i.weight := by
      have : j ∈ is.filter fun x => x.weight > i.weight := by rw [hf]; simp
      simpa using this
    obtain ⟨pre, post, rfl⟩ := List.append_of_mem hj.1
    rw [List.filter_append, List.filter_cons_of_pos (by simpa using hj.2)] at hf
    have hl := congrArg List.length hf
    simp only [List.length_append, List.length_cons, List.length_nil] at hl
    have h1 : pre.filter (fun x => x.weight > i.weight) = [] := List.length_eq_zero_iff.1 (by omega)
    have h2 : post.filter (fun x => x.weight > i.weight) = [] := List.length_eq_zero_iff.1 (by omega)
    rw [List.filter_eq_nil_iff] at h1 h2
    refine ⟨i :: pre, j, post, rfl, rfl, ?_, ?_⟩
    · intro x hx
      rcases List.mem_cons.1 hx with rfl | hx
      · exact hj.2
      · have := h1 x hx; simp at this; omega
    · intro x hx
      have := h2 x hx; simp at this; omega

/-- C92, counterexample to the comment in the header ("we use the highest weighted list"): three lists of
weight 1, 3 and 2 give the last one. -/
theorem C92_not_highest :
    ∃ l p, getAlpnsFromNpnList l = .ok p ∧ ¬ Highest l p := by
  refine ⟨[⟨1, [[97]]⟩, ⟨3, [[98]]⟩, ⟨2, [[99]]⟩], [[99]], rfl, ?_⟩
  rintro ⟨pre, i, post, e, hp, h1, h2⟩
  match pre, e with
  | [], e => cases e; simp at hp
  | [a], e => cases e; simp at hp
  | [a, b], e => cases e; simp at h1
  | a :: b :: c :: d, e =>
    have := congrArg List.length e
    simp at this

/-! ## Concrete cases -/

example : hexlify [0x0f, 0xa0] = lbl "0fa0" ∧ unhexlify (lbl "0FA0") = .ok [0x0f, 0xa0] ∧
    unhexlify (lbl "0fg0") = .error (Failure.rt "unhexlify: input contains non-hex character") :=
  ⟨by decide +kernel, (C90_unhexlify _ _).2 (by decide +kernel), by rfl⟩

example : generateLogLine ⟨[1, 2], .exporter, [0xff]⟩ = lbl "EXPORTER_SECRET 0102 ff\n" := by
  decide +kernel

example : Highest [⟨1, [[97]]⟩, ⟨2, [[98]]⟩] [[98]] := C92_two _ _ _ (by decide) rfl

end Fizz.Text
