import Verif.Batch.BatcherSpec
import Verif.Batch.MerkleSound
import Verif.Codec.PrimLemmas

/-! # C33: batch signatures -/

namespace Fizz.Batch
open Fizz Fizz.Crypto Fizz.Codec Fizz.Batch.Spec Fizz.Agree.Spec

/-! ## Encoding -/

/-- C33: what is encoded decodes to the same signature, whatever bytes follow; and decoding accepts nothing
but an encoding. -/
theorem C33_codec (s : BatchSig) (w rest : Bytes) :
    (s.encode = .ok w → BatchSig.decode (w ++ rest) = .ok (s, rest)) ∧
    (BatchSig.decode (w ++ rest) = .ok (s, rest) → s.encode = .ok w) ∧
    (s.encode = .ok w ↔ s.path.length < 2 ^ 16 ∧ s.sig.length < 2 ^ 16 ∧
      w = beEnc 4 s.index.toNat ++ (beEnc 2 s.path.length ++ s.path) ++ (beEnc 2 s.sig.length ++ s.sig)) := by
  have henc : s.encode = .ok w ↔ s.path.length < 2 ^ 16 ∧ s.sig.length < 2 ^ 16 ∧
      w = beEnc 4 s.index.toNat ++ (beEnc 2 s.path.length ++ s.path) ++ (beEnc 2 s.sig.length ++ s.sig) := by
    unfold BatchSig.encode
    simp only [writeU32, Res.ok_bind, Res.bind_eq_ok, writeBuf_eq_ok, Res.pure_eq, Except.ok.injEq]
    constructor
    · rintro ⟨p, ⟨h1, rfl⟩, g, ⟨h2, rfl⟩, rfl⟩
      exact ⟨h1, h2, rfl⟩
    · rintro ⟨h1, h2, rfl⟩
      exact ⟨_, ⟨h1, rfl⟩, _, ⟨h2, rfl⟩, rfl⟩
  have hdec : BatchSig.decode (w ++ rest) = .ok (s, rest) ↔ s.path.length < 2 ^ 16 ∧ s.sig.length < 2 ^ 16 ∧
      w ++ rest = (beEnc 4 s.index.toNat ++ (beEnc 2 s.path.length ++ s.path) ++ (beEnc 2 s.sig.length ++ s.sig)) ++ rest := by
    unfold BatchSig.decode
    simp only [Rd.bind_eq_ok, Prod.exists, readU32_eq_ok, readBuf_eq_ok, Rd.pure_eq_ok]
    constructor
    · rintro ⟨i, n, r, ⟨h1, -⟩, p, n2, r2, ⟨h2, h3, -⟩, g, n3, r3, ⟨h4, h5, -⟩, rfl, rfl⟩
      refine ⟨h2, h4, ?_⟩
      rw [h1, h3, h5]
      simp [vec, Width.bytes]
    · rintro ⟨h1, h2, h3⟩
      refine ⟨s.index, 4, _, ⟨h3.trans ?_, rfl⟩, s.path, _, _, ⟨h1, rfl, rfl⟩, s.sig, _, rest, ⟨h2, rfl, rfl⟩, rfl, rfl⟩
      simp [vec, Width.bytes]
  refine ⟨fun h => ?_, fun h => ?_, henc⟩
  · obtain ⟨h1, h2, rfl⟩ := henc.1 h
    exact hdec.2 ⟨h1, h2, rfl⟩
  · obtain ⟨h1, h2, h3⟩ := hdec.1 h
    exact henc.2 ⟨h1, h2, List.append_cancel_right h3⟩

theorem tbs_eq (root : Bytes) (scheme : UInt16) : encodeToBeSigned root scheme = toBeSigned scheme root := rfl

/-- C33: the bytes to be signed are those of the draft, and determine the scheme and the root. -/
theorem C33_tbs (root root' : Bytes) (scheme scheme' : UInt16) :
    encodeToBeSigned root scheme = toBeSigned scheme root ∧
    (encodeToBeSigned root scheme = encodeToBeSigned root' scheme' → root = root' ∧ scheme = scheme') := by
  refine ⟨rfl, fun h => ?_⟩
  unfold encodeToBeSigned at h
  rw [List.append_assoc, List.append_assoc] at h
  have h := List.append_cancel_left h
  obtain ⟨h1, h2⟩ := List.append_inj h (by simp)
  refine ⟨h2, UInt16.toNat_inj.1 (beEnc_inj ?_ ?_ h1)⟩
  · simpa using scheme.toNat_lt
  · simpa using scheme'.toNat_lt

/-- C33: the batcher's scheme is a batch scheme, that of one of the signer's schemes; and the verifier
verifies it with just that scheme. -/
theorem C33_scheme (signer : List UInt16) :
    (∀ base batch, chooseScheme signer = some (base, batch) →
      base ∈ signer ∧ getFromBaseScheme base = some batch ∧ getBatchSchemeInfo batch = some base) ∧
    (chooseScheme signer = none ↔ 0x0403 ∉ signer ∧ 0x0804 ∉ signer) := by
  have hinfo : ∀ base batch, getFromBaseScheme base = some batch → getBatchSchemeInfo batch = some base := by
    intro base batch h
    unfold getFromBaseScheme at h
    split at h
    · rename_i e; cases Option.some.inj h; subst e; rfl
    · split at h
      · rename_i e; cases Option.some.inj h; subst e; rfl
      · cases h
  have hnone : ∀ base, getFromBaseScheme base = none ↔ base ≠ 0x0403 ∧ base ≠ 0x0804 := by
    intro base
    unfold getFromBaseScheme
    split
    · simp_all
    · split <;> simp_all
  have key : ∀ (l : List UInt16) (c : Option (UInt16 × UInt16)),
      (∀ base batch, l.foldl (fun c s => match getFromBaseScheme s with | some b => some (s, b) | none => c) c =
        some (base, batch) → c = some (base, batch) ∨ base ∈ l ∧ getFromBaseScheme base = some batch) ∧
      (l.foldl (fun c s => match getFromBaseScheme s with | some b => some (s, b) | none => c) c = none ↔
        c = none ∧ 0x0403 ∉ l ∧ 0x0804 ∉ l) := by
    intro l
    induction l with
    | nil => intro c; exact ⟨fun _ _ h => .inl h, by simp⟩
    | cons s l ih =>
      intro c
      simp only [List.foldl_cons]
      cases hs : getFromBaseScheme s with
      | none =>
        have hne := (hnone s).1 hs
        refine ⟨fun base batch h => ?_, ?_⟩
        · rcases (ih c).1 base batch h with h | ⟨h1, h2⟩
          · exact .inl h
          · exact .inr ⟨List.mem_cons_of_mem _ h1, h2⟩
        · rw [(ih c).2]
          simp only [List.mem_cons, not_or]
          exact ⟨fun ⟨a, b, d⟩ => ⟨a, ⟨hne.1.symm, b⟩, hne.2.symm, d⟩, fun ⟨a, ⟨_, b⟩, _, d⟩ => ⟨a, b, d⟩⟩
      | some b =>
        refine ⟨fun base batch h => ?_, ?_⟩
        · rcases (ih (some (s, b))).1 base batch h with h | ⟨h1, h2⟩
          · cases Option.some.inj h
            exact .inr ⟨List.mem_cons_self, hs⟩
          · exact .inr ⟨List.mem_cons_of_mem _ h1, h2⟩
        · rw [(ih (some (s, b))).2]
          have : ¬ (s ≠ 0x0403 ∧ s ≠ 0x0804) := fun h => by rw [(hnone s).2 h] at hs; cases hs
          constructor
          · rintro ⟨h, -⟩; cases h
          · rintro ⟨-, h1, h2⟩
            exact absurd ⟨fun e => h1 (by rw [e]; simp), fun e => h2 (by rw [e]; simp)⟩ this
  obtain ⟨k1, k2⟩ := key signer none
  refine ⟨fun base batch h => ?_, ?_⟩
  · rcases k1 base batch h with h | ⟨h1, h2⟩
    · cases h
    · exact ⟨h1, h2, hinfo _ _ h2⟩
  · exact k2.trans (by simp)

/-! ## The batcher -/

theorem history_append (cfg : BatcherCfg) (s : Nat) : ∀ a b, history cfg s (a ++ b) = history cfg s a ++ history cfg s b
  | [], _ => rfl
  | .add th m r :: a, b => by
    simp only [List.cons_append, history, history_append cfg s a b]
    split <;> simp
  | .start _ _ :: a, b => history_append cfg s a b
  | .answer _ _ _ :: a, b => history_append cfg s a b

theorem run_append (cfg : BatcherCfg) : ∀ (a : List BEv) (st : Batcher) (b : List BEv),
    (st.run cfg (a ++ b)).1 = ((st.run cfg a).1.run cfg b).1
  | [], _, _ => rfl
  | e :: a, st, b => by
    simp only [List.cons_append, Batcher.run]
    exact run_append cfg a _ b

theorem leaves_length (l : List (Bytes × Bytes)) : (leaves l).length = 2 * l.length := by
  induction l with
  | nil => rfl
  | cons a l ih =>
    rw [show leaves (a :: l) = [a.1, a.2] ++ leaves l from rfl, List.length_append, ih]
    simp only [List.length_cons, List.length_nil]; omega

theorem leaves_append (l l' : List (Bytes × Bytes)) : leaves (l ++ l') = leaves l ++ leaves l' := by
  simp [leaves]

theorem batch_append {α} {T g : Nat} {l : List α} (x : List α) (h : (g + 1) * T ≤ l.length) :
    batch T (l ++ x) g = batch T l g := by
  unfold batch
  have : g * T ≤ l.length := Nat.le_trans (Nat.mul_le_mul_right _ (by omega)) h
  rw [List.drop_append_of_le_length this, List.take_append_of_le_length]
  rw [List.length_drop]
  rw [Nat.add_mul] at h
  omega

/-- The tree of a list of messages of a batch. -/
def batchTree (cfg : BatcherCfg) (l : List (Bytes × Bytes)) : Tree :=
  appendAll cfg.H (Tree.batch cfg.threshold) (leaves l)

theorem batchTree_append (cfg : BatcherCfg) (l : List (Bytes × Bytes)) (m r : Bytes) (hl : l.length < cfg.threshold) :
    (batchTree cfg l).appendTranscript cfg.H m r = (batchTree cfg (l ++ [(m, r)]), some (2 * l.length)) := by
  unfold Tree.appendTranscript
  have hi : ((batchTree cfg l).append cfg.H m).2 = some (2 * l.length) := by
    have := C32_index (H := cfg.H) (2 * cfg.threshold) (leaves l) m (by rw [leaves_length]; omega)
    rw [leaves_length, if_pos (by omega)] at this
    exact this
  have ht : batchTree cfg (l ++ [(m, r)]) = (((batchTree cfg l).append cfg.H m).1.append cfg.H r).1 := by
    unfold batchTree
    rw [leaves_append]
    unfold appendAll
    rw [List.foldl_append]
    rfl
  simp only [hi, ht]

theorem batchTree_count (cfg : BatcherCfg) (l : List (Bytes × Bytes)) (hl : l.length ≤ cfg.threshold) :
    (batchTree cfg l).countMessages = l.length := by
  have hh := Holds.all (H := cfg.H) (msgs := leaves l) (Holds.empty (2 * cfg.threshold))
    (by rw [leaves_length]; simp; omega)
  unfold Tree.countMessages
  have : (batchTree cfg l).leaves = _ := hh.leaves
  rw [this]
  simp [leaves_length]

/-- What is known of a completed batch. -/
def PhaseOk (cfg : BatcherCfg) (evs : List BEv) (s g : Nat) : Phase → Prop
  | .collecting => (history cfg s evs).length < (g + 1) * cfg.threshold
  | .closed t => (g + 1) * cfg.threshold ≤ (history cfg s evs).length ∧ ¬ Asked cfg s g evs ∧
      t = batchTree cfg (batch cfg.threshold (history cfg s evs) g)
  | .asked f => (g + 1) * cfg.threshold ≤ (history cfg s evs).length ∧ Asked cfg s g evs ∧
      (batchTree cfg (batch cfg.threshold (history cfg s evs) g)).finalize cfg.H = some f
  | .done r => (g + 1) * cfg.threshold ≤ (history cfg s evs).length ∧ Asked cfg s g evs ∧
      ∀ f sig, r = .ok (f, sig) →
        (batchTree cfg (batch cfg.threshold (history cfg s evs) g)).finalize cfg.H = some f

structure BInv (cfg : BatcherCfg) (evs : List BEv) (b : Batcher) : Prop where
  gen : ∀ s, (b.epoch s).gen = (history cfg s evs).length / cfg.threshold
  tree : ∀ s, (b.epoch s).tree =
    batchTree cfg ((history cfg s evs).drop ((history cfg s evs).length / cfg.threshold * cfg.threshold))
  phase : ∀ s g, PhaseOk cfg evs s g (b.phase s g)

theorem BInv.init (cfg : BatcherCfg) (hT : 0 < cfg.threshold) : BInv cfg [] (Batcher.init cfg) := by
  refine ⟨fun s => ?_, fun s => ?_, fun s g => ?_⟩
  · simp [history, Batcher.init]
  · simp only [history, List.drop_nil]; rfl
  · show 0 < (g + 1) * cfg.threshold
    exact Nat.mul_pos (by omega) hT

theorem asked_snoc {cfg : BatcherCfg} {s g evs e} (he : e ≠ .start s g) :
    Asked cfg s g (evs ++ [e]) ↔ Asked cfg s g evs := by
  constructor
  · rintro ⟨a, b, h1, h2⟩
    rcases List.eq_nil_or_concat b with rfl | ⟨b', x, rfl⟩
    · have := List.append_inj_right' (s₂ := a) h1 rfl
      simp at this
      exact absurd this he
    · rw [List.concat_eq_append, ← List.cons_append, ← List.append_assoc] at h1
      have := List.append_inj_left' h1 rfl
      exact ⟨a, b', this, h2⟩
  · rintro ⟨a, b, rfl, h2⟩
    exact ⟨a, b ++ [e], by simp, h2⟩

/-- A phase stays right when other things happen. -/
theorem PhaseOk.later {cfg : BatcherCfg} {evs s g p} (e : BEv) (he : e ≠ .start s g)
    (h : PhaseOk cfg evs s g p)
    (hc : p = .collecting → (history cfg s (evs ++ [e])).length < (g + 1) * cfg.threshold) :
    PhaseOk cfg (evs ++ [e]) s g p := by
  have hl : (history cfg s evs).length ≤ (history cfg s (evs ++ [e])).length := by
    rw [history_append, List.length_append]; omega
  cases p with
  | collecting => exact hc rfl
  | closed t =>
    obtain ⟨h1, h2, h3⟩ := h
    refine ⟨by omega, by rw [asked_snoc he]; exact h2, ?_⟩
    rw [history_append, batch_append _ h1]; exact h3
  | asked f =>
    obtain ⟨h1, h2, h3⟩ := h
    refine ⟨by omega, by rw [asked_snoc he]; exact h2, ?_⟩
    rw [history_append, batch_append _ h1]; exact h3
  | done r =>
    obtain ⟨h1, h2, h3⟩ := h
    refine ⟨by omega, by rw [asked_snoc he]; exact h2, ?_⟩
    rw [history_append, batch_append _ h1]; exact h3

theorem slot_eq (cfg : BatcherCfg) (th : Nat) : cfg.slot th = place cfg th := rfl

theorem add_spec {cfg : BatcherCfg} {evs b} (hT : 0 < cfg.threshold) (inv : BInv cfg evs b) (th : Nat) (m r : Bytes) :
    (b.add cfg th m r).2 = .added (.ok (2 * ((history cfg (place cfg th) evs).length % cfg.threshold),
      place cfg th, (history cfg (place cfg th) evs).length / cfg.threshold)) ∧
    BInv cfg (evs ++ [.add th m r]) (b.add cfg th m r).1 := by
  rw [← slot_eq]
  have hother : ∀ s, s ≠ cfg.slot th → history cfg s (evs ++ [.add th m r]) = history cfg s evs := by
    intro s hs
    rw [history_append]
    simp [history, ← slot_eq, Ne.symm hs]
  have hsame : history cfg (cfg.slot th) (evs ++ [.add th m r]) = history cfg (cfg.slot th) evs ++ [(m, r)] := by
    rw [history_append]
    simp [history, ← slot_eq]
  have hne : ∀ s g, BEv.add th m r ≠ .start s g := by simp
  unfold Batcher.add
  simp only
  have htr := inv.tree (cfg.slot th)
  have hgen := inv.gen (cfg.slot th)
  generalize hs : cfg.slot th = slot at *
  generalize hh : history cfg slot evs = hist at *
  generalize hT' : cfg.threshold = T at *
  have hdm := Nat.div_add_mod hist.length T
  have hmod := Nat.mod_lt hist.length hT
  have hcl : (hist.drop (hist.length / T * T)).length = hist.length % T := by
    rw [List.length_drop, Nat.mul_comm]; omega
  have hdl : hist.length / T * T ≤ hist.length := Nat.div_mul_le_self _ _
  rw [htr, batchTree_append cfg _ m r (by rw [hcl, hT']; exact hmod), hgen]
  simp only
  have hcur : hist.drop (hist.length / T * T) ++ [(m, r)] = (hist ++ [(m, r)]).drop (hist.length / T * T) := by
    rw [List.drop_append_of_le_length hdl]
  rw [batchTree_count cfg _ (by rw [List.length_append, hcl, hT']; simp; omega), List.length_append, hcl]
  simp only [List.length_singleton]
  split
  · rename_i hfull
    have hT1 : hist.length % T + 1 = T := by omega
    have hlen1 : (hist ++ [(m, r)]).length = (hist.length / T + 1) * T := by
      rw [List.length_append, Nat.add_mul, Nat.mul_comm]; simp only [List.length_singleton]; omega
    refine ⟨rfl, ⟨fun s => ?_, fun s => ?_, fun s g => ?_⟩⟩
    · simp only [Batcher.setPhase]
      by_cases h : s = slot
      · subst h
        rw [if_pos rfl, hsame, hlen1, hT', Nat.mul_div_cancel _ hT]
      · rw [if_neg h, hother s h]; exact inv.gen s
    · simp only [Batcher.setPhase]
      by_cases h : s = slot
      · subst h
        rw [if_pos rfl, hsame, hlen1, hT', Nat.mul_div_cancel _ hT, ← hlen1, List.drop_length, ← hT']
        rfl
      · rw [if_neg h, hother s h]; exact inv.tree s
    · simp only [Batcher.setPhase]
      by_cases h : s = slot ∧ g = hist.length / T
      · rw [if_pos h]
        obtain ⟨rfl, rfl⟩ := h
        refine ⟨by rw [hsame, hlen1, hT']; exact Nat.le_refl _, ?_, ?_⟩
        · rw [asked_snoc (hne _ _)]
          rintro ⟨a, c, h1, h2⟩
          have hle : (history cfg s a).length ≤ hist.length := by
            rw [← hh, h1, history_append, List.length_append]; omega
          rw [hT', Nat.add_mul, Nat.mul_comm] at h2
          omega
        · rw [hsame, hcur, hT']
          unfold batch
          rw [List.take_of_length_le]
          rw [List.length_drop, hlen1, Nat.add_mul]; omega
      · rw [if_neg h]
        refine (inv.phase s g).later _ (hne _ _) fun hc => ?_
        have := inv.phase s g
        rw [hc] at this
        have this : (history cfg s evs).length < (g + 1) * cfg.threshold := this
        by_cases hsl : s = slot
        · subst hsl
          rw [hsame, hlen1, hT']
          rw [hh, hT'] at this
          have hg : g ≠ hist.length / T := fun e => h ⟨rfl, e⟩
          refine Nat.mul_lt_mul_of_pos_right ?_ hT
          have : hist.length / T < g + 1 := Nat.div_lt_of_lt_mul (by rw [Nat.mul_comm]; exact this)
          omega
        · rw [hother s hsl]; exact this
  · rename_i hfull
    have hlt : hist.length % T + 1 < T := by omega
    have hdiv : (hist ++ [(m, r)]).length / T = hist.length / T := by
      rw [List.length_append]
      simp only [List.length_singleton]
      have : hist.length + 1 = hist.length % T + 1 + T * (hist.length / T) := by omega
      rw [this, Nat.add_mul_div_left _ _ hT, Nat.div_eq_of_lt hlt]
      omega
    refine ⟨rfl, ⟨fun s => ?_, fun s => ?_, fun s g => ?_⟩⟩
    · simp only
      by_cases h : s = slot
      · subst h
        rw [if_pos rfl, hsame, hT', hdiv]
      · rw [if_neg h, hother s h]; exact inv.gen s
    · simp only
      by_cases h : s = slot
      · subst h
        rw [if_pos rfl, hsame, hT', hdiv, ← hcur]
      · rw [if_neg h, hother s h]; exact inv.tree s
    · refine (inv.phase s g).later _ (hne _ _) fun hc => ?_
      have := inv.phase s g
      simp only at hc
      rw [hc] at this
      have this : (history cfg s evs).length < (g + 1) * cfg.threshold := this
      by_cases hsl : s = slot
      · subst hsl
        rw [hsame, hT']
        rw [hh, hT'] at this
        have h1 : hist.length / T < g + 1 := Nat.div_lt_of_lt_mul (by rw [Nat.mul_comm]; exact this)
        have h2 := Nat.mul_le_mul_right T (show hist.length / T + 1 ≤ g + 1 by omega)
        rw [Nat.add_mul, Nat.mul_comm] at h2
        rw [List.length_append]
        simp only [List.length_singleton]
        omega
      · rw [hother s hsl]; exact this

theorem batch_length {cfg : BatcherCfg} {l : List (Bytes × Bytes)} {g : Nat}
    (h : (g + 1) * cfg.threshold ≤ l.length) : (batch cfg.threshold l g).length = cfg.threshold := by
  unfold batch
  rw [List.length_take, List.length_drop]
  rw [Nat.add_mul] at h
  omega

/-- The finished tree of a batch. -/
theorem batchTree_final (cfg : BatcherCfg) (ok : cfg.H.Ok) (hT : 0 < cfg.threshold) {l : List (Bytes × Bytes)}
    (hl : l.length = cfg.threshold) :
    ∃ f, (batchTree cfg l).finalize cfg.H = some f ∧ f.root = .ok (root cfg.H.spec (leaves l)) ∧
      2 * cfg.threshold ≤ 2 ^ f.height ∧ 2 ^ f.height < 2 * (2 * cfg.threshold) ∧
      ∀ i (hi : i < (leaves l).length), ∃ p, f.path i = .ok p ∧ p.length = f.height * cfg.H.hashLen ∧
        computeRoot cfg.H (leaves l)[i] i p = .ok (root cfg.H.spec (leaves l)) := by
  have hlen : (leaves l).length = 2 * cfg.threshold := by rw [leaves_length, hl]
  have := C32_complete ok (2 * cfg.threshold) (leaves l)
    (by intro h; rw [h] at hlen; simp at hlen; omega) (by omega)
  obtain ⟨f, h1, h2, h3, h4, h5⟩ := this
  rw [hlen] at h3 h4
  exact ⟨f, h1, h2, h3, h4, h5⟩

theorem setPhase_get (b : Batcher) (s g : Nat) (p : Phase) (s' g' : Nat) :
    (b.setPhase s g p).phase s' g' = if s' = s ∧ g' = g then p else b.phase s' g' := rfl

theorem asked_mono {cfg : BatcherCfg} {s g evs} (e : BEv) (h : Asked cfg s g evs) : Asked cfg s g (evs ++ [e]) := by
  obtain ⟨a, b, rfl, h2⟩ := h
  exact ⟨a, b ++ [e], by simp, h2⟩

theorem history_start (cfg : BatcherCfg) (s s' g : Nat) (evs : List BEv) :
    history cfg s (evs ++ [.start s' g]) = history cfg s evs := by
  rw [history_append]; simp [history]

theorem history_answer (cfg : BatcherCfg) (s s' g : Nat) (r : Res (Option Bytes)) (evs : List BEv) :
    history cfg s (evs ++ [.answer s' g r]) = history cfg s evs := by
  rw [history_append]; simp [history]

theorem asked_start {cfg : BatcherCfg} {s g evs} :
    Asked cfg s g (evs ++ [.start s g]) ↔ (g + 1) * cfg.threshold ≤ (history cfg s evs).length := by
  constructor
  · rintro ⟨a, b, h1, h2⟩
    have : history cfg s (evs ++ [.start s g]) = history cfg s (a ++ .start s g :: b) := by rw [h1]
    rw [history_start, history_append] at this
    rw [this, List.length_append]
    omega
  · intro h
    exact ⟨evs, [], rfl, h⟩

theorem start_spec {cfg : BatcherCfg} {evs b} (ok : cfg.H.Ok) (hT : 0 < cfg.threshold) (inv : BInv cfg evs b) (s g : Nat) :
    (((g + 1) * cfg.threshold ≤ (history cfg s evs).length ∧ ¬ Asked cfg s g evs) →
      (b.start cfg s g).2 = .asked (.ok (toBeSigned cfg.scheme
        (root cfg.H.spec (leaves (batch cfg.threshold (history cfg s evs) g)))))) ∧
    (¬ ((g + 1) * cfg.threshold ≤ (history cfg s evs).length ∧ ¬ Asked cfg s g evs) →
      (b.start cfg s g).2 = .nothing) ∧
    BInv cfg (evs ++ [.start s g]) (b.start cfg s g).1 := by
  have hph := inv.phase s g
  -- what stays the same
  have keep : ∀ (b' : Batcher), b'.epoch = b.epoch → (∀ s' g', ¬ (s' = s ∧ g' = g) → b'.phase s' g' = b.phase s' g') →
      PhaseOk cfg (evs ++ [.start s g]) s g (b'.phase s g) → BInv cfg (evs ++ [.start s g]) b' := by
    intro b' he hp hnew
    refine ⟨fun s' => by rw [he, history_start]; exact inv.gen s',
      fun s' => by rw [he, history_start]; exact inv.tree s', fun s' g' => ?_⟩
    by_cases h : s' = s ∧ g' = g
    · obtain ⟨rfl, rfl⟩ := h; exact hnew
    · rw [hp s' g' h]
      refine (inv.phase s' g').later _ (fun e => ?_) (fun hc => ?_)
      · cases e; exact h ⟨rfl, rfl⟩
      · have := inv.phase s' g'
        rw [hc] at this
        rw [history_start]
        exact this
  unfold Batcher.start
  cases hp : b.phase s g with
  | collecting =>
    rw [hp] at hph
    have hph : (history cfg s evs).length < (g + 1) * cfg.threshold := hph
    refine ⟨fun h => by omega, fun _ => rfl, keep b rfl (fun _ _ _ => rfl) ?_⟩
    rw [hp]
    show (history cfg s (evs ++ [.start s g])).length < _
    rw [history_start]; exact hph
  | closed t =>
    rw [hp] at hph
    obtain ⟨h1, h2, h3⟩ := hph
    obtain ⟨f, f1, f2, -⟩ := batchTree_final cfg ok hT (batch_length h1)
    subst h3
    simp only [f1, f2]
    refine ⟨fun _ => rfl, fun h => absurd ⟨h1, h2⟩ h, keep _ rfl (fun s' g' h => ?_) ?_⟩
    · rw [setPhase_get, if_neg h]
    · rw [setPhase_get, if_pos ⟨rfl, rfl⟩]
      refine ⟨?_, asked_start.2 h1, ?_⟩
      · rw [history_start]; exact h1
      · rw [history_start]; exact f1
  | asked f =>
    rw [hp] at hph
    obtain ⟨h1, h2, h3⟩ := hph
    refine ⟨fun h => absurd h2 h.2, fun _ => rfl, keep b rfl (fun _ _ _ => rfl) ?_⟩
    rw [hp]
    exact ⟨by rw [history_start]; exact h1, asked_mono _ h2, by rw [history_start]; exact h3⟩
  | done r =>
    rw [hp] at hph
    obtain ⟨h1, h2, h3⟩ := hph
    refine ⟨fun h => absurd h2 h.2, fun _ => rfl, keep b rfl (fun _ _ _ => rfl) ?_⟩
    rw [hp]
    exact ⟨by rw [history_start]; exact h1, asked_mono _ h2, by rw [history_start]; exact h3⟩

theorem answer_inv {cfg : BatcherCfg} {evs b} (inv : BInv cfg evs b) (s g : Nat) (r : Res (Option Bytes)) :
    BInv cfg (evs ++ [.answer s g r]) (b.answer s g r) := by
  have hne : ∀ s' g', BEv.answer s g r ≠ .start s' g' := by simp
  have old : ∀ s' g', PhaseOk cfg (evs ++ [.answer s g r]) s' g' (b.phase s' g') := fun s' g' =>
    (inv.phase s' g').later _ (hne _ _) (fun hc => by
      have := inv.phase s' g'
      rw [hc] at this
      rw [history_answer]
      exact this)
  unfold Batcher.answer
  split
  · rename_i f hp
    refine ⟨fun s' => by rw [history_answer]; exact inv.gen s',
      fun s' => by rw [history_answer]; exact inv.tree s', fun s' g' => ?_⟩
    rw [setPhase_get]
    split
    · rename_i h
      obtain ⟨rfl, rfl⟩ := h
      have := old s' g'
      rw [hp] at this
      obtain ⟨h1, h2, h3⟩ := this
      refine ⟨h1, h2, fun f' sig h => ?_⟩
      split at h
      · cases Except.ok.inj h; exact h3
      · cases h
      · cases h
    · exact old s' g'
  · exact ⟨fun s' => by rw [history_answer]; exact inv.gen s',
      fun s' => by rw [history_answer]; exact inv.tree s', old⟩

theorem run_binv {cfg : BatcherCfg} (ok : cfg.H.Ok) (hT : 0 < cfg.threshold) : ∀ (es : List BEv) {evs b},
    BInv cfg evs b → BInv cfg (evs ++ es) (b.run cfg es).1
  | [], _, _, inv => by simpa [Batcher.run] using inv
  | e :: es, evs, b, inv => by
    have h1 : BInv cfg (evs ++ [e]) (b.step cfg e).1 := by
      cases e with
      | add th m r => exact (add_spec hT inv th m r).2
      | start s g => exact (start_spec ok hT inv s g).2.2
      | answer s g r => exact answer_inv inv s g r
    have := run_binv ok hT es h1
    rw [List.append_assoc] at this
    exact this

theorem reach_binv {cfg : BatcherCfg} (ok : cfg.H.Ok) (hT : 0 < cfg.threshold) (evs : List BEv) :
    BInv cfg evs ((Batcher.init cfg).run cfg evs).1 := by
  have := run_binv ok hT evs (BInv.init cfg hT)
  simpa using this

/-- C33: whatever the threads have done so far, a call of `addMessageAndSign` succeeds; the message becomes
the next one of its slot: with `n` before it, number `n % threshold` of batch `n / threshold`. -/
theorem C33_add (cfg : BatcherCfg) (ok : cfg.H.Ok) (hT : 0 < cfg.threshold) (evs : List BEv) (th : Nat) (m r : Bytes) :
    (((Batcher.init cfg).run cfg evs).1.step cfg (.add th m r)).2 =
      .added (.ok (2 * ((history cfg (place cfg th) evs).length % cfg.threshold), place cfg th,
        (history cfg (place cfg th) evs).length / cfg.threshold)) :=
  (add_spec hT (reach_binv ok hT evs) th m r).1

/-- C33: a batch is handed to the signer when it has reached the threshold, once, and what is signed is
the root of the tree of exactly its messages (and their random leaves). -/
theorem C33_sign (cfg : BatcherCfg) (ok : cfg.H.Ok) (hT : 0 < cfg.threshold) (evs : List BEv) (s g : Nat) :
    (((g + 1) * cfg.threshold ≤ (history cfg s evs).length ∧ ¬ Asked cfg s g evs) →
      (((Batcher.init cfg).run cfg evs).1.step cfg (.start s g)).2 = .asked (.ok (toBeSigned cfg.scheme
        (root cfg.H.spec (leaves (batch cfg.threshold (history cfg s evs) g)))))) ∧
    (¬ ((g + 1) * cfg.threshold ≤ (history cfg s evs).length ∧ ¬ Asked cfg s g evs) →
      (((Batcher.init cfg).run cfg evs).1.step cfg (.start s g)).2 = .nothing) := by
  have := start_spec ok hT (reach_binv ok hT evs) s g
  exact ⟨this.1, this.2.1⟩

/-- C33: with a threshold of zero no message can be added. -/
theorem C33_zero (cfg : BatcherCfg) (hT : cfg.threshold = 0) (evs : List BEv) (th : Nat) (m r : Bytes) :
    (((Batcher.init cfg).run cfg evs).1.step cfg (.add th m r)).2 =
      .added (.error (Failure.rt "Cannot append more TLS transcripts into the Merkle Tree")) := by
  have hfull : ∀ (t : Tree) x, t.maxLeaves = 0 → t.append cfg.H x = (t, none) := by
    intro t x h
    unfold Tree.append
    rw [if_pos (by omega)]
  have hstep : ∀ (b : Batcher), (∀ s, (b.epoch s).tree.maxLeaves = 0) → ∀ e,
      ∀ s, ((b.step cfg e).1.epoch s).tree.maxLeaves = 0 := by
    intro b hb e s
    cases e with
    | add th m r =>
      simp only [Batcher.step, Batcher.add, Tree.appendTranscript, hfull _ _ (hb _)]
      split
      · exact hb _
      · exact hb _
    | start s' g =>
      simp only [Batcher.step, Batcher.start]
      split
      · split
        · exact hb s
        · split <;> exact hb s
      · exact hb s
    | answer s' g r =>
      simp only [Batcher.step, Batcher.answer]
      split <;> exact hb s
  have hrun : ∀ (evs : List BEv) (b : Batcher), (∀ s, (b.epoch s).tree.maxLeaves = 0) →
      ∀ s, ((b.run cfg evs).1.epoch s).tree.maxLeaves = 0 := by
    intro evs
    induction evs with
    | nil => intro b hb s; exact hb s
    | cons e evs ih => intro b hb s; exact ih _ (hstep b hb e) s
  have := hrun evs (Batcher.init cfg) (fun s => by simp [Batcher.init, Tree.batch, hT])
  simp only [Batcher.step, Batcher.add, Tree.appendTranscript, hfull _ _ (this _)]

/-! ## Signing and verifying -/

theorem leaves_get {l : List (Bytes × Bytes)} {k : Nat} (hk : k < l.length) :
    (leaves l)[2 * k]'(by rw [leaves_length]; omega) = l[k].1 := by
  induction l generalizing k with
  | nil => simp at hk
  | cons a l ih =>
    cases k with
    | zero => rfl
    | succ k =>
      have := ih (k := k) (by simpa using hk)
      rw [List.getElem_cons_succ, ← this]
      rfl

/-- C33: the signature made for a message is the encoding of a batch signature which the verifier accepts
for that message exactly if the base certificate accepts the signer's signature on the root of the batch. -/
theorem C33_verifies (cfg : BatcherCfg) (ok : cfg.H.Ok) (hT : 0 < cfg.threshold) (hmax : cfg.threshold ≤ 2 ^ 31)
    (hlen : 32 * cfg.H.hashLen < 2 ^ 16) (pre post : List BEv) (th : Nat) (m r : Bytes) (i s g : Nat)
    (hadd : (((Batcher.init cfg).run cfg pre).1.step cfg (.add th m r)).2 = .added (.ok (i, s, g)))
    (f : Tree) (sig : Bytes) (hsig : sig.length < 2 ^ 16)
    (hdone : ((Batcher.init cfg).run cfg (pre ++ .add th m r :: post)).1.phase s g = .done (.ok (f, sig)))
    (base : UInt16 → Bytes → Bytes → Res Unit) (b : UInt16) (hb : getBatchSchemeInfo cfg.scheme = some b) :
    ∃ wire, finishSign f i sig = .ok wire ∧
      peerVerify cfg.H base cfg.scheme m wire = base b (toBeSigned cfg.scheme
        (root cfg.H.spec (leaves (batch cfg.threshold (history cfg s (pre ++ .add th m r :: post)) g)))) sig := by
  have h0 := C33_add cfg ok hT pre th m r
  rw [h0] at hadd
  obtain ⟨rfl, rfl, rfl⟩ : 2 * ((history cfg (place cfg th) pre).length % cfg.threshold) = i ∧ place cfg th = s ∧
      (history cfg (place cfg th) pre).length / cfg.threshold = g := by simpa using hadd
  have inv := (reach_binv ok hT (pre ++ .add th m r :: post)).phase (place cfg th)
    ((history cfg (place cfg th) pre).length / cfg.threshold)
  rw [hdone] at inv
  obtain ⟨i1, -, i3⟩ := inv
  have i3 := i3 f sig rfl
  generalize hh : history cfg (place cfg th) pre = hist at *
  have hhist : history cfg (place cfg th) (pre ++ .add th m r :: post) = hist ++ ((m, r) :: history cfg (place cfg th) post) := by
    rw [history_append, hh]
    simp [history]
  have hbl := batch_length i1
  generalize hbt : batch cfg.threshold (history cfg (place cfg th) (pre ++ .add th m r :: post)) (hist.length / cfg.threshold) = bt at *
  have hmod := Nat.mod_lt hist.length hT
  have hdm := Nat.div_add_mod hist.length cfg.threshold
  have hget : bt[hist.length % cfg.threshold]'(by omega) = (m, r) := by
    subst hbt
    unfold batch
    simp only [List.getElem_take, List.getElem_drop, hhist]
    have e : hist.length / cfg.threshold * cfg.threshold + hist.length % cfg.threshold = hist.length := by
      rw [Nat.mul_comm]; omega
    simp only [e]
    rw [List.getElem_append_right (by omega)]
    simp
  obtain ⟨f', f1, -, f3, f4, f5⟩ := batchTree_final cfg ok hT hbl
  rw [i3] at f1
  cases Option.some.inj f1
  obtain ⟨p, p1, p2, p3⟩ := f5 (2 * (hist.length % cfg.threshold)) (by rw [leaves_length]; omega)
  rw [leaves_get (by omega), hget] at p3
  have hht : f.height ≤ 32 := by
    rcases Nat.lt_or_ge 32 f.height with h | h
    · have : 2 ^ 33 ≤ 2 ^ f.height := Nat.pow_le_pow_right (by omega) h
      omega
    · exact h
  have hidx : (UInt32.ofNat (2 * (hist.length % cfg.threshold))).toNat = 2 * (hist.length % cfg.threshold) := by
    rw [UInt32.toNat_ofNat']
    exact Nat.mod_eq_of_lt (by omega)
  have hpl : p.length ≤ 32 * cfg.H.hashLen := by rw [p2]; exact Nat.mul_le_mul_right _ hht
  obtain ⟨w, hw⟩ : ∃ w, BatchSig.encode ⟨UInt32.ofNat (2 * (hist.length % cfg.threshold)), p, sig⟩ = .ok w :=
    ⟨_, ((C33_codec _ _ []).2.2).2 ⟨by simp only; omega, hsig, rfl⟩⟩
  refine ⟨w, ?_, ?_⟩
  · unfold finishSign
    simp only [hidx, p1]
    exact hw
  · have hd := (C33_codec _ w []).1 hw
    rw [List.append_nil] at hd
    unfold peerVerify
    rw [hb]
    simp only [batchSigVerify, hd, Res.ok_bind, hidx]
    rw [if_neg (by omega), if_neg (by rw [p2, Nat.mul_div_cancel _ ok.pos]; omega), p3]
    rfl

/-- C33: if the base certificate accepts, as batch signatures of this scheme, only what the batcher has had
signed, then every message accepted with a batch signature is a leaf of a completed batch, unless a collision
of the hash function has been found. -/
theorem C33_sound (cfg : BatcherCfg) (ok : cfg.H.Ok) (hT : 0 < cfg.threshold) (evs : List BEv)
    (base : UInt16 → Bytes → Bytes → Res Unit) (b : UInt16) (hb : getBatchSchemeInfo cfg.scheme = some b)
    (hbase : ∀ R sig, base b (toBeSigned cfg.scheme R) sig = .ok () →
      ∃ s g, (g + 1) * cfg.threshold ≤ (history cfg s evs).length ∧ toBeSigned cfg.scheme R =
        toBeSigned cfg.scheme (root cfg.H.spec (leaves (batch cfg.threshold (history cfg s evs) g))))
    (m wire : Bytes) (hacc : peerVerify cfg.H base cfg.scheme m wire = .ok ())
    (hnc : ∀ s g d rest, BatchSig.decode wire = .ok (d, rest) →
      NoClash cfg.H.spec (treeInputs cfg.H.spec (leaves (batch cfg.threshold (history cfg s evs) g)))
        (checkInputs cfg.H.spec m d.index.toNat d.path)) :
    ∃ s g, (g + 1) * cfg.threshold ≤ (history cfg s evs).length ∧
      m ∈ leaves (batch cfg.threshold (history cfg s evs) g) := by
  unfold peerVerify at hacc
  rw [hb] at hacc
  simp only [batchSigVerify] at hacc
  rw [Res.bind_eq_ok] at hacc
  obtain ⟨⟨d, rest⟩, hd, hacc⟩ := hacc
  simp only at hacc
  split at hacc
  · cases hacc
  split at hacc
  · cases hacc
  rw [Res.bind_eq_ok] at hacc
  obtain ⟨R, hR, hacc⟩ := hacc
  obtain ⟨s, g, h1, h2⟩ := hbase R d.sig hacc
  have hroot := ((C33_tbs R _ cfg.scheme cfg.scheme).2 h2).1
  rw [hroot] at hR
  have hl := batch_length (cfg := cfg) h1
  have := C32_sound ok (leaves (batch cfg.threshold (history cfg s evs) g))
    (fun h => by
      have := leaves_length (batch cfg.threshold (history cfg s evs) g)
      rw [h, hl] at this
      simp at this
      omega)
    m d.index.toNat d.path hR (hnc s g d rest hd)
  exact ⟨s, g, h1, this.1⟩

/-! Two threads, a shared epoch, batches of two: the third message waits in the second batch. -/

/-- The batcher of the example. -/
def demoBatcher : BatcherCfg := { H := toyHash, threshold := 2, shared := true, scheme := 0xFE00 }
def demoEvents : List BEv :=
  [.add 1 [1] [9], .add 2 [2] [8], .add 1 [3] [7], .start 0 0, .answer 0 0 (.ok (some [5, 5]))]

example : ((Batcher.init demoBatcher).run demoBatcher demoEvents).2.map (fun o => match o with
    | .added r => some r
    | _ => none) =
    [some (.ok (0, 0, 0)), some (.ok (2, 0, 0)), some (.ok (0, 0, 1)), none, none] := by decide +kernel

/-- The second message's signature in the example. -/
def demoSig : Res Bytes :=
  match ((Batcher.init demoBatcher).run demoBatcher demoEvents).1.phase 0 0 with
  | .done (.ok (f, sig)) => finishSign f 2 sig
  | _ => .error .abort

example : (demoSig.bind fun w => peerVerify toyHash
    (fun s tbs sig => if s = 0x0403 ∧ sig = [5, 5] ∧ tbs = toBeSigned 0xFE00
      (root toyHash.spec [[1], [9], [2], [8]]) then .ok () else .error .abort) 0xFE00 [2] w) = .ok () := by
  decide +kernel

end Fizz.Batch
