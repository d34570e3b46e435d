import Verif.Channel.Early

/-!
# The application keys of a direction follow from the first one (C78)
-/

namespace Fizz.Channel
open Fizz.Codec Fizz.Record Fizz.Crypto

/-- RFC 8446 section 7.2: the next application traffic secret. -/
def nextKey (h : Crypto.Spec.Hash) (Z : Bytes) : Bytes :=
  Crypto.Spec.ExpandLabel h Z (KS.Spec.ascii "traffic upd") [] (UInt16.ofNat h.L)

/-- Each key is the one after the key before it. -/
def Ladder (h : Crypto.Spec.Hash) (keys : List Bytes) : Prop :=
  ∀ (i : Nat) Z Y, keys[i]? = some Z → keys[i + 1]? = some Y → Y = nextKey h Z

/-- What a step announces: nothing; the first key; or the key after the current one. -/
def Climbs (hash : Option Crypto.Spec.Hash) (v : Bool) (k : Option Bytes) (ann : List Bytes) : Prop :=
  ann = [] ∨ (v = true ∧ ∃ Z, ann = [Z]) ∨ ∃ Z h, k = some Z ∧ hash = some h ∧ ann = [nextKey h Z]

/-- The keys so far. -/
def Climbed (hash : Option Crypto.Spec.Hash) (keys : List Bytes) : Prop :=
  keys.length ≤ 1 ∨ ∃ h, hash = some h ∧ Ladder h keys

theorem ladder_snoc {h keys Z} (hl : Ladder h (keys ++ [Z])) : Ladder h (keys ++ [Z] ++ [nextKey h Z]) := by
  intro i A B h1 h2
  by_cases hi : i + 1 < (keys ++ [Z]).length
  · rw [List.getElem?_append_left hi] at h2
    rw [List.getElem?_append_left (by omega)] at h1
    exact hl i A B h1 h2
  · have hlen : i + 1 < (keys ++ [Z] ++ [nextKey h Z]).length := by
      rw [List.getElem?_eq_some_iff] at h2; exact h2.1
    have hi' : i = keys.length := by simp at hi hlen; omega
    subst hi'
    have e1 : (keys ++ [Z] ++ [nextKey h Z])[keys.length]? = some Z := by simp
    have e2 : (keys ++ [Z] ++ [nextKey h Z])[keys.length + 1]? = some (nextKey h Z) := by simp
    rw [e1] at h1
    rw [e2] at h2
    cases h1; cases h2; rfl

theorem Climbed.step {hash hash' v k keys ann} (h : Climbed hash keys) (hk : Climbs hash v k ann)
    (hf : v = true → keys = []) (hl : ∀ Z, k = some Z → ∃ P, keys = P ++ [Z]) (hs : keys ≠ [] → hash' = hash) :
    Climbed hash' (keys ++ ann) := by
  rcases hk with rfl | ⟨hv, Z, rfl⟩ | ⟨Z, H, rfl, rfl, rfl⟩
  · rw [List.append_nil]
    rcases h with h | ⟨H, h1, h2⟩
    · exact .inl h
    · cases keys with
      | nil => exact .inl (by simp)
      | cons a l => exact .inr ⟨H, by rw [hs (by simp)]; exact h1, h2⟩
  · rw [hf hv]; exact .inl (by simp)
  · obtain ⟨P, rfl⟩ := hl Z rfl
    refine .inr ⟨H, hs (by simp), ?_⟩
    refine ladder_snoc ?_
    rcases h with h | ⟨H', h1, h2⟩
    · have : P = [] := by
        simp only [List.length_append, List.length_singleton] at h
        exact List.eq_nil_of_length_eq_zero (by omega)
      subst this
      intro i A B h1 h2
      simp at h2
    · cases h1; exact h2

/-- Two ladders with the same first step. -/
theorem ladders {h : Crypto.Spec.Hash} {a b : List Bytes} (ha : Ladder h a) (hb : Ladder h b)
    (h0 : ∀ Z Y, a[0]? = some Z → b[0]? = some Y → Z = Y) :
    ∀ (i : Nat) Z Y, a[i]? = some Z → b[i]? = some Y → Z = Y := by
  intro i
  induction i with
  | zero => exact h0
  | succ i ih =>
    intro Z Y h1 h2
    have e1 : ∃ Z', a[i]? = some Z' := by
      rw [List.getElem?_eq_some_iff] at h1
      obtain ⟨h1, -⟩ := h1
      exact ⟨_, List.getElem?_eq_getElem (by omega)⟩
    have e2 : ∃ Y', b[i]? = some Y' := by
      rw [List.getElem?_eq_some_iff] at h2
      obtain ⟨h2, -⟩ := h2
      exact ⟨_, List.getElem?_eq_getElem (by omega)⟩
    obtain ⟨Z', e1⟩ := e1
    obtain ⟨Y', e2⟩ := e2
    rw [ha i Z' Z e1 h1, hb i Y' Y e2 h2, ih Z' Y' e1 e2]

/-- The keys of both ends agree if the first ones do and the ends use the same hash. -/
theorem climbed_agree {ha hb : Option Crypto.Spec.Hash} {a b : List Bytes} (h1 : Climbed ha a) (h2 : Climbed hb b)
    (hh : ∀ x y, ha = some x → hb = some y → x = y) (h0 : ∀ Z Y, a[0]? = some Z → b[0]? = some Y → Z = Y) :
    ∀ (i : Nat) Z Y, a[i]? = some Z → b[i]? = some Y → Z = Y := by
  have short : ∀ {l : List Bytes} {i : Nat} {Z}, l.length ≤ 1 → l[i]? = some Z → i = 0 := by
    intro l i Z hl h
    rw [List.getElem?_eq_some_iff] at h
    obtain ⟨h, -⟩ := h
    omega
  rcases h1 with h1 | ⟨x, rfl, h1⟩
  · intro i Z Y e1 e2
    have := short h1 e1
    subst this
    exact h0 Z Y e1 e2
  · rcases h2 with h2 | ⟨y, rfl, h2⟩
    · intro i Z Y e1 e2
      have := short h2 e2
      subst this
      exact h0 Z Y e1 e2
    · have := hh x y rfl rfl
      subst this
      exact ladders h1 h2 h0

theorem Sender.last {keys sent v k} (h : Sender keys sent v k) :
    (v = true → keys = []) ∧ ∀ Z, k = some Z → ∃ P, keys = P ++ [Z] := by
  obtain ⟨W, rfl, rfl, -, h4, h5⟩ := h
  refine ⟨fun h => by rw [h4 h]; rfl, ?_⟩
  intro Z hZ
  obtain ⟨P, cs, rfl, -⟩ := h5 Z hZ
  exact ⟨P.map (·.1), by simp⟩

theorem Receiver.last {keys sent v k} (h : Receiver keys sent v k) :
    (v = true → keys = []) ∧ ∀ Z, k = some Z → ∃ P, keys = P ++ [Z] := by
  obtain ⟨W, rfl, rfl, -, h4, h5⟩ := h
  refine ⟨fun h => by rw [h4 h]; rfl, ?_⟩
  intro Z hZ
  obtain ⟨P, cs, rfl⟩ := h5 Z hZ
  exact ⟨P.map (·.1), by simp⟩

end Fizz.Channel

namespace Fizz.Server
open Fizz.Channel Fizz.Codec Fizz.Record

/-- The hash of the cipher suite a connection has settled for. -/
def hashUsed (cfg : Cfg) (s : St) : Option Crypto.Spec.Hash :=
  match s.cipher with
  | some c => (match cfg.hashOf c with | .ok h => some h.spec | .error _ => none)
  | none => none

theorem hashUsed_some {cfg : Cfg} {s : St} {c h} (h1 : s.cipher = some c) (h2 : cfg.hashOf c = .ok h) :
    hashUsed cfg s = some h.spec := by
  unfold hashUsed; rw [h1]; simp only [h2]

theorem hashUsed_same {cfg : Cfg} {s s' : St} (h : s'.cipher = s.cipher) : hashUsed cfg s' = hashUsed cfg s := by
  unfold hashUsed; rw [h]

theorem cipher_keep {cfg : Cfg} {i p t A} (hsh : Shape cfg i p t A) (hf : freshW p = false) :
    (applyAll A p).cipher = p.cipher := by
  cases hsh with
  | @fail _ a _ =>
    obtain ⟨-, -, h3⟩ := fail_view (t := t) (i := i) (s := p) (s' := p) (a := a) (b := i.inp.alertFails)
    rw [h3]; rfl
  | accept hs => rw [freshW_of hs] at hf; cases hf
  | hello hst => rw [freshW_of hst] at hf; cases hf
  | @ticket tok _ h1 h2 =>
    rcases ticket_frame h2 with rfl | ⟨w, enc, hw, rfl, -⟩
    · rfl
    · rfl
  | @finished m orig ctx secret ha hc ks ks' cipher version read rms nst h1 h2 h3 h4 h5 h6 h7 h8 h9 h10 h11 h12 h13 h14 =>
    obtain ⟨-, -, e3, -⟩ := finished_view (read := read) (ks := ks') h14
    rw [e3]; rfl
  | _ => rfl

theorem step_climbs {cfg : Cfg} (hok : ∀ c a, cfg.hashOf c = .ok a → a.Ok) {x : Step} {h s}
    (hr : Run cfg (x :: h) s) :
    Climbs (hashUsed cfg x.pre) (freshW x.pre) (WLayer.key .appTraffic x.pre.write)
      (ofKind .serverAppTraffic (Spec.announced x)) ∧
    Climbs (hashUsed cfg x.pre) (freshR x.pre) (RLayer.key .appTraffic x.pre.read)
      (ofKind .clientAppTraffic (Spec.announced x)) := by
  obtain ⟨r1, r2, r3, -⟩ := hr.split (newer := [])
  have hi := run_inv hok r1
  obtain ⟨T, i, p, A⟩ := x
  simp only at *
  cases r3 with
  | @fail _ a _ =>
    obtain ⟨h1, -⟩ := fail_view (t := T) (i := i) (s := p) (s' := p) (a := a) (b := i.inp.alertFails)
    rw [h1]; exact ⟨.inl rfl, .inl rfl⟩
  | @ticket tok _ h1 h2 =>
    rcases ticket_frame h2 with rfl | ⟨w, enc, hw, rfl, -⟩
    · exact ⟨.inl rfl, .inl rfl⟩
    · exact ⟨.inl rfl, .inl rfl⟩
  | hello hst hs hsh =>
    have hf : freshW p = true := by rw [freshW_of hst]; rfl
    rcases hello_view hok r1 hs hst hsh with ⟨g, hg, ha⟩ | ⟨h1, -⟩
    · rw [hg.secrets]
      cases g.early <;> exact ⟨.inr (.inl ⟨hf, _, rfl⟩), .inl rfl⟩
    · rw [h1]; exact ⟨.inl rfl, .inl rfl⟩
  | @finished m orig ctx secret ha hc ks ks' cipher version read rms nst h1 h2 h3 h4 h5 h6 h7 h8 h9 h10 h11 h12 h13 h14 =>
    obtain ⟨e1, -⟩ := finished_view (read := read) (ks := ks') h14
    rw [e1]
    exact ⟨.inl rfl, .inr (.inl ⟨by rw [freshR_of h1]; rfl, _, rfl⟩)⟩
  | keyUpdateInitiation h1 h2 h3 h4 h5 h6 =>
    obtain ⟨g, hg⟩ := hi.data h1
    obtain ⟨rfl, hh, rfl⟩ := schedule_facts hg h5
    obtain ⟨-, rfl⟩ := nextWrite_facts (hok _ _ hh) h6
    exact ⟨.inr (.inr ⟨_, _, by rw [hg.write]; rfl, hashUsed_some hg.cipher hh, rfl⟩), .inl rfl⟩
  | @keyUpdate m o ha ks ks' secret h1 h2 h3 h4 h5 =>
    obtain ⟨g, hg⟩ := hi.data h1
    obtain ⟨rfl, hh, rfl⟩ := schedule_facts hg h4
    obtain ⟨-, rfl⟩ := nextRead_facts (hok _ _ hh) h5
    exact ⟨.inl rfl, .inr (.inr ⟨_, _, by rw [hg.read]; rfl, hashUsed_some hg.cipher hh, rfl⟩)⟩
  | @keyUpdateAnswered m o ha ks ks' ks'' enc w read write h1 h2 h3 h4 h5 h6 h7 h8 =>
    obtain ⟨g, hg⟩ := hi.data h1
    obtain ⟨rfl, hh, rfl⟩ := schedule_facts hg h4
    obtain ⟨rfl, rfl⟩ := nextRead_facts (hok _ _ hh) h5
    obtain ⟨-, rfl⟩ := nextWrite_facts (hok _ _ hh) h8
    exact ⟨.inr (.inr ⟨_, _, by rw [hg.write]; rfl, hashUsed_some hg.cipher hh, rfl⟩),
      .inr (.inr ⟨_, _, by rw [hg.read]; rfl, hashUsed_some hg.cipher hh, rfl⟩)⟩
  | _ => exact ⟨.inl rfl, .inl rfl⟩

theorem run_climbed {cfg : Cfg} (hok : ∀ c a, cfg.hashOf c = .ok a → a.Ok) {h s} (hr : Run cfg h s) :
    Climbed (hashUsed cfg s) (Hist.keys .serverAppTraffic h) ∧ Climbed (hashUsed cfg s) (Hist.keys .clientAppTraffic h) := by
  induction h generalizing s with
  | nil => exact ⟨.inl (by simp [Hist.keys]), .inl (by simp [Hist.keys])⟩
  | cons x h ih =>
    obtain ⟨r1, r2, r3, -⟩ := hr.split (newer := [])
    have := r2.det hr
    subst this
    obtain ⟨i1, i2⟩ := ih r1
    obtain ⟨s1, s2⟩ := step_climbs hok hr
    obtain ⟨w1, w2⟩ := (run_sender hok r1).last
    obtain ⟨q1, q2⟩ := (run_receiver hok r1).last
    unfold Hist.keys
    rw [hist_cons, hist_cons]
    have hk : freshW x.pre = false → hashUsed cfg (Spec.post x) = hashUsed cfg x.pre :=
      fun hf => hashUsed_same (cipher_keep r3 hf)
    refine ⟨i1.step s1 w1 w2 fun hne => hk ?_, i2.step s2 q1 q2 fun hne => hk ?_⟩
    · cases hf : freshW x.pre with
      | false => rfl
      | true => exact absurd (w1 hf) hne
    · cases hf : freshW x.pre with
      | false => rfl
      | true => exact absurd (q1 (by unfold freshR; rw [hf]; rfl)) hne

end Fizz.Server

namespace Fizz.ClientSM
open Fizz.Channel Fizz.Codec Fizz.Record
open Fizz.Server (Level RLayer WLayer Content SockIn content alertContent)

/-- The hash of the cipher suite a connection has settled for. -/
def hashUsed (cfg : Cfg) (s : St) : Option Crypto.Spec.Hash :=
  match s.cipher with
  | some c => (match cfg.hashOf c with | .ok h => some h.spec | .error _ => none)
  | none => none

theorem hashUsed_some {cfg : Cfg} {s : St} {c h} (h1 : s.cipher = some c) (h2 : cfg.hashOf c = .ok h) :
    hashUsed cfg s = some h.spec := by
  unfold hashUsed; rw [h1]; simp only [h2]

theorem hashUsed_same {cfg : Cfg} {s s' : St} (h : s'.cipher = s.cipher) : hashUsed cfg s' = hashUsed cfg s := by
  unfold hashUsed; rw [h]

theorem cipher_keep {cfg : Cfg} {i p t A} (hsh : Shape cfg i p t A) (hf : fresh p = false) :
    (applyAll A p).cipher = p.cipher := by
  cases hsh with
  | @fail _ a b _ =>
    obtain ⟨-, -, h3⟩ := fail_view (t := t) (i := i) (s := p) (s' := p) (a := a) (b := b)
    rw [h3]; rfl
  | connect hs => rw [fresh_of hs] at hf; cases hf
  | retry hs => rw [fresh_of hs] at hf; cases hf
  | serverHello hs => rw [fresh_of hs] at hf; cases hf
  | encryptedExtensions hs => rw [fresh_of hs] at hf; cases hf
  | finished hs => rw [fresh_of hs] at hf; cases hf
  | ticket hs _ ha =>
    obtain ⟨psk, rfl⟩ := ticket_shape ha
    rfl
  | _ => rfl

theorem step_climbs {cfg : Cfg} (hok : ∀ c a, cfg.hashOf c = .ok a → a.Ok) {x : Step} {h s}
    (hr : Run cfg (x :: h) s) :
    Climbs (hashUsed cfg x.pre) (fresh x.pre) (WLayer.key .appTraffic x.pre.write)
      (((Spec.announced x).filter (·.1 = .clientAppTraffic)).map (·.2)) ∧
    Climbs (hashUsed cfg x.pre) (fresh x.pre) (RLayer.key .appTraffic x.pre.read)
      (((Spec.announced x).filter (·.1 = .serverAppTraffic)).map (·.2)) := by
  obtain ⟨r1, r2, r3, -⟩ := hr.split (newer := [])
  have hi := run_inv hok r1
  obtain ⟨T, i, p, A⟩ := x
  simp only at *
  cases r3 with
  | @fail _ a b _ =>
    obtain ⟨h1, -⟩ := fail_view (t := T) (i := i) (s := p) (s' := p) (a := a) (b := b)
    rw [h1]; exact ⟨.inl rfl, .inl rfl⟩
  | @connect c hs =>
    obtain ⟨h1, h2, -⟩ := connect_view (cfg := cfg) (c := c) (i := i) (p := p)
    rw [h1, h2]; exact ⟨.inl rfl, .inl rfl⟩
  | @encryptedExtensions _ _ _ _ _ _ _ retry t hs => cases retry <;> exact ⟨.inl rfl, .inl rfl⟩
  | @finished m orig u d hs _ hd =>
    obtain ⟨g, hg⟩ := hi.mid (.inr (.inr (.inr hs)))
    obtain ⟨e1, -⟩ := finished_view hg hs hd rfl
    rw [e1, fresh_of hs]
    exact ⟨.inr (.inl ⟨rfl, _, rfl⟩), .inr (.inl ⟨rfl, _, rfl⟩)⟩
  | ticket hs _ ha =>
    obtain ⟨psk, rfl⟩ := ticket_shape ha
    exact ⟨.inl rfl, .inl rfl⟩
  | keyUpdateInitiation h1 h2 h3 h4 h5 h6 =>
    obtain ⟨g, th, e, hg⟩ := hi.live h1
    obtain ⟨rfl, hh, rfl⟩ := schedule_facts hg h5
    obtain ⟨-, rfl⟩ := nextWrite_facts (hok _ _ hh) h6
    exact ⟨.inr (.inr ⟨_, _, by rw [hg.write]; rfl, hashUsed_some hg.info.cipher hh, rfl⟩), .inl rfl⟩
  | @keyUpdate m o ha ks ks' secret h1 h2 h3 h4 h5 =>
    obtain ⟨g, th, e, hg⟩ := hi.live h1
    obtain ⟨rfl, hh, rfl⟩ := schedule_facts hg h4
    obtain ⟨-, rfl⟩ := nextRead_facts (hok _ _ hh) h5
    exact ⟨.inl rfl, .inr (.inr ⟨_, _, by rw [hg.read]; rfl, hashUsed_some hg.info.cipher hh, rfl⟩)⟩
  | @keyUpdateAnswered m o ha ks ks' ks'' enc w read write h1 h2 h3 h4 h5 h6 h7 h8 =>
    obtain ⟨g, th, e, hg⟩ := hi.live h1
    obtain ⟨rfl, hh, rfl⟩ := schedule_facts hg h4
    obtain ⟨rfl, rfl⟩ := nextRead_facts (hok _ _ hh) h5
    obtain ⟨-, rfl⟩ := nextWrite_facts (hok _ _ hh) h8
    exact ⟨.inr (.inr ⟨_, _, by rw [hg.write]; rfl, hashUsed_some hg.info.cipher hh, rfl⟩),
      .inr (.inr ⟨_, _, by rw [hg.read]; rfl, hashUsed_some hg.info.cipher hh, rfl⟩)⟩
  | _ => exact ⟨.inl rfl, .inl rfl⟩

theorem run_climbed {cfg : Cfg} (hok : ∀ c a, cfg.hashOf c = .ok a → a.Ok) {h s} (hr : Run cfg h s) :
    Climbed (hashUsed cfg s) (Hist.keys .clientAppTraffic h) ∧ Climbed (hashUsed cfg s) (Hist.keys .serverAppTraffic h) := by
  induction h generalizing s with
  | nil => exact ⟨.inl (by simp [Hist.keys]), .inl (by simp [Hist.keys])⟩
  | cons x h ih =>
    obtain ⟨r1, r2, r3, -⟩ := hr.split (newer := [])
    have := r2.det hr
    subst this
    obtain ⟨i1, i2⟩ := ih r1
    obtain ⟨s1, s2⟩ := step_climbs hok hr
    obtain ⟨w1, w2⟩ := (run_sender hok r1).last
    obtain ⟨q1, q2⟩ := (run_receiver hok r1).last
    unfold Hist.keys
    rw [hist_cons, hist_cons]
    have hk : fresh x.pre = false → hashUsed cfg (Spec.post x) = hashUsed cfg x.pre :=
      fun hf => hashUsed_same (cipher_keep r3 hf)
    refine ⟨i1.step s1 w1 w2 fun hne => hk ?_, i2.step s2 q1 q2 fun hne => hk ?_⟩
    · cases hf : fresh x.pre with
      | false => rfl
      | true => exact absurd (w1 hf) hne
    · cases hf : fresh x.pre with
      | false => rfl
      | true => exact absurd (q1 hf) hne

end Fizz.ClientSM
