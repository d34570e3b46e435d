import Verif.Channel.Keys
import Verif.Server.Props2
import Verif.ClientSM.Props2

/-!
# The first application keys of each end are those of the handshake (C78)
-/

namespace Fizz.Server
open Fizz.Channel Fizz.Codec Fizz.Record

/-- The keys of a longer history begin with those of a shorter one. -/
theorem keys_append (kind : SecretKind) (newer older : List Step) :
    Hist.keys kind (newer ++ older) = Hist.keys kind older ++ Hist.keys kind newer := by
  unfold Hist.keys
  simp

/-- The hash stays once there is an application key. -/
theorem hash_stays {cfg : Cfg} (hok : ∀ c a, cfg.hashOf c = .ok a → a.Ok) {newer older s s'}
    (hr : Run cfg (newer ++ older) s) (hr' : Run cfg older s') (hk : Hist.keys .serverAppTraffic older ≠ []) :
    hashUsed cfg s = hashUsed cfg s' := by
  induction newer generalizing s with
  | nil => rw [hr.det hr']
  | cons x n ih =>
    obtain ⟨r1, r2, r3, -⟩ := Run.split (newer := []) (older := n ++ older) hr
    have := r2.det hr
    subst this
    rw [← ih r1]
    refine hashUsed_same (cipher_keep r3 ?_)
    cases hf : freshW x.pre with
    | false => rfl
    | true =>
      have := (run_sender hok r1).last.1 hf
      rw [keys_append] at this
      exact absurd (List.append_eq_nil_iff.1 this).1 hk

/-- The step that fixes the parameters. -/
theorem negotiated_step {cfg : Cfg} (hok : ∀ c a, cfg.hashOf c = .ok a → a.Ok) {x : Step} {older s g}
    (hr : Run cfg (x :: older) s) (hg : Spec.Negotiated cfg older x g) :
    Hist.keys .serverAppTraffic (x :: older) = [g.serverApp 0] ∧ hashUsed cfg s = some g.hash.spec := by
  obtain ⟨r1, r2, r3, -⟩ := Run.split (newer := []) hr
  have := r2.det hr
  subst this
  have hst := hg.state
  have hann := hg.secrets
  have hk : Hist.keys .serverAppTraffic older = [] :=
    (run_sender hok r1).last.1 (by rw [freshW_of hst]; rfl)
  have e1 : Hist.keys .serverAppTraffic (x :: older) = [g.serverApp 0] := by
    rw [show x :: older = [x] ++ older from rfl, keys_append, hk]
    unfold Hist.keys ofKind
    simp only [List.reverse_cons, List.reverse_nil, List.nil_append, List.flatMap_cons, List.flatMap_nil, List.append_nil, hann]
    cases g.early <;> rfl
  refine ⟨e1, ?_⟩
  obtain ⟨m0, orig0, ht0, hs0, hu0, -⟩ := hg.hello
  have hcip := hg.cipher
  have hhash := hg.hash
  rw [hu0] at hcip
  obtain ⟨T, i, p, A⟩ := x
  simp only at *
  subst ht0
  generalize hgen : Conn.Trig.sock = T at r3
  cases r3 with
  | hello h1 h2 h3 =>
    rcases hello_view hok r1 h2 hst h3 with ⟨g', hg', ha⟩ | ⟨h4, -⟩
    · obtain ⟨m1, orig1, -, hs1, hu1, -⟩ := hg'.hello
      have hc1 := hg'.cipher
      simp only at hs1
      rw [hs0] at hs1
      cases hs1
      rw [hu1] at hc1
      rw [hc1] at hcip
      have hce := Option.some.inj hcip
      refine hashUsed_some (c := g'.cipher) ?_ (by rw [hce]; exact hhash)
      exact ha.cipher
    · rw [h4] at hann
      cases g.early <;> simp at hann
  | @fail _ a _ =>
    obtain ⟨h1, -⟩ := fail_view (t := .sock) (i := i) (s := p) (s' := p) (a := a) (b := i.inp.alertFails)
    rw [h1] at hann
    cases g.early <;> simp at hann
  | accept hs => rw [hst] at hs; cases hs
  | ticket hs => rw [hst] at hs; cases hs
  | finished hs => rw [hst] at hs; cases hs
  | keyUpdateInitiation hs => rw [hst] at hs; cases hs
  | keyUpdate hs => rw [hst] at hs; cases hs
  | keyUpdateAnswered hs => rw [hst] at hs; cases hs
  | _ =>
    have hann : [] = _ := hann
    cases g.early <;> simp at hann

/-- Every way the parameters are fixed names the first key of the server, and the hash. -/
theorem fixed_first {cfg : Cfg} (hok : ∀ c a, cfg.hashOf c = .ok a → a.Ok) {h s g}
    (hr : Run cfg h s) (hf : Spec.Fixed cfg h g) :
    (Hist.keys .serverAppTraffic h)[0]? = some (g.serverApp 0) ∧ hashUsed cfg s = some g.hash.spec := by
  obtain ⟨newer, x, older, rfl, hg⟩ := hf
  obtain ⟨-, r2, -⟩ := hr.split
  obtain ⟨h1, h2⟩ := negotiated_step hok r2 hg
  rw [hash_stays hok hr r2 (by rw [h1]; simp), keys_append, h1]
  exact ⟨rfl, h2⟩

/-- A KeyUpdate that changes keys is received after the handshake. -/
theorem update_late {cfg : Cfg} {x : Step} (hsh : Shape cfg x.env x.pre x.trig x.acts) {m orig}
    (hm : Spec.received x = some (.keyUpdate m, orig)) (ha : Spec.announced x ≠ []) : x.pre.state = .acceptingData := by
  obtain ⟨T, i, p, A⟩ := x
  simp only at *
  cases hsh with
  | @fail _ a _ =>
    obtain ⟨h1, -⟩ := fail_view (t := T) (i := i) (s := p) (s' := p) (a := a) (b := i.inp.alertFails)
    exact absurd h1 ha
  | @hello m' o u _ h1 h2 _ =>
    unfold Spec.received at hm
    simp only [h2] at hm
    split at hm
    all_goals simp at hm
  | finished h1 h2 =>
    unfold Spec.received at hm
    simp only [h2] at hm
    split at hm
    all_goals simp at hm
  | ticket h1 => exact h1
  | keyUpdateInitiation h1 => exact h1
  | keyUpdate h1 => exact h1
  | keyUpdateAnswered h1 => exact h1
  | _ => exact absurd rfl ha

/-- The first application key of the client, as the server has it. -/
theorem client_first {cfg : Cfg} (hok : ∀ c a, cfg.hashOf c = .ok a → a.Ok) {h s} (hr : Run cfg h s) :
    Hist.keys .clientAppTraffic h = [] ∨
    ∃ g, Spec.Fixed cfg h g ∧ (Hist.keys .clientAppTraffic h)[0]? = some (g.clientApp 0) := by
  induction h generalizing s with
  | nil => exact .inl rfl
  | cons x h ih =>
    obtain ⟨r1, r2, r3, -⟩ := Run.split (newer := []) hr
    have hi := run_inv hok r1
    have e : Hist.keys .clientAppTraffic (x :: h) =
        Hist.keys .clientAppTraffic h ++ ofKind .clientAppTraffic (Spec.announced x) := by
      unfold Hist.keys; rw [hist_cons]
    rw [e]
    rcases ih r1 with h0 | ⟨g, hg, h0⟩
    · rw [h0, List.nil_append]
      have hq : RLayer.key .appTraffic x.pre.read = none := by
        cases hk : RLayer.key .appTraffic x.pre.read with
        | none => rfl
        | some Z =>
          obtain ⟨P, hP⟩ := (run_receiver hok r1).last.2 Z hk
          rw [h0] at hP
          simp at hP
      by_cases ha : Spec.announced x = []
      · rw [ha]; exact .inl rfl
      · rcases C50_announced hok (newer := []) hr ha with ⟨g, hg⟩ | ⟨g, hg, h5 | h5 | h5 | h5⟩
        · rw [hg.secrets]
          left
          cases g.early <;> rfl
        · rw [h5.2]
          exact .inr ⟨g, hg.cons x, rfl⟩
        · rw [h5.2]
          exact .inl rfl
        all_goals
          obtain ⟨m, orig, hm, -⟩ := h5
          obtain ⟨g', hg'⟩ := hi.data (update_late r3 hm ha)
          rw [hg'.read] at hq
          cases hq
    · refine .inr ⟨g, hg.cons x, ?_⟩
      rw [List.getElem?_append_left]
      · exact h0
      · rw [List.getElem?_eq_some_iff] at h0; exact h0.1

end Fizz.Server

namespace Fizz.ClientSM
open Fizz.Channel Fizz.Codec Fizz.Record


/-- The keys of a longer history begin with those of a shorter one. -/
theorem keys_append (kind : SecretKind) (newer older : List Step) :
    Hist.keys kind (newer ++ older) = Hist.keys kind older ++ Hist.keys kind newer := by
  unfold Hist.keys
  simp

/-- The hash stays once there is an application key. -/
theorem hash_stays {cfg : Cfg} (hok : ∀ c a, cfg.hashOf c = .ok a → a.Ok) {newer older s s'}
    (hr : Run cfg (newer ++ older) s) (hr' : Run cfg older s') (hk : Hist.keys .clientAppTraffic older ≠ []) :
    hashUsed cfg s = hashUsed cfg s' := by
  induction newer generalizing s with
  | nil => rw [hr.det hr']
  | cons x n ih =>
    obtain ⟨r1, r2, r3, -⟩ := Run.split (newer := []) (older := n ++ older) hr
    have := r2.det hr
    subst this
    rw [← ih r1]
    refine hashUsed_same (cipher_keep r3 ?_)
    cases hf : fresh x.pre with
    | false => rfl
    | true =>
      have := (run_sender hok r1).last.1 hf
      rw [keys_append] at this
      exact absurd (List.append_eq_nil_iff.1 this).1 hk

/-- When the client reports success it has accepted the server's Finished, and the first application keys it announces,
in either direction, are those of the handshake. -/
theorem success_first {cfg : Cfg} (hok : ∀ c a, cfg.hashOf c = .ok a → a.Ok) {newer y older s}
    (hr : Run cfg (newer ++ y :: older) s) {b : Bool} (hs : .reportHandshakeSuccess b ∈ y.acts) :
    ∃ g m orig, Spec.Fixed cfg older g ∧ Spec.received y = some (.finished m, orig) ∧
      m.verify_data = Server.Spec.finishedMac g.hash.spec g.serverHandshake (g.hash.digest (Spec.transcript cfg older)) ∧
      (Hist.keys .clientAppTraffic (newer ++ y :: older))[0]? =
        some (g.clientApp (g.hash.digest (Spec.transcript cfg older ++ orig)) 0) ∧
      (Hist.keys .serverAppTraffic (newer ++ y :: older))[0]? =
        some (g.serverApp (g.hash.digest (Spec.transcript cfg older ++ orig)) 0) ∧
      hashUsed cfg s = some g.hash.spec := by
  obtain ⟨r1, r2, r3, -⟩ := hr.split
  have hi := run_inv hok r1
  obtain ⟨m, orig, u, d, ht, hst, hsock, hp, hech, hb, hacts⟩ := shape_success r3 hs
  obtain ⟨g, hg⟩ := hi.mid (.inr (.inr (.inr hst)))
  obtain ⟨early, he, hen⟩ := hg.encrypted (by rw [hst]; simp)
  obtain ⟨rfl, f1, f2⟩ := finished_facts hok hg hst he hp
  have hann : Spec.announced y = [(.serverAppTraffic, d.read), (.clientAppTraffic, d.write),
      (.exporterMaster, d.exporter), (.resumptionMaster, d.resumption)] := by
    unfold Spec.announced; rw [hacts]; rfl
  have hpost : Spec.post y = { saveFinished cfg d y.pre with state := .established } := by
    unfold Spec.post; rw [hacts]; rfl
  have hf : fresh y.pre = true := by rw [fresh_of hst]; rfl
  have k1 : Hist.keys .clientAppTraffic (y :: older) = [d.write] := by
    rw [show y :: older = [y] ++ older from rfl, keys_append, (run_sender hok r1).last.1 hf]
    unfold Hist.keys
    simp [hann]
  have k2 : Hist.keys .serverAppTraffic (y :: older) = [d.read] := by
    rw [show y :: older = [y] ++ older from rfl, keys_append, (run_receiver hok r1).last.1 hf]
    unfold Hist.keys
    simp [hann]
  refine ⟨g, m, orig, hg.fixed, ?_, f1, ?_, ?_, ?_⟩
  · unfold Spec.received
    rw [ht, hsock, hacts]
    rfl
  · rw [keys_append, k1, f2.write]; rfl
  · rw [keys_append, k2, f2.read]; rfl
  · rw [hash_stays hok hr r2 (by rw [k1]; simp)]
    refine hashUsed_some (c := g.cipher) ?_ (Fixed.hash hg.fixed)
    rw [hpost]
    exact hg.info.cipher

end Fizz.ClientSM
