import Verif.KeyLog.Model
import Verif.Channel.First
import Verif.Agree.Params

/-! # C101: what the key logs of the two ends say -/

namespace Fizz.KeyLog.Spec
open Fizz Fizz.KS Fizz.Text Fizz.Codec

/-- The secret `b` of type `t` was announced together with the client random `r`. -/
def Announces (e : KeyLog.Seen) (r : Random) (t : SecretType) (b : Bytes) : Prop :=
  e.clientRandom = some r ∧ e.secret = b ∧ (∀ l, secretToNSSLabel t = some l → e.label = l) ∧
    ∀ c ∈ e.calls, c.2 = b

end Fizz.KeyLog.Spec

namespace Fizz.KeyLog
open Fizz Fizz.KS Fizz.Text Fizz.Codec

theorem announces_onSecret {cb r t b} : Spec.Announces (onSecret cb (some r) t b) r t b := by
  refine ⟨rfl, rfl, fun l hl => ?_, fun c hc => ?_⟩
  · simp [onSecret, probeLabel, hl]
  · unfold onSecret secretAvailable at hc
    dsimp only at hc
    split at hc
    · split at hc
      · cases List.mem_singleton.1 hc; rfl
      · cases hc
    · cases hc

/-- C101: every secret has its own function of the callback, which is called exactly once, with the secret; only the
ECH confirmations, which protect nothing, are not announced. -/
theorem C101_callback :
    (∀ t c, visit t = some c ↔ ∀ b, secretAvailable true t b = [(c, b)]) ∧
    (∀ t t' c, visit t = some c → visit t' = some c → t = t') ∧
    (∀ t, visit t = none ↔ t = .early .echAcceptConfirmation ∨ t = .early .hrrEchAcceptConfirmation ∨
      t = .handshake .echAcceptConfirmation) ∧
    (∀ c, ∃ t, visit t = some c) ∧
    (∀ t b, secretAvailable false t b = []) := by
  refine ⟨fun t c => ⟨fun h b => by simp [secretAvailable, h], fun h => ?_⟩, ?_, ?_, ?_, fun _ _ => rfl⟩
  · have := h []
    unfold secretAvailable at this
    rw [if_pos rfl] at this
    split at this
    · rename_i c' h'
      simp only [List.cons.injEq, Prod.mk.injEq, and_true] at this
      rw [h', this]
    · cases this
  · intro t t' c h1 h2
    rcases t with t | t | t | t <;> rcases t' with t' | t' | t' | t' <;> cases t <;> cases t' <;>
      first | rfl | (exfalso; revert h1 h2; cases c <;> decide)
  · intro t
    rcases t with t | t | t | t <;> cases t <;> simp [visit]
  · intro c
    cases c
    · exact ⟨.early .externalPskBinder, rfl⟩
    · exact ⟨.early .resumptionPskBinder, rfl⟩
    · exact ⟨.early .clientEarlyTraffic, rfl⟩
    · exact ⟨.early .earlyExporter, rfl⟩
    · exact ⟨.handshake .clientHandshakeTraffic, rfl⟩
    · exact ⟨.handshake .serverHandshakeTraffic, rfl⟩
    · exact ⟨.master .exporterMaster, rfl⟩
    · exact ⟨.master .resumptionMaster, rfl⟩
    · exact ⟨.app .clientAppTraffic, rfl⟩
    · exact ⟨.app .serverAppTraffic, rfl⟩

end Fizz.KeyLog

namespace Fizz.Server
open Fizz Fizz.Codec Fizz.Crypto Fizz.KS Fizz.Text
open Spec (Neg)

/-- The entries of a list of actions that all carry the random `r`. -/
theorem logged_const {cb r} : ∀ {acts : List Action} {s : St}, s.clientRandom = r →
    (∀ f, .mutate f ∈ acts → ∀ s, (f s).clientRandom = s.clientRandom) →
    logged cb s acts = (acts.flatMap Spec.announcement).map fun a => KeyLog.onSecret cb r a.1.type a.2
  | [], _, _, _ => rfl
  | a :: as, s, hs, hm => by
    cases a with
    | mutate f =>
      exact logged_const (acts := as) (by rw [hm f (by simp), hs]) fun g hg => hm g (List.mem_cons_of_mem _ hg)
    | secretAvailable k b =>
      have := logged_const (cb := cb) (acts := as) hs fun g hg => hm g (List.mem_cons_of_mem _ hg)
      simp only [logged, this, hs, List.flatMap_cons, Spec.announcement, List.singleton_append, List.map_cons]
    | _ => exact logged_const (acts := as) hs fun g hg => hm g (List.mem_cons_of_mem _ hg)

theorem logged_append {cb} : ∀ {a b : List Action} {s : St},
    logged cb s (a ++ b) = logged cb s a ++ logged cb (applyAll a s) b
  | [], _, _ => rfl
  | x :: a, b, s => by
    cases x with
    | mutate f => exact logged_append (a := a)
    | secretAvailable k v =>
      simp only [List.cons_append, logged, logged_append (a := a), List.cons_append]; rfl
    | _ => exact logged_append (a := a)

/-- Nothing is logged without an announcement, whatever happens to the state. -/
theorem logged_nil {cb} : ∀ {acts : List Action} {s : St}, acts.flatMap Spec.announcement = [] →
    logged cb s acts = []
  | [], _, _ => rfl
  | a :: as, s, h => by
    cases a with
    | secretAvailable k b => simp [Spec.announcement] at h
    | _ => exact logged_nil (acts := as) (by simpa [Spec.announcement] using h)

theorem ticket_mutates {cfg inp s rms tok acts} (h : generateTicket cfg inp s rms tok = .ok acts) {f}
    (hf : .mutate f ∈ acts) : False := by
  rcases ticket_shape h with rfl | ⟨w, rs, tk, lt, exts, -, -, -, -, rfl⟩ <;> simp at hf

theorem hello_logged {cb cfg q f w} (s : St) :
    logged cb s (helloActions cfg q f w) =
      ((helloActions cfg q f w).flatMap Spec.announcement).map fun a =>
        KeyLog.onSecret cb (applyAll (helloActions cfg q f w) s).clientRandom a.1.type a.2 := by
  unfold helloActions
  cases q.early with
  | none => rfl
  | some e =>
    simp only
    split_ifs <;> rfl

/-- Within a step every entry carries the random the state has at its end. -/
theorem step_logged {cb} {cfg i p t A} (hsh : Shape cfg i p t A) :
    logged cb p A = (A.flatMap Spec.announcement).map fun a =>
      KeyLog.onSecret cb (applyAll A p).clientRandom a.1.type a.2 := by
  have nil : ∀ {l : List Action} {s : St} {r}, l.flatMap Spec.announcement = [] → logged cb s l =
      (l.flatMap Spec.announcement).map fun a => KeyLog.onSecret cb r a.1.type a.2 := by
    intro l s r h; rw [logged_nil h, h]; rfl
  cases hsh with
  | @fail _ a _ =>
    apply nil
    simp only [List.flatMap_cons, List.flatMap_append, alertWrites]
    repeat' split
    all_goals rfl
  | hello hst hs hsh =>
    cases hsh with
    | fallback => rfl
    | retry h1 h2 h3 h4 h5 =>
      unfold sendRetry at h5
      simp only [Res.bind_eq_ok] at h5
      obtain ⟨_, -, mh, -, hrr, -, hrr', -, enc, -, w, -, h5⟩ := h5
      rw [← pure_eq_ok.1 h5]
      rfl
    | noKex => exact hello_logged p
    | kex => exact hello_logged p
  | ticket h1 h2 => exact nil (announced_ticket h2)
  | @finished m orig ctx secret ha hc ks ks' cipher version read rms nst h1 h2 h3 h4 h5 h6 h7 h8 h9 h10 h11 h12 h13 h14 =>
    have key : (applyAll (finishedActions cfg read rms ks' nst) p).clientRandom = p.clientRandom := by
      obtain ⟨-, -, e3, -⟩ := finished_view (read := read) (ks := ks') h14
      rw [e3]; rfl
    rw [key]
    refine logged_const rfl fun f hf s => ?_
    unfold finishedActions at hf
    unfold finishedTicket at h14
    split_ifs at hf h14
    · simp only [List.mem_append, List.mem_cons, Action.mutate.injEq, List.not_mem_nil, or_false, transition,
        reduceCtorEq] at hf
      rcases hf with (rfl | rfl) | h
      · rfl
      · rfl
      · exact (ticket_mutates h14 h).elim
    · simp only [List.mem_cons, Action.mutate.injEq, List.not_mem_nil, or_false, transition, reduceCtorEq, false_or] at hf
      rcases hf with rfl | rfl <;> rfl
  | _ => rfl

theorem random_keep {cfg : Cfg} {i p t A} (hsh : Shape cfg i p t A) (hf : freshW p = false) :
    (applyAll A p).clientRandom = p.clientRandom := by
  cases hsh with
  | @fail _ a _ =>
    obtain ⟨-, -, h3⟩ := fail_view (t := t) (i := i) (s := p) (s' := p) (a := a) (b := i.inp.alertFails)
    rw [h3]; rfl
  | accept hs => rw [freshW_of hs] at hf; cases hf
  | hello hst => rw [freshW_of hst] at hf; cases hf
  | @ticket tok _ h1 h2 =>
    rcases ticket_frame h2 with rfl | ⟨w, enc, hw, rfl, -⟩
    · rfl
    · rfl
  | @finished m orig ctx secret ha hc ks ks' cipher version read rms nst h1 h2 h3 h4 h5 h6 h7 h8 h9 h10 h11 h12 h13 h14 =>
    obtain ⟨-, -, e3, -⟩ := finished_view (read := read) (ks := ks') h14
    rw [e3]; rfl
  | _ => rfl

/-- The client random stays once there is an application key. -/
theorem random_stays {cfg : Cfg} (hok : ∀ c a, cfg.hashOf c = .ok a → a.Ok) {newer older s s'}
    (hr : Run cfg (newer ++ older) s) (hr' : Run cfg older s') (hk : Hist.keys .serverAppTraffic older ≠ []) :
    s.clientRandom = s'.clientRandom := by
  induction newer generalizing s with
  | nil => rw [hr.det hr']
  | cons x n ih =>
    obtain ⟨r1, r2, r3, -⟩ := Run.split (newer := []) (older := n ++ older) hr
    have := r2.det hr
    subst this
    rw [← ih r1]
    refine random_keep r3 ?_
    cases hf : freshW x.pre with
    | false => rfl
    | true =>
      have := (run_sender hok r1).last.1 hf
      rw [keys_append] at this
      exact absurd (List.append_eq_nil_iff.1 this).1 hk

/-- The client random of a negotiated connection. -/
theorem fixed_random {cfg : Cfg} (hok : ∀ c a, cfg.hashOf c = .ok a → a.Ok) {h s g} (hr : Run cfg h s)
    (hg : Spec.Fixed cfg h g) : s.clientRandom = some g.used.1.random := by
  obtain ⟨newer, x, older, rfl, hn⟩ := hg
  obtain ⟨r1, r2, r3, -⟩ := hr.split
  have hk := (negotiated_step hok r2 hn).1
  rw [random_stays hok hr r2 (by rw [hk]; simp)]
  have hst := hn.state
  have hann := hn.secrets
  obtain ⟨m0, orig0, ht0, hs0, hu0, -⟩ := hn.hello
  obtain ⟨T, i, p, A⟩ := x
  simp only at *
  subst ht0
  generalize hgen : Conn.Trig.sock = T at r3
  cases r3 with
  | hello h1 h2 h3 =>
    rcases hello_view hok r1 h2 hst h3 with ⟨g', hg', ha⟩ | ⟨h4, -⟩
    · obtain ⟨m1, orig1, -, hs1, hu1, -⟩ := hg'.hello
      simp only at hs1
      rw [hs0] at hs1
      cases hs1
      have : g'.used = g.used := by rw [hu1, hu0]
      rw [← this]
      exact ha.info.clientRandom
    · rw [h4] at hann
      cases g.early <;> simp at hann
  | @fail _ a _ =>
    obtain ⟨h1, -⟩ := fail_view (t := .sock) (i := i) (s := p) (s' := p) (a := a) (b := i.inp.alertFails)
    rw [h1] at hann
    cases g.early <;> simp at hann
  | accept hs => rw [hst] at hs; cases hs
  | ticket hs => rw [hst] at hs; cases hs
  | finished hs => rw [hst] at hs; cases hs
  | keyUpdateInitiation hs => rw [hst] at hs; cases hs
  | keyUpdate hs => rw [hst] at hs; cases hs
  | keyUpdateAnswered hs => rw [hst] at hs; cases hs
  | _ =>
    have hann : [] = _ := hann
    cases g.early <;> simp at hann

/-- C101: whatever secret a server announces, in whichever step of whatever history: the parameters of the connection are fixed
by then, and the trace point and the callback get the secrets of the step (those of `C50_announced`), in order, each
with its label and function, and with the client random of the ClientHello the connection is based on — the inner one if ECH
was accepted, the same one in every step. -/
theorem C101_server {cfg : Cfg} (hok : ∀ c a, cfg.hashOf c = .ok a → a.Ok) {newer y older s}
    (hr : Run cfg (newer ++ y :: older) s) (cb : Bool) :
    (Spec.announced y ≠ [] → ∃ g, Spec.Fixed cfg (y :: older) g) ∧
    ∀ g, Spec.Fixed cfg (newer ++ y :: older) g →
      List.Forall₂ (fun e a => KeyLog.Spec.Announces e g.used.1.random a.1.type a.2 ∧
          e.calls = KeyLog.secretAvailable cb a.1.type a.2)
        (logged cb y.pre y.acts) (Spec.announced y) := by
  have hfix : Spec.announced y ≠ [] → ∃ g, Spec.Fixed cfg (y :: older) g := by
    intro h
    rcases C50_announced hok hr h with ⟨g, hg⟩ | ⟨g, ⟨n, x, o, rfl, hg⟩, -⟩
    · exact ⟨g, [], y, older, rfl, hg⟩
    · exact ⟨g, y :: n, x, o, rfl, hg⟩
  refine ⟨hfix, fun g hg => ?_⟩
  obtain ⟨r1, r2, r3, -⟩ := hr.split
  rw [step_logged r3]
  by_cases hne : Spec.announced y = []
  · rw [show y.acts.flatMap Spec.announcement = [] from hne, hne]; exact .nil
  · obtain ⟨g', hg'⟩ := hfix hne
    have e1 := fixed_random hok r2 hg'
    have e2 := fixed_random hok hr hg
    have e3 : s.clientRandom = some g'.used.1.random := by
      refine fixed_random hok hr ?_
      obtain ⟨n, x, o, h1, h2⟩ := hg'
      exact ⟨newer ++ n, x, o, by rw [h1]; simp, h2⟩
    have e : (applyAll y.acts y.pre).clientRandom = some g.used.1.random := by
      rw [← e2, e3]; exact e1
    rw [e, List.forall₂_map_left_iff]
    refine List.forall₂_same.2 fun a _ => ⟨KeyLog.announces_onSecret, rfl⟩
end Fizz.Server

namespace Fizz.ClientSM
open Fizz Fizz.Codec Fizz.Crypto Fizz.KS Fizz.Text Fizz.Server.Spec
open Spec (Offer Public Neg)

theorem logged_const {cb r} : ∀ {acts : List Action} {s : St}, s.clientRandom = r →
    (∀ f, .mutate f ∈ acts → ∀ s, (f s).clientRandom = s.clientRandom) →
    logged cb s acts = (acts.flatMap Spec.announcement).map fun a => KeyLog.onSecret cb r a.1.type a.2
  | [], _, _, _ => rfl
  | a :: as, s, hs, hm => by
    cases a with
    | mutate f =>
      exact logged_const (acts := as) (by rw [hm f (by simp), hs]) fun g hg => hm g (List.mem_cons_of_mem _ hg)
    | secretAvailable k b =>
      have := logged_const (cb := cb) (acts := as) hs fun g hg => hm g (List.mem_cons_of_mem _ hg)
      simp only [logged, this, hs, List.flatMap_cons, Spec.announcement, List.singleton_append, List.map_cons]
    | _ => exact logged_const (acts := as) hs fun g hg => hm g (List.mem_cons_of_mem _ hg)

theorem logged_nil {cb} : ∀ {acts : List Action} {s : St}, acts.flatMap Spec.announcement = [] →
    logged cb s acts = []
  | [], _, _ => rfl
  | a :: as, s, h => by
    cases a with
    | secretAvailable k b => simp [Spec.announcement] at h
    | _ => exact logged_nil (acts := as) (by simpa [Spec.announcement] using h)

/-- Within a step every entry carries the random the state has at its end. -/
theorem step_logged {cb} {cfg i p t A} (hsh : Shape cfg i p t A) :
    logged cb p A = (A.flatMap Spec.announcement).map fun a =>
      KeyLog.onSecret cb (applyAll A p).clientRandom a.1.type a.2 := by
  have nil : ∀ {l : List Action} {s : St} {r}, l.flatMap Spec.announcement = [] → logged cb s l =
      (l.flatMap Spec.announcement).map fun a => KeyLog.onSecret cb r a.1.type a.2 := by
    intro l s r h; rw [logged_nil h, h]; rfl
  cases hsh with
  | @fail _ a b _ =>
    apply nil
    simp only [List.flatMap_cons, List.flatMap_append, alertWrites]
    repeat' split
    all_goals rfl
  | @connect c hs hc =>
    unfold connectActions
    cases c.params <;> cases c.early <;> rfl
  | @encryptedExtensions _ _ _ _ _ _ _ retry t hs =>
    apply nil
    cases retry <;> rfl
  | @finished m orig u d hs _ hd =>
    unfold finalReport handleError
    split_ifs <;> first | rfl | (unfold alertWrites; repeat' split) <;> rfl
  | ticket hs _ ha =>
    obtain ⟨psk, rfl⟩ := ticket_shape ha
    rfl
  | _ => rfl

theorem uninit_back {cfg i p t A} (hsh : Shape cfg i p t A) (h : (applyAll A p).state = .uninitialized) :
    p.state = .uninitialized ∧ (t = .accept → A = []) := by
  cases hsh with
  | nothing => exact ⟨h, fun _ => rfl⟩
  | @fail _ a b _ =>
    obtain ⟨-, -, h3⟩ := fail_view (t := t) (i := i) (s := p) (s' := p) (a := a) (b := b)
    rw [h3] at h; cases h
  | report hs => rw [show (applyAll _ p).state = p.state from rfl, hs] at h; cases h
  | @connect c hs hc =>
    exfalso
    unfold connectActions at h
    cases hp : c.params <;> cases he : c.early <;> (rw [hp, he] at h; cases h)
  | @encryptedExtensions _ _ _ _ _ _ _ retry t hs =>
    exfalso
    cases retry <;> cases t <;> cases h
  | @finished m orig u d hs _ hd =>
    exfalso
    unfold finalReport handleError at h
    split_ifs at h <;> first | (cases h; done) | (unfold alertWrites at h; revert h; repeat' split) <;> (intro h; cases h)
  | ticket hs _ ha =>
    obtain ⟨psk, rfl⟩ := ticket_shape ha
    exact ⟨h, nofun⟩
  | _ => first | (exfalso; cases h; done) | exact ⟨h, nofun⟩

/-- A client connects at most once. -/
theorem connect_once {cfg : Cfg} {h s} (hr : Run cfg h s) {x : Step} (hx : x ∈ h) (hc : Spec.connects x)
    (ha : x.acts ≠ []) : s.state ≠ .uninitialized := by
  obtain ⟨newer, older, rfl⟩ := List.append_of_mem hx
  induction newer generalizing s with
  | nil =>
    obtain ⟨-, r2, r3, -⟩ := Run.split (newer := []) hr
    rw [hr.det r2]
    intro hs
    exact ha ((uninit_back r3 hs).2 hc.1)
  | cons y n ih =>
    obtain ⟨r1, r2, r3, -⟩ := Run.split (newer := []) (older := n ++ x :: older) hr
    rw [hr.det r2]
    intro hs
    exact ih r1 (by simp) (uninit_back r3 hs).1

theorem connect_unique {cfg : Cfg} {h s} (hr : Run cfg h s) {x y : Step} (hx : x ∈ h) (hy : y ∈ h)
    (cx : Spec.connects x) (cy : Spec.connects y) (ax : x.acts ≠ []) (ay : y.acts ≠ []) : x = y := by
  obtain ⟨newer, older, rfl⟩ := List.append_of_mem hx
  obtain ⟨r1, -, -, -⟩ := hr.split
  rcases List.mem_append.1 hy with hn | hn
  · obtain ⟨n1, n2, rfl⟩ := List.append_of_mem hn
    have : n1 ++ y :: n2 ++ x :: older = n1 ++ y :: (n2 ++ x :: older) := by simp
    rw [this] at hr
    obtain ⟨q1, -, -, -⟩ := hr.split
    exact absurd cy.2 (connect_once q1 (by simp) cx ax)
  · rcases List.mem_cons.1 hn with rfl | hn
    · rfl
    · exact absurd cx.2 (connect_once r1 hn cy ay)

/-- The randoms of an offer are those of the connecting step. -/
theorem offered_random {cfg h o1 o p} (ho : Spec.Offered cfg h o1 o p) : ∃ x ∈ h, Spec.connects x ∧ x.acts ≠ [] ∧
    o.random = x.env.inp.random ∧ o1.random = x.env.inp.random ∧
    (cfg.hasEchConfigs = true → p.random = x.env.inp.random2) := by
  induction ho with
  | @first h x o p hf =>
    refine ⟨x, by simp, hf.connects, fun he => ?_, hf.random, hf.random, fun hh => (hf.name hh).2⟩
    have := hf.layer
    rw [Spec.contents, he] at this
    cases this
  | second _ h2 ih =>
    obtain ⟨x, hx, hc, ha, h3, h4, h5⟩ := ih
    exact ⟨x, List.mem_cons_of_mem _ hx, hc, ha, by rw [h2.random, h3], h4, h5⟩
  | later _ _ _ ih =>
    obtain ⟨x, hx, hc, ha, h3, h4, h5⟩ := ih
    exact ⟨x, List.mem_cons_of_mem _ hx, hc, ha, h3, h4, h5⟩

theorem offered_same {cfg : Cfg} {h s} (hr : Run cfg h s) {n a n' a' o1 o p o1' o' p'} (e : h = n ++ a) (e' : h = n' ++ a')
    (ho : Spec.Offered cfg a o1 o p) (ho' : Spec.Offered cfg a' o1' o' p') :
    o.random = o'.random ∧ (cfg.hasEchConfigs = true → p.random = p'.random) := by
  obtain ⟨x, hx, cx, ax, h1, -, h2⟩ := offered_random ho
  obtain ⟨y, hy, cy, ay, h3, -, h4⟩ := offered_random ho'
  have := connect_unique hr (x := x) (y := y) (by rw [e]; exact List.mem_append_right _ hx)
    (by rw [e']; exact List.mem_append_right _ hy) cx cy ax ay
  subst this
  exact ⟨by rw [h1, h3], fun hh => by rw [h2 hh, h4 hh]⟩

/-- The ServerHello has been dealt with. -/
def past (s : St) : Prop := s.state ≠ .uninitialized ∧ s.state ≠ .expectingServerHello

theorem past_keep {cfg i p t A} (hsh : Shape cfg i p t A) (hp : past p) :
    past (applyAll A p) ∧ (applyAll A p).clientRandom = p.clientRandom := by
  obtain ⟨hp1, hp2⟩ := hp
  cases hsh with
  | @fail _ a b _ =>
    obtain ⟨-, -, h3⟩ := fail_view (t := t) (i := i) (s := p) (s' := p) (a := a) (b := b)
    rw [h3]; exact ⟨⟨nofun, nofun⟩, rfl⟩
  | connect hs => exact absurd hs hp1
  | retry hs => exact absurd hs hp2
  | serverHello hs => exact absurd hs hp2
  | @encryptedExtensions _ _ _ _ _ _ _ retry t hs =>
    cases retry <;> cases t <;> exact ⟨⟨nofun, nofun⟩, rfl⟩
  | @finished m orig u d hs _ hd =>
    unfold finalReport handleError
    split_ifs <;> first | exact ⟨⟨nofun, nofun⟩, rfl⟩ | (unfold alertWrites; repeat' split) <;> exact ⟨⟨nofun, nofun⟩, rfl⟩
  | ticket hs _ ha =>
    obtain ⟨psk, rfl⟩ := ticket_shape ha
    exact ⟨⟨hp1, hp2⟩, rfl⟩
  | _ => first | exact ⟨⟨hp1, hp2⟩, rfl⟩ | exact ⟨⟨nofun, nofun⟩, rfl⟩

theorem past_stays {cfg : Cfg} {newer older s s'} (hr : Run cfg (newer ++ older) s) (hr' : Run cfg older s')
    (hp : past s') : past s ∧ s.clientRandom = s'.clientRandom := by
  induction newer generalizing s with
  | nil => rw [hr.det hr']; exact ⟨hp, rfl⟩
  | cons x n ih =>
    obtain ⟨r1, r2, r3, -⟩ := Run.split (newer := []) (older := n ++ older) hr
    rw [hr.det r2]
    obtain ⟨h1, h2⟩ := ih r1
    obtain ⟨h3, h4⟩ := past_keep r3 h1
    exact ⟨h3, by rw [← h2]; exact h4⟩

/-- The client random of a negotiated connection. -/
theorem fixed_random {cfg : Cfg} (hok : ∀ c a, cfg.hashOf c = .ok a → a.Ok) {h s g} (hr : Run cfg h s)
    (hg : Spec.Fixed cfg h g) {n a p} (e : h = n ++ a) (ho : Spec.Offered cfg a g.first g.offer p) :
    s.clientRandom = some (if cfg.hasEchConfigs = true ∧ g.ech = false then p.random else g.offer.random) := by
  obtain ⟨newer, x, older, rfl, hn⟩ := hg
  obtain ⟨r1, r2, r3, -⟩ := hr.split
  have hst := hn.state
  have hann := hn.secrets
  have hstat := hn.status
  obtain ⟨m0, ht0, hs0, -⟩ := hn.message
  have key : ∃ g', Spec.Negotiated cfg older x g' ∧ Mid cfg (x :: older) g' (Spec.post x) ∧
      (Spec.post x).state = .expectingEncryptedExtensions := by
    have hi := run_inv hok r1
    obtain ⟨o1, o, p', hb⟩ := hi.before hst
    obtain ⟨T, i, p, A⟩ := x
    simp only at *
    subst ht0
    generalize hgen : Conn.Trig.sock = T at r3
    cases r3 with
    | serverHello h1 h2 h3 => exact shlo_mid hok hb hst rfl h2 h3 rfl
    | @fail _ a b _ =>
      exfalso
      have : (.mutate toError :: (alertWrites p a b ++ [.reportError a]) : List Action).flatMap Spec.announcement = [] := by
        simp only [List.flatMap_cons, List.flatMap_append, alertWrites]
        repeat' split
        all_goals rfl
      unfold Spec.announced at hann
      simp only [this] at hann
      cases hann
    | connect hs => rw [hst] at hs; cases hs
    | finished hs => rw [hst] at hs; cases hs
    | keyUpdateInitiation hs => rw [hst] at hs; cases hs
    | keyUpdate hs => rw [hst] at hs; cases hs
    | keyUpdateAnswered hs => rw [hst] at hs; cases hs
    | encryptedExtensions hs => rw [hst] at hs; cases hs
    | ticket hs => rw [hst] at hs; cases hs
    | _ => cases hann
  obtain ⟨g', hn', hm, hs'⟩ := key
  have hp : past (Spec.post x) := ⟨by rw [hs']; nofun, by rw [hs']; nofun⟩
  rw [(past_stays hr r2 hp).2]
  obtain ⟨p', ho', -, hc⟩ := hm.info.sni
  obtain ⟨f1, f2⟩ := offered_same hr e rfl ho ho'
  rw [hc, ← hstat, hn'.status]
  congr 1
  split_ifs with hh
  · rw [f2 hh.1]
  · rw [f1]

/-- The client random of the ClientHello that goes out first. -/
theorem first_random {cfg : Cfg} (hok : ∀ c a, cfg.hashOf c = .ok a → a.Ok) {x : Step} {older s} (hr : Run cfg (x :: older) s)
    {o p} (hf : Spec.First cfg x o p) :
    s.clientRandom = some (if cfg.hasEchConfigs = true then p.random else o.random) := by
  have hi := run_inv hok hr
  obtain ⟨r1, r2, r3, -⟩ := Run.split (newer := []) hr
  have hst : s.state = .expectingServerHello := by
    rw [hr.det r2]
    have hl := hf.layer
    have hc := hf.connects
    obtain ⟨T, i, q, A⟩ := x
    obtain ⟨hc1, hc2⟩ := hc
    simp only at hc1 hc2
    subst hc1
    generalize hgen : Conn.Trig.accept = T at r3
    have hw : Spec.contents ⟨.accept, i, q, A⟩ ≠ [] := by rw [hl]; simp
    change Shape cfg i q T A at r3
    cases r3 with
    | @fail _ a b _ =>
      exfalso
      have hq : q.write = none := by
        have : q = {} := ((run_inv hok r1).uninit hc2).state
        rw [this]
      apply hw
      unfold Spec.contents Spec.writes alertWrites
      rw [hq]
      cases a <;> rfl
    | connect hs hc =>
      unfold Spec.post connectActions
      dsimp only
      split <;> rfl
    | report hs => rw [hc2] at hs; cases hs
    | nothing => exact absurd rfl hw
    | _ => cases hgen
  obtain ⟨o1, o', p', hb⟩ := hi.before hst
  obtain ⟨f1, f2⟩ := offered_same hr (n := []) (n' := []) rfl rfl (.first hf) hb.offered
  have hret : Spec.retries (x :: older) = [] := by
    have h1 := ((run_inv hok r1).uninit hf.connects.2).retries
    rw [retries_cons_none, h1]
    unfold Spec.retryOf
    rw [received_accept hf.connects.1]
  by_cases he : cfg.hasEchConfigs = true
  · obtain ⟨e, -, hE⟩ := hb.ech he
    rw [(hE.new hret).2.2.1, if_pos he, f2 he]
  · rw [(hb.plain (by simpa using he)).2.1, if_neg he, f1]

/-- C101: whatever secret a client announces, in whichever step of whatever history: it is the step that sends the first
ClientHello, or the ServerHello has fixed the parameters by then; and the trace point and the callback get the secrets
of the step (those of `C56_announced`), in order, each with its label and function, and with a client random: the early
secrets with that of the ClientHello on the wire (the outer one with ECH); the others with that of the inner ClientHello if
ECH was accepted, and otherwise that of the ClientHello on the wire. -/
theorem C101_client {cfg : Cfg} (hok : ∀ c a, cfg.hashOf c = .ok a → a.Ok) {newer y older s}
    (hr : Run cfg (newer ++ y :: older) s) (cb : Bool) :
    (Spec.announced y ≠ [] → (∃ o p, Spec.First cfg y o p) ∨ ∃ g, Spec.Fixed cfg (y :: older) g) ∧
    (∀ o p, Spec.First cfg y o p →
      List.Forall₂ (fun e a => KeyLog.Spec.Announces e (if cfg.hasEchConfigs = true then p.random else o.random) a.1.type a.2 ∧
          e.calls = KeyLog.secretAvailable cb a.1.type a.2)
        (logged cb y.pre y.acts) (Spec.announced y)) ∧
    (∀ g, Spec.Fixed cfg (y :: older) g → ∀ n a p, y :: older = n ++ a → Spec.Offered cfg a g.first g.offer p →
      List.Forall₂ (fun e a => KeyLog.Spec.Announces e
          (if cfg.hasEchConfigs = true ∧ g.ech = false then p.random else g.offer.random) a.1.type a.2 ∧
          e.calls = KeyLog.secretAvailable cb a.1.type a.2)
        (logged cb y.pre y.acts) (Spec.announced y)) := by
  obtain ⟨r1, r2, r3, -⟩ := hr.split
  have key : ∀ r, (Spec.post y).clientRandom = some r →
      List.Forall₂ (fun e a => KeyLog.Spec.Announces e r a.1.type a.2 ∧
          e.calls = KeyLog.secretAvailable cb a.1.type a.2)
        (logged cb y.pre y.acts) (Spec.announced y) := by
    intro r hq
    rw [step_logged r3, show applyAll y.acts y.pre = Spec.post y from rfl, hq, List.forall₂_map_left_iff]
    exact List.forall₂_same.2 fun a _ => ⟨KeyLog.announces_onSecret, rfl⟩
  refine ⟨fun h => ?_, fun o p hf => key _ (first_random hok r2 hf),
    fun g hg n a p e ho => key _ (fixed_random hok r2 hg e ho)⟩
  rcases C56_announced hok hr h with ⟨o, p, _, _, hf, -⟩ | ⟨g, hg, -⟩ | ⟨g, _, _, _, _, hg, -⟩ | ⟨g, _, _, hg, -⟩
  · exact .inl ⟨o, p, hf⟩
  · exact .inr ⟨g, [], y, older, rfl, hg⟩
  · exact .inr ⟨g, hg.fixed.cons y⟩
  · exact .inr ⟨g, hg.fixed.cons y⟩

end Fizz.ClientSM

namespace Fizz.Agree
open Fizz Fizz.Codec

/-- The random of the ClientHello that went out. -/
theorem went_random {cfg inp first o p c} (h : ClientSM.Spec.Went cfg inp first o p c) :
    c.random = if cfg.hasEchConfigs = true then p.random else o.random := by
  unfold ClientSM.Spec.Went at h
  split_ifs at h ⊢
  · exact h.random
  · obtain ⟨b, -, rfl⟩ := h; rfl
  · rw [h]; rfl

/-- C101: the two ends agree.  Every secret that a client announces from the ServerHello on, and every secret that the server
announces, comes with the same client random, so that the lines of the two key logs go together. -/
theorem C101_agree {cfgC : ClientSM.Cfg} {cfgS : Server.Cfg} (hokC : ∀ c a, cfgC.hashOf c = .ok a → a.Ok)
    (hokS : ∀ c a, cfgS.hashOf c = .ok a → a.Ok) {newC olderC newS olderS y z sC sS gc gs}
    (hrC : ClientSM.Run cfgC (newC ++ y :: olderC) sC) (hrS : Server.Run cfgS (newS ++ z :: olderS) sS)
    (fc : ClientSM.Spec.Fixed cfgC (y :: olderC) gc) (fs : Server.Spec.Fixed cfgS (newS ++ z :: olderS) gs)
    (same : Spec.clientHellos gc = Spec.serverHellos gs) (dec : Spec.Decoded (y :: olderC))
    (used : Spec.Parses gs.used.2 (.clientHello gs.used.1)) (conf : Spec.ConfirmsRandom (newS ++ z :: olderS))
    (cbC cbS : Bool) {e f} (he : e ∈ ClientSM.logged cbC y.pre y.acts) (hf : f ∈ Server.logged cbS z.pre z.acts) :
    e.clientRandom = some gs.used.1.random ∧ f.clientRandom = some gs.used.1.random := by
  obtain ⟨-, -, -, c1, c2, -⟩ := C58_parameters fc fs same dec used conf
  have hS := (Server.C101_server hokS hrS cbS).2 gs fs
  obtain ⟨-, -, hC⟩ := ClientSM.C101_client hokC hrC cbC
  have mem : ∀ {α β : Type} {R : α → β → Prop} {l : List α} {l' : List β}, List.Forall₂ R l l' → ∀ a ∈ l, ∃ b, R a b := by
    intro α β R l l' h
    induction h with
    | nil => intro a ha; cases ha
    | cons h1 _ ih =>
      intro a ha
      rcases List.mem_cons.1 ha with rfl | ha
      · exact ⟨_, h1⟩
      · exact ih a ha
  obtain ⟨b, hb, -⟩ := mem hS f hf
  refine ⟨?_, hb.1⟩
  cases hech : gc.ech with
  | true =>
    obtain ⟨n, x, o, hx, hn⟩ := fc
    obtain ⟨p, hp⟩ := hn.offered
    obtain ⟨b, hb, -⟩ := mem (hC gc ⟨n, x, o, hx, hn⟩ (n ++ [x]) o p (by rw [hx]; simp) hp) e he
    rw [hb.1, c1 hech, hech]
    simp [ClientSM.Spec.Offer.hello]
  | false =>
    obtain ⟨p, older, newer, h1, h2, _, _, _, hw⟩ := c2 hech
    obtain ⟨b, hb, -⟩ := mem (hC gc fc newer older p h1 h2) e he
    rw [hb.1, went_random hw, hech]
    simp

/-- C101: with one exception: the early secrets of a client whose ECH is accepted come with the random of the outer ClientHello,
those of the server with the random of the inner one; the lines go together only if the two are the same. -/
theorem C101_early {cfgC : ClientSM.Cfg} {cfgS : Server.Cfg} (hokC : ∀ c a, cfgC.hashOf c = .ok a → a.Ok)
    (hokS : ∀ c a, cfgS.hashOf c = .ok a → a.Ok) {newC olderC newS olderS y z sC sS gc gs}
    (hrC : ClientSM.Run cfgC (newC ++ y :: olderC) sC) (hrS : Server.Run cfgS (newS ++ z :: olderS) sS)
    (fc : ClientSM.Spec.Fixed cfgC (newC ++ y :: olderC) gc) (fs : Server.Spec.Fixed cfgS (newS ++ z :: olderS) gs)
    (same : Spec.clientHellos gc = Spec.serverHellos gs) (dec : Spec.Decoded (newC ++ y :: olderC))
    (used : Spec.Parses gs.used.2 (.clientHello gs.used.1)) (conf : Spec.ConfirmsRandom (newS ++ z :: olderS))
    (cbC cbS : Bool) {o p} (hfirst : ClientSM.Spec.First cfgC y o p)
    {e f} (he : e ∈ ClientSM.logged cbC y.pre y.acts) (hf : f ∈ Server.logged cbS z.pre z.acts) :
    f.clientRandom = some (if gc.ech = true ∨ cfgC.hasEchConfigs = false then o.random else p.random) ∧
    e.clientRandom = some (if cfgC.hasEchConfigs = true then p.random else o.random) := by
  obtain ⟨-, -, -, c1, c2, -⟩ := C58_parameters fc fs same dec used conf
  have hS := (Server.C101_server hokS hrS cbS).2 gs fs
  obtain ⟨-, hC, -⟩ := ClientSM.C101_client hokC hrC cbC
  have mem : ∀ {α β : Type} {R : α → β → Prop} {l : List α} {l' : List β}, List.Forall₂ R l l' → ∀ a ∈ l, ∃ b, R a b := by
    intro α β R l l' h
    induction h with
    | nil => intro a ha; cases ha
    | cons h1 _ ih =>
      intro a ha
      rcases List.mem_cons.1 ha with rfl | ha
      · exact ⟨_, h1⟩
      · exact ih a ha
  obtain ⟨b, hb, -⟩ := mem hS f hf
  obtain ⟨b', hb', -⟩ := mem (hC o p hfirst) e he
  refine ⟨?_, hb'.1⟩
  rw [hb.1]
  cases hech : gc.ech with
  | true =>
    obtain ⟨n, x, o', hx, hn⟩ := fc
    obtain ⟨p', hp⟩ := hn.offered
    have hs := (ClientSM.offered_same hrC (n := n ++ [x]) (a := o') (n' := newC) (a' := y :: olderC) (by rw [hx]; simp) rfl hp
      (.first hfirst)).1
    rw [c1 hech]
    simp [ClientSM.Spec.Offer.hello, hs]
  | false =>
    obtain ⟨p', older, newer, h1, h2, _, _, _, hw⟩ := c2 hech
    obtain ⟨k1, k2⟩ := ClientSM.offered_same hrC (n := newer) (a := older) (n' := newC) (a' := y :: olderC) h1 rfl h2
      (.first hfirst)
    rw [went_random hw]
    by_cases hE : cfgC.hasEchConfigs = true
    · simp [hE, k2 hE]
    · simp [hE, k1]

end Fizz.Agree
