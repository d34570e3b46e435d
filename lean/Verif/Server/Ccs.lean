import Verif.Server.Props2

/-!
# C104: the server's change_cipher_spec records
-/

namespace Fizz.Server
open Fizz.Codec Fizz.Crypto
open Fizz.Conn (Trig)

/-- The change_cipher_spec records (RFC 8446, 5: type 20) some actions write. -/
def Spec.ccsWritten (acts : List Action) : List Content := (Spec.writes acts).filter fun c => c.type == 20

/-- The record itself: one byte, 1, in the clear. -/
def Spec.compatRecord : Content := ⟨⟨.plaintext, []⟩, 20, [[1]]⟩

theorem ccsWritten_append (a b : List Action) :
    Spec.ccsWritten (a ++ b) = Spec.ccsWritten a ++ Spec.ccsWritten b := by
  simp [Spec.ccsWritten, Spec.writes]

theorem ccs_is (sid : Bytes) : ccs sid = if sid = [] then [] else [Spec.compatRecord] := by
  unfold ccs Spec.compatRecord
  cases sid <;> rfl

/-- What a ClientHello is answered with. -/
structure Answer (cfg : Cfg) (inp : Inp) (s : St) (u : Bool) (m : ClientHello) (orig : Bytes) (acts : List Action)
    (p : Part1) (q : Part2) (w : WLayer) (b : Bytes) (tail : List Content) : Prop where
  part1 : part1 cfg inp s u m orig = .ok (.inr p)
  part2 : part2 cfg inp s p = .ok q
  write : s.write = some w
  writes : Spec.writes acts = content w 22 b :: ((if q.p1.hello.chlo.legacy_session_id = [] then [] else [Spec.compatRecord]) ++ tail)
  rest : ∀ c ∈ tail, c.type = 22
  ech : (applyAll acts s).echStatus = q.p1.hello.echStatus
  next : ((applyAll acts s).state ≠ .expectingClientHello ∧ (applyAll acts s).state ≠ .uninitialized) ∨
    (s.group = none ∧ (applyAll acts s).hs.isSome = true ∧ (applyAll acts s).state = .expectingClientHello ∧ tail = [])

theorem helloActions_answer {cfg inp s u m orig p q f w}
    (h1 : part1 cfg inp s u m orig = .ok (.inr p)) (h2 : part2 cfg inp s p = .ok q) (hw : s.write = some w) :
    Answer cfg inp s u m orig (helloActions cfg q f w) p q w f.serverHello
      [⟨⟨.handshake, f.handshakeWrite⟩, 22, splitFlight f.encrypted⟩] := by
  have hwr : Spec.writes (helloActions cfg q f w) = flightContents w q.p1.hello.chlo.legacy_session_id f := by
    unfold helloActions
    split
    · split_ifs <;> simp [Spec.writes, transition]
    · simp [Spec.writes, transition]
  refine ⟨h1, h2, hw, ?_, by simp, ?_, .inl ?_⟩
  · rw [hwr, flightContents, ccs_is]
  · unfold helloActions applyAll
    cases q.early with
    | none => simp [Action.apply, transition, saveHello]
    | some e => simp only; split_ifs <;> simp [Action.apply, transition, saveHello]
  · unfold helloActions applyAll
    cases q.early with
    | none => simp [Action.apply, transition, saveHello]; split_ifs <;> simp
    | some e => simp only; split_ifs <;> simp [Action.apply, transition, saveHello]

theorem hello_answer {cfg inp s u m orig acts} (h : HelloShape cfg inp s u m orig acts) :
    (Spec.writes acts = [] ∧ (applyAll acts s).state = .error) ∨
    ∃ p q w b rest, Answer cfg inp s u m orig acts p q w b rest := by
  cases h with
  | fallback => exact .inl ⟨rfl, rfl⟩
  | @retry p q group _ h1 h2 h3 h4 h5 =>
    unfold sendRetry at h5
    simp only [Res.bind_eq_ok, check_eq_ok, Bool.and_eq_true, Option.isNone_iff_eq_none] at h5
    obtain ⟨_, ⟨hg, -⟩, mh, -, hrr, -, hrr', -, enc, -, w, hw, h5⟩ := h5
    have h5 := pure_eq_ok.1 h5
    subst h5
    refine .inr ⟨p, q, w, enc, [], h1, h2, derefPtr_eq_ok.1 hw, ?_, by simp, rfl, .inr ⟨hg, rfl, rfl, rfl⟩⟩
    simp [Spec.writes, transition, ccs_is]
  | noKex h1 h2 _ _ _ hw => exact .inr ⟨_, _, _, _, _, helloActions_answer h1 h2 hw⟩
  | kex h1 h2 _ _ _ _ hw => exact .inr ⟨_, _, _, _, _, helloActions_answer h1 h2 hw⟩

/-- Every other step writes no change_cipher_spec, and ends before the ClientHello only if it began there. -/
theorem other_step {cfg i s t acts} (hsh : Shape cfg i s t acts) :
    (∃ m orig u, t = .sock ∧ s.state = .expectingClientHello ∧ i.sock = .event (.handshake (.clientHello m) orig) u ∧
      HelloShape cfg i.inp s u m orig acts) ∨
    (Spec.ccsWritten acts = [] ∧
      ((applyAll acts s).state = .expectingClientHello → (s.state = .uninitialized ∨ s.state = .expectingClientHello) ∧
        (applyAll acts s).hs = s.hs) ∧
      ((applyAll acts s).state = .uninitialized → s.state = .uninitialized)) := by
  have alert : ∀ {a b}, Spec.ccsWritten (alertWrites s a b) = [] ∧ applyAll (alertWrites s a b) s = s := by
    intro a b
    unfold alertWrites
    split
    · split_ifs <;> simp [Spec.ccsWritten, Spec.writes, alertContent, content, applyAll, Action.apply]
    · exact ⟨rfl, rfl⟩
  cases hsh with
  | hello h1 h2 h3 => exact .inl ⟨_, _, _, rfl, h1, h2, h3⟩
  | nothing => exact .inr ⟨rfl, fun h => ⟨.inr h, rfl⟩, id⟩
  | wait _ => exact .inr ⟨rfl, fun h => ⟨.inr h, rfl⟩, id⟩
  | @fail _ a _ =>
    refine .inr ?_
    have hst : (applyAll (.mutate toError :: (alertWrites s a i.inp.alertFails ++ [.reportError a])) s).state = .error := by
      unfold alertWrites
      split
      · split_ifs <;> rfl
      · rfl
    refine ⟨?_, fun h => (by rw [hst] at h; cases h), fun h => (by rw [hst] at h; cases h)⟩
    unfold alertWrites
    split
    · split_ifs <;> simp [Spec.ccsWritten, Spec.writes, alertContent, content]
    · rfl
  | accept hs =>
    refine .inr ⟨rfl, fun _ => ⟨.inl hs, rfl⟩, fun h => by cases h⟩
  | ticket hs hg =>
    refine .inr ?_
    rcases ticket_shape hg with rfl | ⟨w, rs, tk, lt, exts, -, -, -, -, rfl⟩
    · exact ⟨rfl, fun h => ⟨.inr h, rfl⟩, id⟩
    · exact ⟨rfl, fun h => ⟨.inr h, rfl⟩, id⟩
  | finished _ _ _ _ _ _ _ _ _ _ _ _ _ _ =>
    refine .inr ?_
    have key : ∀ nst, nst = [] ∨ (∃ w b f, nst = [.write none [content w 22 b] f]) → ∀ r rms ks,
        Spec.ccsWritten (finishedActions cfg r rms ks nst) = [] ∧
        (applyAll (finishedActions cfg r rms ks nst) s).state = .acceptingData := by
      rintro nst (rfl | ⟨w, b, f, rfl⟩) r rms ks <;> unfold finishedActions <;> split_ifs <;> exact ⟨rfl, rfl⟩
    have hn : ∀ {nst rms}, finishedTicket cfg i.inp s rms = .ok nst → nst = [] ∨ (∃ w b f, nst = [.write none [content w 22 b] f]) := by
      intro nst rms hn
      unfold finishedTicket at hn
      split_ifs at hn
      · rcases ticket_shape hn with rfl | ⟨w, rs, tk, lt, exts, -, -, -, -, rfl⟩
        · exact .inl rfl
        · exact .inr ⟨_, _, _, rfl⟩
      · cases hn; exact .inl rfl
    obtain ⟨k1, k2⟩ := key _ (hn ‹_›) _ _ _
    exact ⟨k1, fun h => (by rw [k2] at h; cases h), fun h => (by rw [k2] at h; cases h)⟩
  | _ => first
    | exact .inr ⟨rfl, fun h => ⟨.inr h, rfl⟩, id⟩
    | exact .inr ⟨rfl, fun h => (by cases h), fun h => (by cases h)⟩

/-- The number of change_cipher_spec records so far. -/
structure CcsInv (h : List Step) (s : St) : Prop where
  all : ∀ c ∈ Spec.ccsWritten (actions h), c = Spec.compatRecord
  total : (Spec.ccsWritten (actions h)).length ≤ 2
  start : s.state = .uninitialized → Spec.ccsWritten (actions h) = []
  hello : s.state = .expectingClientHello → (Spec.ccsWritten (actions h)).length ≤ 1 ∧
    (s.hs = none → Spec.ccsWritten (actions h) = [])
  single : (∀ y ∈ h, ¬ Spec.Retried y) → (Spec.ccsWritten (actions h)).length ≤ 1 ∧
    (s.state = .expectingClientHello → Spec.ccsWritten (actions h) = [])

theorem answer_ccs {cfg inp s u m orig acts p q w b tail} (h : Answer cfg inp s u m orig acts p q w b tail) :
    Spec.ccsWritten acts = if q.p1.hello.chlo.legacy_session_id = [] then [] else [Spec.compatRecord] := by
  have : tail.filter (fun c => c.type == 20) = [] := by
    rw [List.filter_eq_nil_iff]
    intro c hc; rw [h.rest c hc]; decide
  unfold Spec.ccsWritten
  rw [h.writes]
  split_ifs <;> simp [content, this, Spec.compatRecord]

theorem ccs_run {cfg : Cfg} (hok : ∀ c a, cfg.hashOf c = .ok a → a.Ok) {h s} (hr : Run cfg h s) : CcsInv h s := by
  induction h generalizing s with
  | nil =>
    cases hr
    exact ⟨by simp [Spec.ccsWritten, Spec.writes], by simp [Spec.ccsWritten, Spec.writes], fun _ => rfl,
      fun h => (by cases h), fun _ => ⟨by simp [Spec.ccsWritten, Spec.writes], fun _ => rfl⟩⟩
  | cons y older ih =>
    obtain ⟨h1, h2, hsh, -⟩ := hr.split (newer := [])
    have hi := ih h1
    have hinv := run_inv hok h1
    have hs : s = applyAll y.acts y.pre := Run.det hr h2
    subst hs
    have hact : Spec.ccsWritten (actions (y :: older)) = Spec.ccsWritten (actions older) ++ Spec.ccsWritten y.acts := by
      rw [actions_cons, ccsWritten_append]
    rcases other_step hsh with ⟨m, orig, u, ht, hst, hsock, hh⟩ | ⟨k1, k2, k3⟩
    · rcases hello_answer hh with ⟨hw, he⟩ | ⟨p, q, w, b, tail, ha⟩
      · have : Spec.ccsWritten y.acts = [] := by unfold Spec.ccsWritten; rw [hw]; rfl
        rw [this, List.append_nil] at hact
        refine ⟨by rw [hact]; exact hi.all, by rw [hact]; exact hi.total, fun h => ?_, fun h => ?_, fun h => ?_⟩
        · rw [he] at h; cases h
        · rw [he] at h; cases h
        · rw [hact]
          exact ⟨(hi.single fun y hy => h y (by simp [hy])).1, fun h => (by rw [he] at h; cases h)⟩
      · have hc := answer_ccs ha
        have h20 : (Spec.ccsWritten y.acts).length ≤ 1 ∧ ∀ c ∈ Spec.ccsWritten y.acts, c = Spec.compatRecord := by
          rw [hc]; split_ifs <;> simp
        obtain ⟨i1, i2⟩ := hi.hello hst
        have hret : (applyAll y.acts y.pre).state = .expectingClientHello → Spec.Retried y := by
          intro h
          refine ⟨⟨m, orig, ?_⟩, h⟩
          have hne : y.acts ≠ [] := fun h0 => by
            have := ha.writes; rw [h0] at this; cases this
          have := received_sock (s := y.pre) (acts := y.acts) hsock hne
          rw [← ht] at this
          exact this
        refine ⟨?_, ?_, ?_, ?_, fun hno => ?_⟩
        rotate_left 4
        · rw [hact, (hi.single fun y hy => hno y (by simp [hy])).2 hst, List.nil_append]
          exact ⟨h20.1, fun h => absurd (hret h) (hno y (by simp))⟩
        · rw [hact]
          intro c hcm
          rcases List.mem_append.1 hcm with hcm | hcm
          · exact hi.all c hcm
          · exact h20.2 c hcm
        · rw [hact, List.length_append]; omega
        · intro h
          rcases ha.next with ⟨-, hn⟩ | ⟨-, -, hn, -⟩
          · exact absurd h hn
          · rw [h] at hn; cases hn
        · intro h
          rcases ha.next with ⟨hn, -⟩ | ⟨hg, hsome, -, -⟩
          · exact absurd h hn
          · obtain ⟨pre, -⟩ := hinv.hello hst
            have hfresh : y.pre.hs = none := by
              cases hh : y.pre.hs with
              | none => rfl
              | some c => exact absurd hg (pre.retried _ hh).2.2.2.2.1
            rw [hact, i2 hfresh, List.nil_append]
            exact ⟨h20.1, fun hn => by rw [hn] at hsome; cases hsome⟩
    · rw [k1, List.append_nil] at hact
      refine ⟨by rw [hact]; exact hi.all, by rw [hact]; exact hi.total, fun h => ?_, fun h => ?_, fun hno => ?_⟩
      rotate_left 2
      · obtain ⟨j1, j2⟩ := hi.single fun y hy => hno y (by simp [hy])
        rw [hact]
        refine ⟨j1, fun h => ?_⟩
        obtain ⟨h | h, -⟩ := k2 h
        · exact hi.start h
        · exact j2 h
      · rw [hact]; exact hi.start (k3 h)
      · rw [hact]
        obtain ⟨h | h, h'⟩ := k2 h
        · rw [hi.start h]; exact ⟨by simp, fun _ => rfl⟩
        · rw [h']; exact hi.hello h

section
variable {cfg : Cfg} (hok : ∀ c a, cfg.hashOf c = .ok a → a.Ok)
include hok

/-- C104: the server writes at most two change_cipher_spec records in the life of a connection, and each is one byte 1 in the
clear. -/
theorem C104_count {h s} (hr : Run cfg h s) : (Spec.ccsWritten (actions h)).length ≤ 2 ∧
    ∀ c ∈ Spec.ccsWritten (actions h), c = ⟨⟨.plaintext, []⟩, 20, [[1]]⟩ :=
  ⟨(ccs_run hok hr).total, (ccs_run hok hr).all⟩

/-- C104: two are written only if the server has asked for a second ClientHello. -/
theorem C104_single {h s} (hr : Run cfg h s) (hno : ∀ y ∈ h, ¬ Spec.Retried y) :
    (Spec.ccsWritten (actions h)).length ≤ 1 :=
  ((ccs_run hok hr).single hno).1

/-- C104: a change_cipher_spec is written only in answer to a ClientHello that has a session id. -/
theorem C104_when {newer y older s} (hr : Run cfg (newer ++ y :: older) s) (hc : Spec.ccsWritten y.acts ≠ []) :
    ∃ m orig, Spec.received y = some (.clientHello m, orig) ∧ y.pre.state = .expectingClientHello ∧
      (Spec.usedHello y m orig).1.legacy_session_id ≠ [] := by
  obtain ⟨h1, h2, hsh, -⟩ := hr.split
  rcases other_step hsh with ⟨m, orig, u, ht, hst, hsock, hh⟩ | ⟨k1, -, -⟩
  · rcases hello_answer hh with ⟨hw, he⟩ | ⟨p, q, w, b, tail, ha⟩
    · exact absurd (by unfold Spec.ccsWritten; rw [hw]; rfl) hc
    · obtain ⟨pre, -⟩ := (run_inv hok h1).hello hst
      have f1 := part1_facts ha.part1
      have f2 := part2_facts hok pre f1 ha.part2
      have hp := f2.p1
      subst hp
      have hused := usedHello_eq (x := y) ha.ech f1.cookie (fun hh => (pre.fresh hh).2.1) f1.ech
      have hne : y.acts ≠ [] := fun h => by rw [h] at hc; exact hc rfl
      have hrec : Spec.received y = some (.clientHello m, orig) := by
        have := received_sock (s := y.pre) (acts := y.acts) hsock hne
        rw [← ht] at this
        exact this
      refine ⟨m, orig, hrec, hst, fun h => hc ?_⟩
      rw [hused] at h
      rw [answer_ccs ha, if_pos h]
  · exact absurd k1 hc

/-- C104: whenever the server answers a ClientHello with a handshake message (a HelloRetryRequest or a ServerHello), that
message goes out first and in the clear; the change_cipher_spec follows immediately if the ClientHello has a session id, else
there is none; the rest is handshake messages. -/
theorem C104_exact {newer y older s m orig} (hr : Run cfg (newer ++ y :: older) s)
    (hrec : Spec.received y = some (.clientHello m, orig)) (hs : Spec.sent y ≠ []) :
    ∃ msg rest, Spec.contents y = ⟨⟨.plaintext, []⟩, 22, [msg]⟩ ::
      ((if (Spec.usedHello y m orig).1.legacy_session_id = [] then [] else [⟨⟨.plaintext, []⟩, 20, [[1]]⟩]) ++ rest) ∧
      ∀ c ∈ rest, c.type = 22 := by
  obtain ⟨h1, h2, hsh, -⟩ := hr.split
  have hin : y.trig = .sock ∧ ∃ u, y.env.sock = .event (.handshake (.clientHello m) orig) u := by
    unfold Spec.received at hrec
    split_ifs at hrec
    split at hrec
    · rename_i heq1 heq2
      cases hrec
      exact ⟨heq1, _, heq2⟩
    · cases hrec
  obtain ⟨ht, u0, hin⟩ := hin
  have hsent : (∃ c ∈ Spec.contents y, c.type = 22) := by
    refine Classical.byContradiction fun hn => hs ?_
    unfold Spec.sent Spec.handshakeBytes
    rw [List.filter_eq_nil_iff.2 fun c hc => by simpa using fun h => hn ⟨c, hc, h⟩]
    rfl
  have main : ∀ {u}, y.pre.state = .expectingClientHello → HelloShape cfg y.env.inp y.pre u m orig y.acts →
      ∃ msg rest, Spec.contents y = ⟨⟨.plaintext, []⟩, 22, [msg]⟩ ::
        ((if (Spec.usedHello y m orig).1.legacy_session_id = [] then [] else [⟨⟨.plaintext, []⟩, 20, [[1]]⟩]) ++ rest) ∧
        ∀ c ∈ rest, c.type = 22 := by
    intro u hst hh
    rcases hello_answer hh with ⟨hw, he⟩ | ⟨p, q, w, b, tail, ha⟩
    · obtain ⟨c, hc, -⟩ := hsent
      unfold Spec.contents at hc
      rw [hw] at hc; cases hc
    · obtain ⟨pre, hwr, -⟩ := (run_inv hok h1).hello hst
      have f1 := part1_facts ha.part1
      have f2 := part2_facts hok pre f1 ha.part2
      have hp := f2.p1
      subst hp
      have hused := usedHello_eq (x := y) ha.ech f1.cookie (fun hh => (pre.fresh hh).2.1) f1.ech
      have hw := ha.write
      rw [hwr] at hw
      cases hw
      refine ⟨b, tail, ?_, ha.rest⟩
      rw [hused]
      exact ha.writes
  obtain ⟨T, i, p, A⟩ := y
  simp only at *
  subst ht
  cases hsh with
  | hello h1 h2 h3 =>
    rw [hin] at h2
    cases h2
    exact main h1 h3
  | nothing => exact absurd rfl hs
  | @fail _ a _ =>
    obtain ⟨c, hc, hc'⟩ := hsent
    unfold Spec.contents at hc
    unfold alertWrites at hc
    split at hc
    · split_ifs at hc
      · simp [Spec.writes] at hc
      · simp only [Spec.writes, List.flatMap_cons, List.flatMap_nil, List.nil_append, List.append_nil,
          List.cons_append, List.mem_singleton] at hc
        subst hc
        exact absurd hc' (by simp [alertContent, content])
    · simp [Spec.writes] at hc
  | wait h => rw [hin] at h; cases h
  | earlyData _ h => rw [hin] at h; cases h
  | data _ h => rw [hin] at h; cases h
  | endOfEarlyData _ h => rw [hin] at h; cases h
  | noCertificate _ h => rw [hin] at h; cases h
  | certificate _ h => rw [hin] at h; cases h
  | certificateVerify _ h => rw [hin] at h; cases h
  | finished _ h => rw [hin] at h; cases h
  | keyUpdate _ h => rw [hin] at h; cases h
  | keyUpdateAnswered _ h => rw [hin] at h; cases h
  | closeNotify _ h => rw [hin] at h; cases h
  | expectedCloseNotify _ h => rw [hin] at h; cases h
end

end Fizz.Server
