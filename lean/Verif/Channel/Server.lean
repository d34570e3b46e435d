import Verif.Channel.Flow
import Verif.Channel.History
import Verif.Server.Props2

/-!
# The server's application traffic (C78)
-/

namespace Fizz.Channel
open Fizz.Codec Fizz.Record
open Fizz.Server (Level RLayer WLayer Content SecretKind SockIn content alertContent)

theorem wkey_some {L} {w : WLayer} : WLayer.key L (some w) = if w.level = L then some w.secret else none := rfl

theorem rkey_some {L} {r : RLayer} : RLayer.key L (some r) = if r.level = L then some r.secret else none := rfl

/-- Writing something unimportant, or an alert, with the current layer. -/
theorem sends_body {v v' : Bool} {w : WLayer} {t d k'} (hv : v' = true → v = true) (hb : Body (t, [d]))
    (hk : k' = WLayer.key .appTraffic (some w) ∨ k' = none) :
    Sends v (WLayer.key .appTraffic (some w)) [] ([content w t d].flatMap (atLevel .appTraffic)) v' k' := by
  rw [wkey_some] at hk ⊢
  simp only [List.flatMap_cons, List.flatMap_nil, List.append_nil, atLevel, content]
  by_cases h : w.level = .appTraffic
  · rw [if_pos h] at hk
    rw [if_pos h, if_pos h]
    exact .body hv hk hb
  · rw [if_neg h] at hk
    rw [if_neg h, if_neg h]
    exact .idle hv hk

theorem sends_alert {v v' : Bool} {w : WLayer} {d} (hv : v' = true → v = true) :
    Sends v (WLayer.key .appTraffic (some w)) [] ([alertContent w d].flatMap (atLevel .appTraffic)) v' none := by
  rw [wkey_some]
  simp only [List.flatMap_cons, List.flatMap_nil, List.append_nil, atLevel, alertContent, content]
  by_cases h : w.level = .appTraffic
  · rw [if_pos h, if_pos h]
    exact .alert hv ⟨rfl, rfl⟩
  · rw [if_neg h, if_neg h]
    exact .idle hv (.inr rfl)

theorem hears_any {v v' : Bool} {k k' t sock b} (hv : v' = true → v = true) (hk : k' = k ∨ k' = none) :
    Hears v k [] (under k (message t sock b)) v' k' := by
  have hm : message t sock b = [] ∨ ∃ e, message t sock b = [e] := by
    unfold message
    repeat' split
    · exact .inl rfl
    · exact .inr ⟨_, rfl⟩
    · exact .inl rfl
  cases k with
  | none => exact .idle hv hk
  | some Z =>
    rcases hm with h | ⟨e, h⟩
    · rw [h]; exact .idle hv hk
    · rw [h]; exact .event hv hk

theorem body_data (d : List Bytes) : Body (23, d) := .inl rfl

/-- Contents without application data. -/
def NoData (cs : List Content) : Prop := ∀ c ∈ cs, c.type ≠ 23

theorem noData_bytes {L cs} (h : NoData cs) : appBytes ((cs.flatMap (atLevel L)).map (·.2)) = [] := by
  unfold appBytes
  rw [List.flatMap_eq_nil_iff]
  intro it hit
  rw [List.mem_filter, List.mem_map] at hit
  obtain ⟨⟨⟨Z, it'⟩, h1, rfl⟩, h2⟩ := hit
  rw [List.mem_flatMap] at h1
  obtain ⟨c, hc, h1⟩ := h1
  unfold atLevel at h1
  split_ifs at h1
  · rw [List.mem_singleton] at h1
    cases h1
    exact absurd (by simpa using h2) (h c hc)
  · cases h1

/-- What the application asked for is what is written. -/
theorem wrote_step {L cs d} (h : NoData cs ∨ ∃ pre w, NoData pre ∧ cs = pre ++ [content w 23 d]) :
    (if ∃ c ∈ cs, c.type = 23 ∧ c.layer.level = L then d else []) =
      appBytes ((cs.flatMap (atLevel L)).map (·.2)) := by
  rcases h with h | ⟨pre, w, h, rfl⟩
  · rw [noData_bytes h, if_neg]
    rintro ⟨c, hc, h1, -⟩
    exact h c hc h1
  · rw [List.flatMap_append, List.map_append, appBytes_append, noData_bytes h, List.nil_append]
    by_cases hw : w.level = L
    · rw [if_pos ⟨content w 23 d, by simp, rfl, hw⟩]
      simp [atLevel, content, hw, appBytes]
    · rw [if_neg]
      · simp [atLevel, content, hw, appBytes]
      · rintro ⟨c, hc, h1, h2⟩
        rcases List.mem_append.1 hc with hc | hc
        · exact h c hc h1
        · rw [List.mem_singleton.1 hc] at h2; exact hw h2

end Fizz.Channel

namespace Fizz.Server
open Fizz.Channel Fizz.Codec Fizz.Record
open Spec (Neg)

/-- No application key of the server yet. -/
def freshW (s : St) : Bool := s.state = .uninitialized || s.state = .expectingClientHello

/-- No application key of the client yet. -/
def freshR (s : St) : Bool :=
  freshW s || s.state = .acceptingEarlyData || s.state = .expectingCertificate ||
    s.state = .expectingCertificateVerify || s.state = .expectingFinished

theorem ticket_frame {cfg inp s rms tok acts} (h : generateTicket cfg inp s rms tok = .ok acts) :
    acts = [] ∨ ∃ w enc, s.write = some w ∧ acts = [.write none [content w 22 enc] 0] ∧ Frame 4 enc := by
  unfold generateTicket at h
  split_ifs at h
  · cases h; exact .inl rfl
  · rw [Res.bind_eq_ok] at h
    obtain ⟨t, -, h⟩ := h
    split_ifs at h
    · cases pure_eq_ok.1 h; exact .inl rfl
    · rw [makeTicket, Res.bind_eq_ok] at h
      obtain ⟨rs, h1, h⟩ := h
      rw [Res.bind_eq_ok] at h
      obtain ⟨o, h2, h⟩ := h
      cases o with
      | none => cases pure_eq_ok.1 h; exact .inl rfl
      | some o =>
        obtain ⟨tk, lt⟩ := o
        simp only [Res.bind_eq_ok] at h
        obtain ⟨w, h3, a, h4, h⟩ := h
        cases pure_eq_ok.1 h
        rw [writeNewSessionTicket] at h4
        simp only [Res.bind_eq_ok] at h4
        obtain ⟨exts, h5, enc, h6, h4⟩ := h4
        cases pure_eq_ok.1 h4
        exact .inr ⟨w, enc, derefPtr_eq_ok.1 h3, rfl, frame_encoded h6⟩

theorem fail_view {s s' : St} {a b} :
    Spec.announced ⟨t, i, s, .mutate toError :: (alertWrites s a b ++ [.reportError a])⟩ = [] ∧
    (Spec.contents ⟨t, i, s, .mutate toError :: (alertWrites s a b ++ [.reportError a])⟩ = [] ∨
      ∃ w d, s.write = some w ∧
        Spec.contents ⟨t, i, s, .mutate toError :: (alertWrites s a b ++ [.reportError a])⟩ = [alertContent w d]) ∧
    applyAll (.mutate toError :: (alertWrites s a b ++ [.reportError a])) s' = toError s' := by
  unfold Spec.announced Spec.contents Spec.writes applyAll alertWrites
  dsimp only
  split
  · split
    · exact ⟨rfl, .inl rfl, rfl⟩
    · rename_i w hw _
      exact ⟨rfl, .inr ⟨w, _, hw, rfl⟩, rfl⟩
  · exact ⟨rfl, .inl rfl, rfl⟩

/-- What a ClientHello is answered with. -/
theorem hello_view {cfg : Cfg} (hok : ∀ c a, cfg.hashOf c = .ok a → a.Ok) {h : List Step} {i : StepIn} {p : St}
    {A : List Action} (hrun : Run cfg h p) {u m orig}
    (hs : i.sock = .event (.handshake (.clientHello m) orig) u) (hst : p.state = .expectingClientHello)
    (hsh : HelloShape cfg i.inp p u m orig A) :
    (∃ g, Spec.Negotiated cfg h ⟨.sock, i, p, A⟩ g ∧ After cfg i.inp g (applyAll A p)) ∨
    (Spec.announced ⟨.sock, i, p, A⟩ = [] ∧
      (∀ c ∈ Spec.contents ⟨.sock, i, p, A⟩, c.layer.level = .plaintext ∧ c.type ≠ 23) ∧
      (applyAll A p).write = some ⟨.plaintext, []⟩ ∧
      (∃ k, (applyAll A p).read = some ⟨.plaintext, [], k⟩) ∧
      ((applyAll A p).state = .error ∨ (applyAll A p).state = .expectingClientHello)) := by
  have hi := run_inv hok hrun
  have hinv := inv_step hok hi (.hello hst hs hsh)
  obtain ⟨-, hw, hrd, -⟩ := hi.hello hst
  have hx := hello_cases hok (x := ⟨.sock, i, p, A⟩) hrun rfl hs hst hsh
  have key : ∀ {q f w}, A = helloActions cfg q f w →
      ∃ g, Spec.Negotiated cfg h ⟨.sock, i, p, A⟩ g ∧ After cfg i.inp g (applyAll A p) := by
    intro q f w hA
    have hne := helloActions_state (cfg := cfg) (q := q) (f := f) (w := w) p
    rw [← hA] at hne
    rcases hx with ⟨h, -⟩ | ⟨_, _, _, _, _, -, -, -, h, -⟩ | ⟨g, hg, ha⟩
    · exact absurd h hne.1
    · exact absurd h hne.2
    · exact ⟨g, hg, ha⟩
  cases hsh with
  | fallback => exact .inr ⟨rfl, by simp [Spec.contents, Spec.writes, transition], hw, hrd, .inl rfl⟩
  | @retry _ _ _ _ h1 h2 h3 h4 h5 =>
    unfold sendRetry at h5
    simp only [Res.bind_eq_ok] at h5
    obtain ⟨_, -, mh, -, hrr, -, hrr', -, enc, -, w, hw', h5⟩ := h5
    have h5 := (pure_eq_ok.1 h5).symm
    have hst' : (applyAll A p).state = .expectingClientHello := by rw [h5]; rfl
    obtain ⟨-, hw2, hrd2, -⟩ := hinv.hello hst'
    refine .inr ⟨by rw [h5]; rfl, ?_, hw2, hrd2, .inr hst'⟩
    rcases hx with ⟨h, -⟩ | ⟨_, _, _, w', k, -, -, h6, -, -, h7, h8⟩ | ⟨g, hg, ha⟩
    · rw [show (Spec.post ⟨.sock, i, p, A⟩) = applyAll A p from rfl, hst'] at h; cases h
    · intro c hc
      rw [h7] at hc
      rcases List.mem_cons.1 hc with rfl | hc
      · rw [show (St.write p) = some w' from h6] at hw; cases Option.some.inj hw; exact ⟨rfl, (by decide : (22 : UInt8) ≠ 23)⟩
      · rw [h8 c hc]; exact ⟨rfl, by decide⟩
    · obtain ⟨-, hms⟩ := after_mid (hi.hello hst).2.2.2.2 hg ha (by rw [h5]; simp)
      rw [show (Spec.post ⟨.sock, i, p, A⟩) = applyAll A p from rfl, hst'] at hms
      simp [midState] at hms
  | noKex => exact .inl (key rfl)
  | kex => exact .inl (key rfl)

theorem finished_view {cfg : Cfg} {i : StepIn} {p : St} {read rms ks nst}
    (h : finishedTicket cfg i.inp p rms = .ok nst) :
    Spec.announced ⟨.sock, i, p, finishedActions cfg read rms ks nst⟩ = [(.clientAppTraffic, read)] ∧
    (Spec.contents ⟨.sock, i, p, finishedActions cfg read rms ks nst⟩ = [] ∨
      ∃ w enc, p.write = some w ∧ Frame 4 enc ∧
        Spec.contents ⟨.sock, i, p, finishedActions cfg read rms ks nst⟩ = [content w 22 enc]) ∧
    applyAll (finishedActions cfg read rms ks nst) p =
      { saveFinished read rms ks p with state := .acceptingData } ∧
    Spec.delivered ⟨.sock, i, p, finishedActions cfg read rms ks nst⟩ = [] ∧
    ∀ b, .endOfData b ∉ finishedActions cfg read rms ks nst := by
  unfold finishedTicket at h
  unfold finishedActions
  split_ifs at h ⊢ with hc
  · rcases ticket_frame h with rfl | ⟨w, enc, h1, rfl, h2⟩
    · exact ⟨rfl, .inl rfl, rfl, rfl, by simp [transition]⟩
    · exact ⟨rfl, .inr ⟨w, enc, h1, h2, rfl⟩, rfl, rfl, by simp [transition]⟩
  · exact ⟨rfl, .inl rfl, rfl, rfl, by simp [transition]⟩

theorem freshW_of {s : St} {e} (h : s.state = e) : freshW s = (e = .uninitialized || e = .expectingClientHello) := by
  subst h; rfl

theorem frame_body {t : UInt8} {enc : Bytes} (h : Frame t enc) (ht : t ≠ 24) : Body (22, [enc]) :=
  .inr ⟨rfl, t, ht, by simpa using h⟩

theorem frame_update {m : KeyUpdate} {enc : Bytes} (h : encodeHandshake (.keyUpdate m) = .ok enc) : Update (22, [enc]) :=
  ⟨rfl, by have := frame_encoded h; simpa [Codec.Spec.typeByte] using this⟩

theorem step_sends {cfg : Cfg} (hok : ∀ c a, cfg.hashOf c = .ok a → a.Ok) {x : Step} {h s}
    (hr : Run cfg (x :: h) s) :
    Sends (freshW x.pre) (WLayer.key .appTraffic x.pre.write) (ofKind .serverAppTraffic (Spec.announced x))
      ((Spec.contents x).flatMap (atLevel .appTraffic)) (freshW s) (WLayer.key .appTraffic s.write) := by
  obtain ⟨r1, r2, r3, -⟩ := hr.split (newer := [])
  have := r2.det hr
  subst this
  have hi := run_inv hok r1
  obtain ⟨T, i, p, A⟩ := x
  simp only at *
  show Sends _ _ _ _ (freshW (applyAll A p)) (WLayer.key _ (applyAll A p).write)
  cases r3 with
  | nothing => exact .idle id (.inl rfl)
  | @fail _ a _ =>
    obtain ⟨h1, h2, h3⟩ := fail_view (t := T) (i := i) (s := p) (s' := p) (a := a) (b := i.inp.alertFails)
    rw [h3, h1]
    rcases h2 with h2 | ⟨w, d, hw, h2⟩
    · rw [h2]; exact .idle (by intro h; cases h) (.inr rfl)
    · rw [h2, hw]; exact sends_alert (by intro h; cases h)
  | wait => exact .idle id (.inl rfl)
  | closeNow hw => rw [hw]; exact sends_alert (by intro h; cases h)
  | close hw => rw [hw]; exact sends_alert (by intro h; cases h)
  | closed => exact .idle (by intro h; cases h) (.inr rfl)
  | accept hs => exact .idle (by rw [freshW_of hs]; intro _; rfl) (.inr rfl)
  | v2 => exact .idle (by intro h; cases h) (.inl rfl)
  | earlyData => exact .idle id (.inl rfl)
  | data => exact .idle id (.inl rfl)
  | appWrite _ hw => rw [hw]; exact sends_body id (body_data _) (.inl (by rw [← hw]; rfl))
  | endOfEarlyData => exact .idle (by intro h; cases h) (.inl rfl)
  | noCertificate => exact .idle (by intro h; cases h) (.inl rfl)
  | certificate => exact .idle (by intro h; cases h) (.inl rfl)
  | certificateVerify => exact .idle (by intro h; cases h) (.inl rfl)
  | closeNotify _ _ hw => rw [hw]; exact sends_alert (by intro h; cases h)
  | expectedCloseNotify => exact .idle (by intro h; cases h) (.inr rfl)
  | @ticket tok _ h1 h2 =>
    rcases ticket_frame h2 with rfl | ⟨w, enc, hw, rfl, hf⟩
    · exact .idle id (.inl rfl)
    · rw [hw]
      exact sends_body id (frame_body hf (by decide)) (.inl (by rw [← hw]; rfl))
  | hello hst hs hsh =>
    have hf : freshW p = true := by rw [freshW_of hst]; rfl
    obtain ⟨-, hw, -⟩ := hi.hello hst
    rcases hello_view hok r1 hs hst hsh with ⟨g, hg, ha⟩ | ⟨h1, h2, h3, -, h4⟩
    · obtain ⟨w, c, enc, e1, e2, -, e3⟩ := hg.flight
      rw [show p.write = some w from e1] at hw
      cases Option.some.inj hw
      have hc : c.flatMap (atLevel .appTraffic) = [] := by
        rw [List.flatMap_eq_nil_iff]
        intro k hk
        rw [e3 k hk]; rfl
      rw [e2, hf, hg.secrets, ha.write, wkey_some, if_pos rfl]
      simp only [List.flatMap_cons, List.flatMap_append, hc, List.flatMap_nil]
      have hk : ofKind .serverAppTraffic ((if g.early then [(SecretKind.clientEarlyTraffic, g.clientEarly)] else []) ++
          [(.clientHandshakeTraffic, g.clientHandshake), (.serverHandshakeTraffic, g.serverHandshake),
            (.serverAppTraffic, g.serverApp 0)]) = [g.serverApp 0] := by
        cases g.early <;> rfl
      rw [hk]
      have hfr : freshW (applyAll A p) = false := by
        have := ha.phase
        rcases this with ⟨-, -, h1, -⟩ | ⟨-, skip, -, -, ⟨-, -, h1⟩ | ⟨-, -, h1⟩ | ⟨-, -, h1⟩⟩ <;>
          (rw [freshW_of h1]; rfl)
      rw [hfr]
      exact .first (.inl rfl)
    · have hc : (Spec.contents ⟨.sock, i, p, A⟩).flatMap (atLevel .appTraffic) = [] := by
        rw [List.flatMap_eq_nil_iff]
        intro k hk
        have := (h2 k hk).1
        unfold atLevel
        rw [if_neg (by rw [this]; decide)]
      rw [h1, hc, hf, h3]
      exact .idle (fun _ => rfl) (.inr rfl)
  | @finished m orig ctx secret ha hc ks ks' cipher version read rms nst h1 h2 h3 h4 h5 h6 h7 h8 h9 h10 h11 h12 h13 h14 =>
    obtain ⟨e1, e2, e3, -⟩ := finished_view (read := read) (ks := ks') h14
    rw [e1, e3]
    have hk : WLayer.key .appTraffic ({ saveFinished read rms ks' p with state := .acceptingData } : St).write =
      WLayer.key .appTraffic p.write := rfl
    rw [hk]
    rcases e2 with e2 | ⟨w, enc, hw, hf, e2⟩
    · rw [e2]; exact .idle (by intro h; cases h) (.inl rfl)
    · rw [e2, hw]
      exact sends_body (by intro h; cases h) (frame_body hf (by decide)) (.inl rfl)
  | keyUpdateInitiation h1 h2 h3 h4 h5 h6 =>
    obtain ⟨g, hg⟩ := hi.data h1
    have hw := hg.write
    rw [h4] at hw
    cases Option.some.inj hw
    rw [h4]
    have hf : freshW p = false := by rw [freshW_of h1]; rfl
    show Sends (freshW p) _ _ _ (freshW p) _
    rw [hf]
    exact .update (frame_update h3)
  | @keyUpdate m o ha ks ks' secret h1 h2 h3 h4 h5 => exact .idle id (.inl rfl)
  | @keyUpdateAnswered m o ha ks ks' ks'' enc w read write h1 h2 h3 h4 h5 h6 h7 h8 =>
    obtain ⟨g, hg⟩ := hi.data h1
    have hw := hg.write
    rw [h7] at hw
    cases Option.some.inj hw
    rw [h7]
    have hf : freshW p = false := by rw [freshW_of h1]; rfl
    show Sends (freshW p) _ _ _ (freshW p) _
    rw [hf]
    exact .update (frame_update h6)

/-- The read layer has no application key before the client's Finished. -/
theorem early_read {cfg : Cfg} {h p} (hi : Inv cfg h p) (hf : freshR p = true) :
    RLayer.key .appTraffic p.read = none := by
  unfold freshR freshW at hf
  simp only [Bool.or_eq_true, decide_eq_true_eq] at hf
  rcases hf with ((((hf | hf) | hf) | hf) | hf) | hf
  · rw [(hi.uninit hf).1]; rfl
  · obtain ⟨-, -, ⟨k, hk⟩, -⟩ := hi.hello hf
    rw [hk]; rfl
  · obtain ⟨g, hg⟩ := hi.mid (.inl hf)
    rw [(hg.early hf).2.1]; rfl
  · obtain ⟨g, hg⟩ := hi.mid (.inr (.inl hf))
    obtain ⟨k, hk, -⟩ := hg.late (by rw [hf]; decide)
    rw [hk]; rfl
  · obtain ⟨g, hg⟩ := hi.mid (.inr (.inr (.inl hf)))
    obtain ⟨k, hk, -⟩ := hg.late (by rw [hf]; decide)
    rw [hk]; rfl
  · obtain ⟨g, hg⟩ := hi.mid (.inr (.inr (.inr hf)))
    obtain ⟨k, hk, -⟩ := hg.late (by rw [hf]; decide)
    rw [hk]; rfl

theorem freshR_of {s : St} {e} (h : s.state = e) : freshR s = (((((e = .uninitialized || e = .expectingClientHello) ||
    e = .acceptingEarlyData) || e = .expectingCertificate) || e = .expectingCertificateVerify) || e = .expectingFinished) := by
  subst h; rfl

theorem step_hears {cfg : Cfg} (hok : ∀ c a, cfg.hashOf c = .ok a → a.Ok) {x : Step} {h s}
    (hr : Run cfg (x :: h) s) :
    Hears (freshR x.pre) (RLayer.key .appTraffic x.pre.read) (ofKind .clientAppTraffic (Spec.announced x))
      (under (RLayer.key .appTraffic x.pre.read) (message x.trig x.env.sock x.acts.isEmpty))
      (freshR s) (RLayer.key .appTraffic s.read) := by
  obtain ⟨r1, r2, r3, -⟩ := hr.split (newer := [])
  have := r2.det hr
  subst this
  have hi := run_inv hok r1
  have hi' := run_inv hok r2
  obtain ⟨T, i, p, A⟩ := x
  simp only at *
  show Hears _ _ _ _ (freshR (applyAll A p)) (RLayer.key _ (applyAll A p).read)
  change Inv cfg _ (applyAll A p) at hi'
  -- before the client's Finished there are no such keys
  have hsame : ∀ {B : List Action}, freshR p = true → freshR (applyAll B p) = true → Inv cfg (⟨T, i, p, B⟩ :: h) (applyAll B p) →
      ofKind .clientAppTraffic (Spec.announced ⟨T, i, p, B⟩) = [] →
      Hears (freshR p) (RLayer.key .appTraffic p.read) (ofKind .clientAppTraffic (Spec.announced ⟨T, i, p, B⟩))
      (under (RLayer.key .appTraffic p.read) (message T i.sock B.isEmpty))
      (freshR (applyAll B p)) (RLayer.key .appTraffic (applyAll B p).read) := by
    intro B h1 h2 h3 h4
    rw [early_read hi h1, early_read h3 h2, h4, h1]
    exact .idle (fun _ => rfl) (.inl rfl)
  cases r3 with
  | nothing => exact hears_any id (.inl rfl)
  | @fail _ a _ =>
    obtain ⟨h1, h2, h3⟩ := fail_view (t := T) (i := i) (s := p) (s' := p) (a := a) (b := i.inp.alertFails)
    rw [h3, h1]
    exact hears_any (by intro h; cases h) (.inr rfl)
  | wait => exact hears_any id (.inl rfl)
  | closeNow hw => exact hears_any (by intro h; cases h) (.inr rfl)
  | close hw => exact hears_any (by intro h; cases h) (.inl rfl)
  | closed => exact hears_any (by intro h; cases h) (.inr rfl)
  | accept hs => exact hears_any (by rw [freshR_of hs]; intro _; rfl) (.inr rfl)
  | v2 => exact hears_any (by intro h; cases h) (.inl rfl)
  | earlyData => exact hears_any id (.inl rfl)
  | data => exact hears_any id (.inl rfl)
  | appWrite _ hw => exact hears_any id (.inl rfl)
  | endOfEarlyData hs => exact hsame (by rw [freshR_of hs]; rfl) rfl hi' rfl
  | noCertificate hs => exact hsame (by rw [freshR_of hs]; rfl) rfl hi' rfl
  | certificate hs => exact hsame (by rw [freshR_of hs]; rfl) rfl hi' rfl
  | certificateVerify hs => exact hsame (by rw [freshR_of hs]; rfl) rfl hi' rfl
  | closeNotify _ _ hw => exact hears_any (by intro h; cases h) (.inr rfl)
  | expectedCloseNotify => exact hears_any (by intro h; cases h) (.inr rfl)
  | @ticket tok _ h1 h2 =>
    rcases ticket_frame h2 with rfl | ⟨w, enc, hw, rfl, hf⟩
    · exact hears_any id (.inl rfl)
    · exact hears_any id (.inl rfl)
  | hello hst hs hsh =>
    have hf : freshR p = true := by rw [freshR_of hst]; rfl
    rcases hello_view hok r1 hs hst hsh with ⟨g, hg, ha⟩ | ⟨h1, h2, -, ⟨k, h3⟩, h4⟩
    · have hk : ofKind .clientAppTraffic ((if g.early then [(SecretKind.clientEarlyTraffic, g.clientEarly)] else []) ++
          [(.clientHandshakeTraffic, g.clientHandshake), (.serverHandshakeTraffic, g.serverHandshake),
            (.serverAppTraffic, g.serverApp 0)]) = [] := by
        cases g.early <;> rfl
      refine hsame hf ?_ hi' (by rw [hg.secrets, hk])
      have := ha.phase
      rcases this with ⟨-, -, h1, -⟩ | ⟨-, skip, -, -, ⟨-, -, h1⟩ | ⟨-, -, h1⟩ | ⟨-, -, h1⟩⟩ <;>
          (rw [freshR_of h1]; rfl)
    · rw [h1, h3, hf]
      exact hears_any (fun _ => rfl) (.inr rfl)
  | @finished m orig ctx secret ha hc ks ks' cipher version read rms nst h1 h2 h3 h4 h5 h6 h7 h8 h9 h10 h11 h12 h13 h14 =>
    obtain ⟨e1, e2, e3, -⟩ := finished_view (read := read) (ks := ks') h14
    have hf : freshR p = true := by rw [freshR_of h1]; rfl
    rw [e1, e3, early_read hi hf, hf]
    exact .first (.inl rfl)
  | keyUpdateInitiation h1 h2 h3 h4 h5 h6 => exact hears_any id (.inl rfl)
  | @keyUpdate m o ha ks ks' secret h1 h2 h3 h4 h5 =>
    obtain ⟨g, hg⟩ := hi.data h1
    have hf : freshR p = false := by rw [freshR_of h1]; rfl
    show Hears (freshR p) _ _ _ (freshR p) _
    rw [hf, hg.read, h2]
    exact .update
  | @keyUpdateAnswered m o ha ks ks' ks'' enc w read write h1 h2 h3 h4 h5 h6 h7 h8 =>
    obtain ⟨g, hg⟩ := hi.data h1
    have hf : freshR p = false := by rw [freshR_of h1]; rfl
    show Hears (freshR p) _ _ _ (freshR p) _
    rw [hf, hg.read, h2]
    exact .update

theorem hist_cons {α} (f : Step → List α) (x : Step) (h : List Step) :
    (x :: h).reverse.flatMap f = h.reverse.flatMap f ++ f x := by
  simp

theorem run_sender {cfg : Cfg} (hok : ∀ c a, cfg.hashOf c = .ok a → a.Ok) {h s} (hr : Run cfg h s) :
    Sender (Hist.keys .serverAppTraffic h) (Hist.sent .appTraffic h) (freshW s) (WLayer.key .appTraffic s.write) := by
  induction h generalizing s with
  | nil => cases hr; exact .start
  | cons x h ih =>
    obtain ⟨r1, -⟩ := hr.split (newer := [])
    unfold Hist.keys Hist.sent
    rw [hist_cons, hist_cons]
    exact (ih r1).step (step_sends hok hr)

theorem run_receiver {cfg : Cfg} (hok : ∀ c a, cfg.hashOf c = .ok a → a.Ok) {h s} (hr : Run cfg h s) :
    Receiver (Hist.keys .clientAppTraffic h) (Hist.arrived .appTraffic h) (freshR s) (RLayer.key .appTraffic s.read) := by
  induction h generalizing s with
  | nil => cases hr; exact .start
  | cons x h ih =>
    obtain ⟨r1, -⟩ := hr.split (newer := [])
    unfold Hist.keys Hist.arrived
    rw [hist_cons, hist_cons]
    exact (ih r1).step (step_hears hok hr)

/-! ## What is given to the application -/

theorem message_le (t sock b) : message t sock b = [] ∨ ∃ e u, t = .sock ∧ sock = .event e u ∧ b = false ∧ message t sock b = [e] := by
  unfold message
  repeat' split
  · exact .inl rfl
  · rename_i e u hb; exact .inr ⟨e, u, rfl, rfl, by simpa using hb, rfl⟩
  · exact .inl rfl

theorem hello_delivers {cfg inp s u m orig acts} (h : HelloShape cfg inp s u m orig acts) :
    (∀ d, .deliver d ∉ acts) ∧ ∀ b, .endOfData b ∉ acts := by
  have hact : ∀ p f w, (∀ d, .deliver d ∉ helloActions cfg p f w) ∧ ∀ b, .endOfData b ∉ helloActions cfg p f w := by
    intro p f w
    unfold helloActions
    dsimp only
    repeat' split
    all_goals simp [transition]
  cases h with
  | fallback => simp [transition]
  | retry _ _ _ _ h5 =>
    unfold sendRetry at h5
    simp only [Res.bind_eq_ok] at h5
    obtain ⟨_, _, _, _, _, _, _, _, _, _, _, _, h⟩ := h5
    rw [← pure_eq_ok.1 h]
    simp [transition]
  | noKex _ _ _ _ _ _ => exact hact _ _ _
  | kex _ _ _ _ _ _ _ => exact hact _ _ _

/-- A step either fails, or gives all application data of its message to the application. -/
theorem delivers {cfg : Cfg} {i s t acts} (hsh : Shape cfg i s t acts)
    (ht : t = .sock ∨ (∃ e, t = .app e) → terminal s = false) :
    (terminal (applyAll acts s) = false → terminal s = false ∧
      (Spec.delivered ⟨t, i, s, acts⟩).flatten = appData (message t i.sock acts.isEmpty)) ∧
    ((Spec.delivered ⟨t, i, s, acts⟩).flatten = [] ∨
      (Spec.delivered ⟨t, i, s, acts⟩).flatten = appData (message t i.sock acts.isEmpty)) ∧
    ((∃ b, .endOfData b ∈ acts) → terminal s = false ∧ terminal (applyAll acts s) = true ∧
      (∃ b, message t i.sock acts.isEmpty = [.closeNotify b]) ∧ Spec.delivered ⟨t, i, s, acts⟩ = []) := by
  have hlive : ∀ {e}, s.state = e → (e ≠ .error ∧ e ≠ .closed) → terminal s = false := by
    intro e h1 h2; simp [terminal, h1, h2.1, h2.2]
  have happ : ∀ {e b}, message (.app e) i.sock b = [] := by intro e b; rfl
  cases hsh with
  | nothing =>
    have hm : message t i.sock true = [] := by
      rcases message_le t i.sock true with h | ⟨_, _, _, _, h, _⟩
      · exact h
      · cases h
    show (terminal s = false → terminal s = false ∧ _ = appData (message t i.sock true)) ∧ _ ∧ _
    rw [hm]
    exact ⟨fun h => ⟨h, rfl⟩, .inl rfl, by rintro ⟨b, hb⟩; cases hb⟩
  | @fail _ a _ =>
    obtain ⟨-, -, h3⟩ := fail_view (t := t) (i := i) (s := s) (s' := s) (a := a) (b := i.inp.alertFails)
    rw [h3]
    have hd : Spec.delivered ⟨t, i, s, .mutate toError :: (alertWrites s a i.inp.alertFails ++ [.reportError a])⟩ = [] := by
      unfold Spec.delivered alertWrites
      dsimp only
      repeat' split
      all_goals rfl
    rw [hd]
    refine ⟨(by intro h; cases h), .inl rfl, ?_⟩
    rintro ⟨b, hb⟩
    unfold alertWrites at hb
    repeat' split at hb
    all_goals simp at hb
  | wait hs =>
    rw [hs]
    exact ⟨fun h => ⟨h, rfl⟩, .inl rfl, by rintro ⟨b, hb⟩; simp at hb⟩
  | closeNow hw =>
    exact ⟨(by intro h; cases h), .inl rfl, by rintro ⟨b, hb⟩; simp at hb⟩
  | close hw => exact ⟨fun _ => ⟨ht (.inr ⟨_, rfl⟩), rfl⟩, .inl rfl, by rintro ⟨b, hb⟩; simp at hb⟩
  | closed => exact ⟨(by intro h; cases h), .inl rfl, by rintro ⟨b, hb⟩; simp at hb⟩
  | accept hs => exact ⟨fun _ => ⟨hlive hs (by simp), rfl⟩, .inl rfl, by rintro ⟨b, hb⟩; simp [onAccept, transition] at hb⟩
  | v2 => exact ⟨(by intro h; cases h), .inl rfl, by rintro ⟨b, hb⟩; simp [transition] at hb⟩
  | @earlyData d u _ hs =>
    have : (Spec.delivered ⟨.sock, i, s, [.deliver d]⟩).flatten = appData (message .sock i.sock false) := by
      rw [hs]; simp [Spec.delivered, message, appData]
    exact ⟨fun h => ⟨h, this⟩, .inr this, by rintro ⟨b, hb⟩; simp at hb⟩
  | @data d u _ hs =>
    have : (Spec.delivered ⟨.sock, i, s, [.deliver d]⟩).flatten = appData (message .sock i.sock false) := by
      rw [hs]; simp [Spec.delivered, message, appData]
    exact ⟨fun h => ⟨h, this⟩, .inr this, by rintro ⟨b, hb⟩; simp at hb⟩
  | appWrite _ hw => exact ⟨fun h => ⟨h, rfl⟩, .inl rfl, by rintro ⟨b, hb⟩; simp at hb⟩
  | endOfEarlyData h1 h2 =>
    rw [h2]
    exact ⟨fun _ => ⟨hlive h1 (by simp), rfl⟩, .inl rfl, by rintro ⟨b, hb⟩; simp [transition] at hb⟩
  | noCertificate h1 h2 =>
    rw [h2]
    exact ⟨fun _ => ⟨hlive h1 (by simp), rfl⟩, .inl rfl, by rintro ⟨b, hb⟩; simp [transition] at hb⟩
  | certificate h1 h2 =>
    rw [h2]
    exact ⟨fun _ => ⟨hlive h1 (by simp), rfl⟩, .inl rfl, by rintro ⟨b, hb⟩; simp [transition] at hb⟩
  | certificateVerify h1 h2 =>
    rw [h2]
    exact ⟨fun _ => ⟨hlive h1 (by simp), rfl⟩, .inl rfl, by rintro ⟨b, hb⟩; simp [transition] at hb⟩
  | closeNotify h1 h2 =>
    rw [h2]
    exact ⟨(by intro h; cases h), .inl rfl, fun _ => ⟨hlive h1 (by simp), rfl, ⟨_, rfl⟩, rfl⟩⟩
  | expectedCloseNotify h1 h2 =>
    rw [h2]
    exact ⟨(by intro h; cases h), .inl rfl, fun _ => ⟨hlive h1 (by simp), rfl, ⟨_, rfl⟩, rfl⟩⟩
  | @ticket tok _ h1 h2 =>
    rcases ticket_frame h2 with rfl | ⟨w, enc, hw, rfl, hf⟩
    · exact ⟨fun h => ⟨h, rfl⟩, .inl rfl, by rintro ⟨b, hb⟩; simp at hb⟩
    · exact ⟨fun h => ⟨h, rfl⟩, .inl rfl, by rintro ⟨b, hb⟩; simp at hb⟩
  | hello hst hs hsh =>
    obtain ⟨h1, h2⟩ := hello_delivers hsh
    have hd : Spec.delivered ⟨.sock, i, s, acts⟩ = [] := by
      unfold Spec.delivered
      rw [List.flatMap_eq_nil_iff]
      intro a ha
      cases a with
      | deliver d => exact absurd ha (h1 d)
      | _ => rfl
    have hm : appData (message .sock i.sock acts.isEmpty) = [] := by
      rw [hs]; unfold message; dsimp only; split <;> rfl
    rw [hd, hm]
    exact ⟨fun _ => ⟨hlive hst (by simp), rfl⟩, .inl rfl, by rintro ⟨b, hb⟩; exact absurd hb (h2 b)⟩
  | @finished m orig ctx secret ha hc ks ks' cipher version read rms nst h1 h2 h3 h4 h5 h6 h7 h8 h9 h10 h11 h12 h13 h14 =>
    obtain ⟨-, -, -, e4, e5⟩ := finished_view (read := read) (ks := ks') h14
    have hm : appData (message .sock i.sock (finishedActions cfg read rms ks' nst).isEmpty) = [] := by
      rw [h2]; unfold message; dsimp only; split <;> rfl
    rw [e4, hm]
    exact ⟨fun _ => ⟨hlive h1 (by simp), rfl⟩, .inl rfl, by rintro ⟨b, hb⟩; exact absurd hb (e5 b)⟩
  | keyUpdateInitiation h1 h2 h3 h4 h5 h6 =>
    exact ⟨fun _ => ⟨hlive h1 (by simp), rfl⟩, .inl rfl, by rintro ⟨b, hb⟩; simp at hb⟩
  | @keyUpdate m o ha ks ks' secret h1 h2 h3 h4 h5 =>
    rw [h2]
    exact ⟨fun _ => ⟨hlive h1 (by simp), rfl⟩, .inl rfl, by rintro ⟨b, hb⟩; simp at hb⟩
  | @keyUpdateAnswered m o ha ks ks' ks'' enc w read write h1 h2 h3 h4 h5 h6 h7 h8 =>
    rw [h2]
    exact ⟨fun _ => ⟨hlive h1 (by simp), rfl⟩, .inl rfl, by rintro ⟨b, hb⟩; simp at hb⟩

/-- Nothing is lost while the connection lives. -/
theorem run_delivers {cfg : Cfg} {h s} (hr : Run cfg h s) (L : Level) :
    (terminal s = false → Hist.delivered L h = appData ((Hist.arrived L h).map (·.2))) ∧
    Hist.delivered L h <+: appData ((Hist.arrived L h).map (·.2)) ∧
    (Hist.ended L h → terminal s = true ∧ Hist.delivered L h = appData ((Hist.arrived L h).map (·.2)) ∧
      ∃ e ∈ (Hist.arrived L h).map (·.2), Final e) := by
  induction h generalizing s with
  | nil => exact ⟨fun _ => rfl, List.nil_prefix, by rintro ⟨x, hx, -⟩; cases hx⟩
  | cons x h ih =>
    obtain ⟨r1, r2, r3, r4⟩ := hr.split (newer := [])
    have := r2.det hr
    subst this
    obtain ⟨i1, i2, i3⟩ := ih r1
    obtain ⟨d1, d2, d3⟩ := delivers r3 r4
    have e1 : Hist.delivered L (x :: h) = Hist.delivered L h ++
        (if RLayer.key L x.pre.read = none then [] else (Spec.delivered x).flatten) := hist_cons _ _ _
    have e2 : Hist.arrived L (x :: h) = Hist.arrived L h ++
        under (RLayer.key L x.pre.read) (message x.trig x.env.sock x.acts.isEmpty) := hist_cons _ _ _
    rw [e1, e2, List.map_append, appData_append]
    have hdead : terminal x.pre = true → message x.trig x.env.sock x.acts.isEmpty = [] := by
      intro ht
      rcases message_le x.trig x.env.sock x.acts.isEmpty with h | ⟨_, _, h, _⟩
      · exact h
      · rw [r4 (.inl h)] at ht; cases ht
    cases hk : RLayer.key L x.pre.read with
    | none =>
      simp only [if_pos, under, List.map_nil, List.append_nil, show appData [] = [] from rfl]
      refine ⟨fun ht => i1 (d1 ht).1, i2, ?_⟩
      rintro ⟨y, hy, hz, hb⟩
      rcases List.mem_cons.1 hy with rfl | hy
      · exact absurd hk hz
      · obtain ⟨j1, j2, j3⟩ := i3 ⟨y, hy, hz, hb⟩
        refine ⟨?_, j2, j3⟩
        cases ht : terminal (Spec.post x) with
        | true => rfl
        | false => rw [(d1 ht).1] at j1; cases j1
    | some Z =>
      have hv : (under (some Z) (message x.trig x.env.sock x.acts.isEmpty)).map (·.2) =
          message x.trig x.env.sock x.acts.isEmpty := by
        simp [under, Function.comp_def]
      rw [hv, if_neg (by simp)]
      refine ⟨fun ht => ?_, ?_, ?_⟩
      · obtain ⟨k1, k2⟩ := d1 ht
        rw [i1 k1]
        exact congrArg _ k2
      · cases ht : terminal x.pre with
        | false =>
          rw [i1 ht]
          rcases d2 with k | k
          · rw [show (Spec.delivered x).flatten = [] from k, List.append_nil]; exact List.prefix_append _ _
          · rw [show (Spec.delivered x).flatten = _ from k]; exact List.prefix_rfl
        | true =>
          have hm := hdead ht
          have hd : (Spec.delivered x).flatten = [] := by
            rcases d2 with k | k
            · exact k
            · rw [hm] at k; exact k
          rw [hd, hm]
          simpa [appData] using i2
      · rintro ⟨y, hy, hz, hb⟩
        rcases List.mem_cons.1 hy with rfl | hy
        · obtain ⟨k1, k2, ⟨b, k3⟩, k4⟩ := d3 hb
          rw [k3, k4, i1 k1]
          exact ⟨k2, by simp [appData], .closeNotify b, by simp, trivial⟩
        · obtain ⟨j1, j2, j3⟩ := i3 ⟨y, hy, hz, hb⟩
          have hm := hdead j1
          have hd : (Spec.delivered x).flatten = [] := by
            rcases d2 with k | k
            · exact k
            · rw [hm] at k; exact k
          rw [hd, hm]
          refine ⟨?_, by simpa [appData] using j2, by simpa using j3⟩
          cases ht : terminal (Spec.post x) with
          | true => rfl
          | false => rw [(d1 ht).1] at j1; cases j1

/-! ## What the application asked to write -/

theorem step_wrote {cfg : Cfg} (hok : ∀ c a, cfg.hashOf c = .ok a → a.Ok) {x : Step} {h s}
    (hr : Run cfg (x :: h) s) :
    NoData (Spec.contents x) ∨ ∃ pre w, NoData pre ∧ Spec.contents x = pre ++ [content w 23 (requested x.trig)] := by
  obtain ⟨r1, r2, r3, -⟩ := hr.split (newer := [])
  obtain ⟨T, i, p, A⟩ := x
  simp only at *
  have hal : ∀ w d, NoData [alertContent w d] := by
    intro w d c hc
    rw [List.mem_singleton.1 hc]
    exact (by decide : (21 : UInt8) ≠ 23)
  have hhs : ∀ w d, NoData [content w 22 d] := by
    intro w d c hc
    rw [List.mem_singleton.1 hc]
    exact (by decide : (22 : UInt8) ≠ 23)
  have hnil : NoData [] := by intro c hc; cases hc
  cases r3 with
  | nothing => exact .inl hnil
  | @fail _ a _ =>
    obtain ⟨-, h2, -⟩ := fail_view (t := T) (i := i) (s := p) (s' := p) (a := a) (b := i.inp.alertFails)
    rcases h2 with h2 | ⟨w, d, hw, h2⟩
    · rw [h2]; exact .inl hnil
    · rw [h2]; exact .inl (hal _ _)
  | wait => exact .inl hnil
  | closeNow hw => exact .inl (hal _ _)
  | close hw => exact .inl (hal _ _)
  | closed => exact .inl hnil
  | accept hs => exact .inl hnil
  | v2 => exact .inl hnil
  | earlyData => exact .inl hnil
  | data => exact .inl hnil
  | appWrite _ hw => exact .inr ⟨[], _, hnil, rfl⟩
  | endOfEarlyData => exact .inl hnil
  | noCertificate => exact .inl hnil
  | certificate => exact .inl hnil
  | certificateVerify => exact .inl hnil
  | closeNotify _ _ hw => exact .inl (hal _ _)
  | expectedCloseNotify => exact .inl hnil
  | @ticket tok _ h1 h2 =>
    rcases ticket_frame h2 with rfl | ⟨w, enc, hw, rfl, hf⟩
    · exact .inl hnil
    · exact .inl (hhs _ _)
  | hello hst hs hsh =>
    rcases hello_view hok r1 hs hst hsh with ⟨g, hg, ha⟩ | ⟨h1, h2, h3, -, h4⟩
    · obtain ⟨w, c, enc, e1, e2, -, e3⟩ := hg.flight
      rw [e2]
      refine .inl ?_
      intro k hk
      simp only [List.mem_cons, List.mem_append, List.not_mem_nil, or_false] at hk
      rcases hk with rfl | hk | rfl
      · exact (by decide : (22 : UInt8) ≠ 23)
      · rw [e3 k hk]; decide
      · exact (by decide : (22 : UInt8) ≠ 23)
    · exact .inl fun c hc => (h2 c hc).2
  | @finished m orig ctx secret ha hc ks ks' cipher version read rms nst h1 h2 h3 h4 h5 h6 h7 h8 h9 h10 h11 h12 h13 h14 =>
    obtain ⟨-, e2, -⟩ := finished_view (read := read) (ks := ks') h14
    rcases e2 with e2 | ⟨w, enc, hw, hf, e2⟩
    · rw [e2]; exact .inl hnil
    · rw [e2]; exact .inl (hhs _ _)
  | keyUpdateInitiation h1 h2 h3 h4 h5 h6 => exact .inl (hhs _ _)
  | @keyUpdate m o ha ks ks' secret h1 h2 h3 h4 h5 => exact .inl hnil
  | @keyUpdateAnswered m o ha ks ks' ks'' enc w read write h1 h2 h3 h4 h5 h6 h7 h8 => exact .inl (hhs _ _)

theorem run_wrote {cfg : Cfg} (hok : ∀ c a, cfg.hashOf c = .ok a → a.Ok) {h s} (hr : Run cfg h s) (L : Level) :
    Hist.wrote L h = appBytes ((Hist.sent L h).map (·.2)) := by
  induction h generalizing s with
  | nil => rfl
  | cons x h ih =>
    obtain ⟨r1, -⟩ := hr.split (newer := [])
    unfold Hist.wrote Hist.sent at ih ⊢
    rw [hist_cons, hist_cons, List.map_append, appBytes_append, ih r1]
    exact congrArg _ (wrote_step (step_wrote hok hr))

end Fizz.Server
