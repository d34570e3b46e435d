import Verif.Channel.Props

/-!
# All early data is there before the handshake succeeds (C78)
-/

namespace Fizz.Channel
open Fizz.Codec Fizz.Record
open Fizz.Server (Level)
open Fizz.ClientSM (SendsEarly)

/-- What can have been written as early data: application data, and then perhaps EndOfEarlyData, after which there is no
key to write with. -/
def EarlySent (sent : List (Bytes × Item)) (v : Bool) (k : Option Bytes) : Prop :=
  (v = true → sent = [] ∧ k = none) ∧ ∃ ds tl, sent = ds ++ tl ∧ (∀ c ∈ ds, c.2.1 = 23) ∧
    (tl = [] ∨ k = none ∧ ∃ e, tl = [e] ∧ e.2.1 = 22 ∧ Frame 5 e.2.2.flatten)

theorem EarlySent.step {sent v k ann out v' k'} (h : EarlySent sent v k) (hs : SendsEarly v k ann out v' k') :
    EarlySent (sent ++ out) v' k' := by
  obtain ⟨h1, ds, tl, rfl, h2, h3⟩ := h
  cases hs with
  | idle hv hk =>
    refine ⟨fun h => ?_, ds, tl, by simp, h2, ?_⟩
    · obtain ⟨e1, e2⟩ := h1 (hv h)
      rw [e1]
      exact ⟨rfl, by rcases hk with rfl | rfl <;> first | exact e2 | rfl⟩
    · rcases h3 with h3 | ⟨h3, h4⟩
      · exact .inl h3
      · exact .inr ⟨by rcases hk with rfl | rfl <;> first | exact h3 | rfl, h4⟩
  | first hk =>
    have := (h1 rfl).1
    simp only [List.append_eq_nil_iff] at this
    obtain ⟨rfl, rfl⟩ := this
    exact ⟨(by intro h; cases h), [], [], rfl, by simp, .inl rfl⟩
  | @data _ _ Z c hv hc =>
    rcases h3 with rfl | ⟨h3, -⟩
    · refine ⟨fun h => (by cases (h1 (hv h)).2), ds ++ [(Z, c)], [], by simp, ?_, .inl rfl⟩
      intro d hd
      rcases List.mem_append.1 hd with hd | hd
      · exact h2 d hd
      · rw [List.mem_singleton.1 hd]; exact hc
    · cases h3
  | @last _ _ Z c hv hc hf =>
    rcases h3 with rfl | ⟨h3, -⟩
    · exact ⟨fun h => (by cases (h1 (hv h)).2), ds, [(Z, c)], by simp, h2, .inr ⟨rfl, _, rfl, hc, hf⟩⟩
    · cases h3

theorem EarlySent.start : EarlySent [] true none := ⟨fun _ => ⟨rfl, rfl⟩, [], [], rfl, by simp, .inl rfl⟩

/-- Reading less. -/
theorem Reading.prefix {ok : Bytes → Prop} {r es} (h : Reading ok r es) : ∀ {xs}, xs <+: es → Reading ok r xs := by
  induction h with
  | nil => intro xs hx; rw [List.prefix_nil.1 hx]; exact .nil
  | wait h1 h2 _ ih => intro xs hx; exact .wait h1 h2 (ih hx)
  | event h1 h2 _ ih =>
    intro xs hx
    cases xs with
    | nil => exact .nil
    | cons x xs =>
      obtain ⟨rfl, hx'⟩ := List.cons_prefix_cons.1 hx
      exact .event h1 h2 (ih hx')

theorem Carries.prefix {a cs es xs} (h : Carries a cs es) (hx : xs <+: es) : Carries a cs xs := by
  obtain ⟨calls, h1, st, h2, h3, h4⟩ := h
  exact ⟨calls, h1, st, h2, h3, h4.prefix hx⟩

theorem forKey_prefix {α} {Z : Bytes} {a b : List (Bytes × α)} (h : a <+: b) : forKey Z a <+: forKey Z b := by
  obtain ⟨c, rfl⟩ := h
  rw [forKey_append]
  exact List.prefix_append _ _

/-- A link, while less has arrived. -/
theorem Link.prefix {aeadOf kw kr sent arr kr' arr'} (h : Link aeadOf kw kr sent arr) (hk : kr' <+: kr)
    (ha : arr' <+: arr) : Link aeadOf kw kr' sent arr' :=
  ⟨h.overhead, h.writer, h.reader.sublist hk.sublist,
    fun Z hZ => (h.carries Z (hk.subset hZ)).prefix (forKey_prefix ha)⟩

/-- Once EndOfEarlyData has arrived, everything has. -/
theorem early_all {aeadOf : Bytes → Aead} {kw sent v k v1 k1 kr arr v' k'} (hs : Sender kw sent v k)
    (he : EarlySent sent v1 k1)
    (hr : Receiver kr arr v' k') (hl : Link aeadOf kw kr sent arr)
    (hag : ∀ (i : Nat) Z Y, kr[i]? = some Z → kw[i]? = some Y → Z = Y)
    {Z orig} (hm : (Z, .handshake .endOfEarlyData orig) ∈ arr) :
    appData (arr.map (·.2)) = appBytes (sent.map (·.2)) := by
  have hov := hl.overhead
  obtain ⟨W, rfl, rfl, hw, -, -⟩ := hs
  obtain ⟨R, rfl, rfl, hh, -, -⟩ := hr
  obtain ⟨-, ds, tl, e1, e2, e3⟩ := he
  -- handshake messages of the sender
  have hfr : ∀ c ∈ (spread W).map (·.2), c.1 = 22 → Frame 5 c.2.flatten := by
    intro c hc h22
    rw [e1, List.map_append, List.mem_append] at hc
    rcases hc with hc | hc
    · obtain ⟨d, hd, rfl⟩ := List.mem_map.1 hc
      rw [e2 d hd] at h22; cases h22
    · rcases e3 with rfl | ⟨-, e, rfl, -, h5⟩
      · cases hc
      · cases List.mem_singleton.1 hc; exact h5
  have hframes : ∀ cs : List Item, (∀ c ∈ cs, c ∈ (spread W).map (·.2)) → ∀ f ∈ frames cs, ∃ t, t ≠ 24 ∧ Frame t f := by
    intro cs hcs f hf
    simp only [frames, List.mem_map, List.mem_filter, decide_eq_true_eq] at hf
    obtain ⟨c, ⟨hc, ht⟩, rfl⟩ := hf
    exact ⟨5, by decide, hfr c (hcs c hc) ht⟩
  have hfor : ∀ Z, ∀ c ∈ forKey Z (spread W), c ∈ (spread W).map (·.2) := by
    intro Z c hc
    obtain ⟨d, hd, rfl⟩ := List.mem_map.1 hc
    exact List.mem_map_of_mem (List.mem_filter.1 hd).1
  -- at most one generation on either side
  have hW : W.length ≤ 1 := by
    match W, hw, hfr with
    | [], _, _ => simp
    | [_], _, _ => simp
    | (Z, cs) :: g :: W, hw, hfr =>
      exfalso
      rcases hw.head with ⟨-, cs0, u, rfl, -, hu⟩ | ⟨h, -⟩
      · have hin : u ∈ (spread ((Z, cs0 ++ [u]) :: g :: W)).map (·.2) := by
          rw [spread_values]; simp
        exact absurd (frame_type (hfr u hin hu.1) hu.2) (by decide)
      · cases h
  have hR : ∃ Y es, R = [(Y, es)] := by
    match R, hh, hl, hm with
    | [], _, _, hm => simp [spread] at hm
    | [(Y, es)], _, _, _ => exact ⟨Y, es, rfl⟩
    | (Y, es) :: g :: R, hh, hl, _ =>
      exfalso
      obtain ⟨e, he, hu⟩ := hh [] (Y, es) (g :: R) rfl (by simp)
      have hc := hl.carries Y (by simp)
      rw [forKey_spread hl.reader (i := 0) (Z := Y) (xs := es) rfl] at hc
      exact carries_no_update (hov Y) hc (hframes _ (hfor Y)) e he hu
  obtain ⟨Y, es, rfl⟩ := hR
  have hes : (spread [(Y, es)]).map (·.2) = es := by rw [spread_values]; simp
  have hc := hl.carries Y (by simp)
  rw [forKey_spread hl.reader (i := 0) (Z := Y) (xs := es) rfl] at hc
  have hme : .handshake .endOfEarlyData orig ∈ es := by
    rw [← hes]; exact List.mem_map.2 ⟨_, hm, rfl⟩
  have hone : forKey Y (spread W) = (spread W).map (·.2) := by
    match W, hW, hl, hag with
    | [], _, _, _ => rfl
    | [(X, cs)], _, hl, hag =>
      cases hag 0 Y X rfl rfl
      rw [forKey_spread hl.writer (i := 0) (Z := Y) (xs := cs) rfl, spread_values]; simp
  rw [hone] at hc
  rw [hes]
  obtain ⟨seg, more, h1, h2⟩ := carries_got (hov Y) hc
  have horigs : orig ∈ origs es := mem_origs.2 ⟨_, hme⟩
  have hpre := carries_origs (hov Y) hc fun f hf => (hframes _ (fun _ h => h) f hf).imp fun _ h => h.2
  -- EndOfEarlyData has been sent
  have hds : frames (ds.map (·.2)) = [] := by
    unfold frames
    rw [List.map_eq_nil_iff, List.filter_eq_nil_iff]
    intro c hc
    obtain ⟨d, hd, rfl⟩ := List.mem_map.1 hc
    rw [e2 d hd]; decide
  rw [e1, List.map_append] at h1 hpre ⊢
  rcases e3 with rfl | ⟨-, e, rfl, h22, h5⟩
  · rw [frames_append, hds] at hpre
    have := List.prefix_nil.1 hpre
    rw [this] at horigs; cases horigs
  · have hfe : frames ([e].map (·.2)) = [e.2.2.flatten] := by simp [frames, h22]
    rw [frames_append, hds, hfe, List.nil_append] at hpre
    have hall : origs es = [e.2.2.flatten] := by
      have hl := hpre.length_le
      match ho : origs es, horigs with
      | x :: xs, _ =>
        rw [ho] at hpre
        obtain ⟨rfl, hx⟩ := List.cons_prefix_cons.1 hpre
        rw [List.prefix_nil.1 hx]
    have hhs : handshakes es = e.2.2.flatten := by rw [← origs_flatten, hall]; simp
    have hm : pick 22 more = [] := by
      have e1 : pick 22 (itemStream (ds.map (·.2) ++ [e].map (·.2))) = pick 22 (stream seg) ++ pick 22 more := by
        rw [h1, pick_append]
      have e2 : pick 22 (itemStream (ds.map (·.2) ++ [e].map (·.2))) = handshakes es := by
        rw [pick_items, hhs]
        have : handshakeBytes (ds.map (·.2) ++ [e].map (·.2)) = e.2.2.flatten := by
          rw [← frames_flatten, frames_append, hds, hfe]; simp
        exact this
      obtain ⟨r, hr⟩ := h2.hs
      rw [List.nil_append] at hr
      rw [e2, ← hr, List.append_assoc] at e1
      have := congrArg List.length e1
      simp only [List.length_append] at this
      exact List.length_eq_zero_iff.1 (by omega)
    have := nothing_more (cs := ds.map (·.2)) (c := e.2) h5.ne_nil h1 (by rw [h22]; exact hm)
    subst this
    rw [List.append_nil] at h1
    rw [h2.app, ← h1, pick_items]
    rfl

end Fizz.Channel

namespace Fizz.ClientSM
open Fizz.Channel Fizz.Codec Fizz.Record

theorem run_early_sent {cfg : Cfg} (hok : ∀ c a, cfg.hashOf c = .ok a → a.Ok) {h s} (hr : Run cfg h s) :
    EarlySent (Hist.sent .earlyData h) (unused s) (WLayer.key .earlyData s.earlyWrite) := by
  induction h generalizing s with
  | nil => cases hr; exact .start
  | cons x h ih =>
    obtain ⟨r1, -⟩ := hr.split (newer := [])
    unfold Hist.sent
    rw [hist_cons]
    exact (ih r1).step (step_sends_early hok hr)

end Fizz.ClientSM

namespace Fizz.Server
open Fizz.Channel Fizz.Codec Fizz.Record
open Spec (Neg)

/-- States in which early data is over, if there was any. -/
def pastEarly : StateEnum → Bool
  | .acceptingEarlyData | .error | .closed | .expectingCloseNotify => false
  | _ => true

theorem run_early_end {cfg : Cfg} (hok : ∀ c a, cfg.hashOf c = .ok a → a.Ok) (ho : cfg.omitEarlyRecordLayer = false)
    {h s} (hr : Run cfg h s) (he : .reportEarlyHandshakeSuccess ∈ actions h) (hp : pastEarly s.state = true) :
    ∃ Z orig, (Z, .handshake .endOfEarlyData orig) ∈ Hist.arrived .earlyData h := by
  induction h generalizing s with
  | nil => cases he
  | cons x h ih =>
    obtain ⟨r1, r2, r3, -⟩ := hr.split (newer := [])
    have := r2.det hr
    subst this
    have hi := run_inv hok r1
    have hi' := run_inv hok r2
    obtain ⟨T, i, p, A⟩ := x
    simp only at *
    have old : .reportEarlyHandshakeSuccess ∈ actions h → pastEarly p.state = true →
        ∃ Z orig, (Z, .handshake .endOfEarlyData orig) ∈ Hist.arrived .earlyData (⟨T, i, p, A⟩ :: h) := by
      intro a b
      obtain ⟨Z, o, hm⟩ := ih r1 a b
      refine ⟨Z, o, ?_⟩
      unfold Hist.arrived
      rw [hist_cons]
      exact List.mem_append_left _ hm
    have here : A ≠ [] → .reportEarlyHandshakeSuccess ∉ A → .reportEarlyHandshakeSuccess ∈ actions h := by
      intro _ hn
      rw [actions_cons, List.mem_append] at he
      exact he.resolve_right hn
    change pastEarly (applyAll A p).state = true at hp
    cases r3 with
    | nothing => exact old (by simpa using he) hp
    | fail =>
      rw [fail_state] at hp; cases hp
    | wait => exact old (here (by simp) (by simp)) hp
    | closeNow hw => cases hp
    | close hw => cases hp
    | closed => cases hp
    | accept hs =>
      have := (hi.uninit hs).2.2.early
      exact absurd (here (by simp [onAccept]) (by simp [onAccept, transition])) this
    | v2 => cases hp
    | earlyData => exact old (here (by simp) (by simp)) hp
    | data => exact old (here (by simp) (by simp)) hp
    | appWrite _ hw => exact old (here (by simp) (by simp)) hp
    | @endOfEarlyData orig ctx hs hsock =>
      obtain ⟨g, hg⟩ := hi.mid (.inl hs)
      obtain ⟨-, e2, -⟩ := hg.early hs
      refine ⟨g.clientEarly, orig, ?_⟩
      unfold Hist.arrived
      rw [hist_cons]
      refine List.mem_append_right _ ?_
      simp only [e2, hsock, rkey_some, message, under]
      simp
    | noCertificate hs => exact old (here (by simp) (by simp [transition])) (by rw [hs]; rfl)
    | certificate hs => exact old (here (by simp) (by simp [transition])) (by rw [hs]; rfl)
    | certificateVerify hs => exact old (here (by simp) (by simp [transition])) (by rw [hs]; rfl)
    | closeNotify _ _ hw => cases hp
    | expectedCloseNotify => cases hp
    | ticket hs h2 =>
      refine old ?_ (by rw [hs]; rfl)
      rw [actions_cons, List.mem_append] at he
      exact he.resolve_right (ticket_plain h2).2.1.2.1
    | hello hst hs hsh =>
      have hq := (hi.hello hst).2.2.2.2.early
      have he : .reportEarlyHandshakeSuccess ∈ A := by
        rw [actions_cons, List.mem_append] at he
        exact he.resolve_left hq
      rcases hello_view hok r1 hs hst hsh with ⟨g, hg, ha⟩ | ⟨-, -, -, -, h4 | h4⟩
      · have hge := hg.report.2.1 he
        rcases ha.phase with ⟨-, -, h1, -⟩ | ⟨-, skip, -, -, ⟨-, h1, -⟩ | ⟨h1, -⟩ | ⟨h1, -⟩⟩
        · rw [h1] at hp; cases hp
        · rw [ho] at h1; cases h1
        · rw [hge] at h1; cases h1
        · rw [hge] at h1; cases h1
      · rw [h4] at hp; cases hp
      · have := (hi'.hello h4).2.2.2.2.early
        rw [actions_cons] at this
        exact absurd (List.mem_append_right _ he) this
    | @finished _ _ _ _ _ _ _ ks' _ _ read rms nst h1 h2 h3 h4 h5 h6 h7 h8 h9 h10 h11 h12 h13 h14 =>
      have := finishedActions_facts (cfg := cfg) (read := read) (rms := rms) (ks := ks') (finishedTicket_plain h14)
      exact old (here this.2.1 this.2.2.2.1) (by rw [h1]; rfl)
    | keyUpdateInitiation h1 => exact old (here (by simp) (by simp)) (by rw [h1]; rfl)
    | keyUpdate h1 => exact old (here (by simp) (by simp)) (by rw [h1]; rfl)
    | keyUpdateAnswered h1 => exact old (here (by simp) (by simp)) (by rw [h1]; rfl)

theorem hist_prefix {α} (f : Step → List α) (n h : List Step) :
    h.reverse.flatMap f <+: (n ++ h).reverse.flatMap f := by
  rw [List.reverse_append, List.flatMap_append]
  exact List.prefix_append _ _

end Fizz.Server

namespace Fizz.Channel
open Fizz.Codec Fizz.Record
open Fizz.Server (Level)

/-- **No early data is lost.**  If the server accepted early data and reports the success of the handshake, its
application has all the early data the client's application wrote. -/
theorem C78_early_complete {cfgC : ClientSM.Cfg} (hokC : ∀ c a, cfgC.hashOf c = .ok a → a.Ok) {hC sC}
    (hrC : ClientSM.Run cfgC hC sC) {cfgS : Server.Cfg} (hokS : ∀ c a, cfgS.hashOf c = .ok a → a.Ok) {hS sS}
    (hrS : Server.Run cfgS hS sS)
    (h0 : SameKeys (ClientSM.Hist.keys .clientEarlyTraffic hC) (Server.Hist.keys .clientEarlyTraffic hS))
    {aeadOf : Bytes → Aead}
    (hl : Link aeadOf (ClientSM.Hist.keys .clientEarlyTraffic hC) (Server.Hist.keys .clientEarlyTraffic hS)
      (ClientSM.Hist.sent .earlyData hC) (Server.Hist.arrived .earlyData hS))
    (ho : cfgS.omitEarlyRecordLayer = false) (he : .reportEarlyHandshakeSuccess ∈ Server.actions hS)
    (hs : .reportHandshakeSuccess ∈ Server.actions hS) :
    Server.Hist.delivered .earlyData hS = ClientSM.Hist.wrote .earlyData hC := by
  have hpre := C78_early hokC hrC hokS hrS h0 hl
  obtain ⟨x, hx, hsx⟩ := List.mem_flatMap.1 (show _ ∈ List.flatMap _ _ from hs)
  obtain ⟨newer, older, rfl⟩ := List.mem_iff_append.1 (List.mem_reverse.1 hx)
  obtain ⟨r1, r2, r3, -⟩ := hrS.split
  have hi := Server.run_inv hokS r1
  have hst : x.pre.state = .expectingFinished := by
    obtain ⟨m, orig, ctx, secret, ha, -, h2, -⟩ := Server.shape_success hokS hi r3 hsx
    exact h2
  have hearly : .reportEarlyHandshakeSuccess ∈ Server.actions older := by
    obtain ⟨y, hy, hey⟩ := List.mem_flatMap.1 (show _ ∈ List.flatMap _ _ from he)
    rw [List.mem_reverse] at hy
    have hneg : ∀ {n y o}, newer ++ x :: older = n ++ y :: o → .reportEarlyHandshakeSuccess ∈ y.acts →
        y.pre.state = .expectingClientHello ∧ .reportHandshakeSuccess ∉ Server.actions o := by
      intro n y o hsplit hey
      rw [hsplit] at hrS
      obtain ⟨q1, -, q3, -⟩ := hrS.split
      have qi := Server.run_inv hokS q1
      obtain ⟨g, hg, -⟩ := Server.shape_early hokS qi q3 hey
      exact ⟨hg.state, (qi.hello hg.state).2.2.2.2.success⟩
    rcases List.mem_append.1 hy with hy | hy
    · obtain ⟨n, o, rfl⟩ := List.mem_iff_append.1 hy
      refine absurd ?_ (hneg (n := n) (y := y) (o := o ++ x :: older) (by simp) hey).2
      refine List.mem_flatMap.2 ⟨x, by simp, hsx⟩
    · rcases List.mem_cons.1 hy with rfl | hy
      · have := (hneg rfl hey).1
        rw [hst] at this; cases this
      · exact List.mem_flatMap.2 ⟨y, List.mem_reverse.2 hy, hey⟩
  obtain ⟨Z, orig, hm⟩ := Server.run_early_end hokS ho r1 hearly (by rw [hst]; rfl)
  have hsub : newer ++ x :: older = (newer ++ [x]) ++ older := by simp
  have hk : Server.Hist.keys .clientEarlyTraffic older <+: Server.Hist.keys .clientEarlyTraffic (newer ++ x :: older) := by
    rw [hsub]; exact Server.hist_prefix _ _ _
  have hl' := hl.prefix hk (arr' := Server.Hist.arrived .earlyData older) (by rw [hsub]; exact Server.hist_prefix _ _ _)
  have hag : SameKeys (ClientSM.Hist.keys .clientEarlyTraffic hC) (Server.Hist.keys .clientEarlyTraffic older) := by
    intro i Z Y h1 h2
    obtain ⟨c, hc⟩ := hk
    refine h0 i Z Y ?_ h2
    rw [← hc, List.getElem?_append_left (List.getElem?_eq_some_iff.1 h1).1]
    exact h1
  have key := early_all (ClientSM.run_sender_early hokC hrC) (ClientSM.run_early_sent hokC hrC)
    (Server.run_receiver_early hokS r1) hl' hag hm
  have hd := (Server.run_delivers r1 .earlyData).1 (by unfold Server.terminal; rw [hst]; rfl)
  rw [ClientSM.run_wrote hokC hrC] at hpre ⊢
  rw [key] at hd
  have h2 : Server.Hist.delivered .earlyData older <+: Server.Hist.delivered .earlyData (newer ++ x :: older) := by
    rw [hsub]; exact Server.hist_prefix _ _ _
  rw [hd] at h2
  exact hpre.eq_of_length_le h2.length_le

end Fizz.Channel
