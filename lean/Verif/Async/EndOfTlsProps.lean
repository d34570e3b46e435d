import Verif.Async.EndOfTls
import Verif.Async.AlignedProps
import Verif.Record.ReadProps
import Verif.Channel.Server
import Verif.Channel.Client

/-!
# C99: the end of TLS loses nothing and takes nothing
-/

namespace Fizz.Async.EndOfTls
open Fizz.Record Fizz.Codec

variable {σ α : Type}

/-! ## Reading stops where it says -/

/-- A reading function that would have done the same without the bytes it left. -/
structure Exact (body : σ → Bytes → Iter σ α) : Prop where
  again : ∀ {st buf st' rest}, body st buf = .again st' rest → ∃ c, buf = c ++ rest ∧ body st c = .again st' []
  done : ∀ {st buf a st' rest}, body st buf = .done a st' rest → ∃ c, buf = c ++ rest ∧ body st c = .done a st' []

theorem recordBody_exact {hdr : σ → Header → Bytes → Res σ} {act : σ → Header → Bytes → RecAct σ α} (hh : HdrOk hdr) :
    Exact (recordBody hdr act) := by
  have key : ∀ {st buf}, (∀ st' rest, recordBody hdr act st buf = .again st' rest →
        ∃ c, buf = c ++ rest ∧ recordBody hdr act st c = .again st' []) ∧
      ∀ a st' rest, recordBody hdr act st buf = .done a st' rest →
        ∃ c, buf = c ++ rest ∧ recordBody hdr act st c = .done a st' [] := by
    intro st buf
    rcases short_or_header buf with hs | ⟨t, v1, v2, l1, l2, body, rfl⟩
    · rw [recordBody_short _ _ st hs]
      exact ⟨by simp, by simp⟩
    · simp only [recordBody]
      cases hq : hdr st ⟨t, v1, v2, l1, l2⟩ ((t :: v1 :: v2 :: l1 :: l2 :: body).take 10) with
      | error f => simp
      | ok st1 =>
        simp only
        generalize hn : Header.length ⟨t, v1, v2, l1, l2⟩ = n
        by_cases hl : body.length < n
        · rw [if_pos hl]; simp
        · rw [if_neg hl]
          have hc : ∀ {x : Iter σ α}, (match act st1 ⟨t, v1, v2, l1, l2⟩ (body.take n) with
                | .skip st'' => .again st'' []
                | .deliver a st'' => .done a st'' []
                | .fail f => .fail f) = x →
              recordBody hdr act st (t :: v1 :: v2 :: l1 :: l2 :: body.take n) = x := by
            intro x hx
            simp only [recordBody, (hh.ok hq _).1, hn]
            rw [if_neg (by rw [List.length_take]; omega)]
            rw [List.take_take, Nat.min_self, List.drop_eq_nil_of_le (by rw [List.length_take]; omega)]
            exact hx
          have hb : t :: v1 :: v2 :: l1 :: l2 :: body =
              (t :: v1 :: v2 :: l1 :: l2 :: body.take n) ++ body.drop n := by
            simp
          cases ha : act st1 ⟨t, v1, v2, l1, l2⟩ (body.take n) with
          | skip s2 =>
            refine ⟨fun st' rest h => ?_, by simp⟩
            cases h
            exact ⟨_, hb, hc (by rw [ha])⟩
          | deliver a s2 =>
            refine ⟨by simp, fun a' st' rest h => ?_⟩
            cases h
            exact ⟨_, hb, hc (by rw [ha])⟩
          | fail f => simp
  exact ⟨fun h => key.1 _ _ h, fun h => key.2 _ _ _ h⟩

theorem Exact.run {body : σ → Bytes → Iter σ α} (he : Exact body) (hm : Mono body (fun _ _ => False)) :
    Exact (Record.run body) := by
  have hc := hm.consumes
  refine ⟨fun h => absurd h (run_ne_again hc _ _ _ _), ?_⟩
  intro st buf
  refine run_ind hc (P := fun st buf => ∀ {a st' rest}, Record.run body st buf = .done a st' rest →
    ∃ c, buf = c ++ rest ∧ Record.run body st c = .done a st' []) ?_ st buf
  intro st buf ih a st' rest h
  rw [run_eq hc] at h
  cases hb : body st buf with
  | again s1 b1 =>
    rw [hb] at h
    obtain ⟨c, rfl, h1⟩ := he.again hb
    obtain ⟨c1, rfl, h2⟩ := ih _ _ hb h
    refine ⟨c ++ c1, by simp, ?_⟩
    rw [run_eq hc, (hm.again h1).1 c1]
    exact h2
  | done a1 s1 b1 =>
    rw [hb] at h
    cases h
    obtain ⟨c, rfl, h1⟩ := he.done hb
    exact ⟨c, rfl, by rw [run_eq hc, h1]⟩
  | needMore _ _ _ => rw [hb] at h; cases h
  | fail _ => rw [hb] at h; cases h

theorem layerRead_exact {l : Layer} {buf : Bytes} {m l' rest} (h : l.read buf = .done m l' rest) :
    ∃ c, buf = c ++ rest ∧ l.read c = .done m l' [] := by
  cases l with
  | plain p =>
    simp only [Layer.read] at h ⊢
    cases hq : plainRead p buf <;> rw [hq] at h <;> cases h
    obtain ⟨c, h1, h2⟩ := ((recordBody_exact plainHeader_ok).run plainBody_mono).done hq
    exact ⟨c, h1, by
      have : plainRead p c = _ := h2
      rw [this]; rfl⟩
  | enc e =>
    simp only [Layer.read] at h ⊢
    cases hq : encRead e buf <;> rw [hq] at h <;> cases h
    unfold encRead at hq
    cases hg : getDecryptedBuf e buf with
    | done ch s1 r1 =>
      rw [hg] at hq
      simp only at hq
      cases ho : openInner ch <;> rw [ho] at hq <;> cases hq
      obtain ⟨c, h1, h2⟩ := ((recordBody_exact encHeader_ok).run encBody_mono).done hg
      refine ⟨c, h1, ?_⟩
      have h3 : getDecryptedBuf e c = _ := h2
      unfold encRead
      rw [h3]
      simp only [ho]
      rfl
    | _ => rw [hg] at hq; cases hq

/-- Reading an event takes the same bytes whatever follows them; a close_notify comes with what follows. -/
theorem readEvent_exact {r : Reader} {buf : Bytes} {ev : Event} {r' : Reader} {rest : Bytes}
    (h : readEvent r buf = .done ev r' rest) :
    (∃ post c, ev = .closeNotify post ∧ buf = c ++ post ∧
      ∀ x, readEvent r (c ++ x) = .done (.closeNotify x) r' []) ∨
    ((∀ post, ev ≠ .closeNotify post) ∧ ∃ c, buf = c ++ rest ∧ ∀ x, readEvent r (c ++ x) = .done ev r' x) := by
  have hc := eventBody_mono.consumes
  have key : ∀ r buf ev r' rest, run eventBody r buf = .done ev r' rest →
      (∃ post c, ev = .closeNotify post ∧ buf = c ++ post ∧
        ∀ x, run eventBody r (c ++ x) = .done (.closeNotify x) r' []) ∨
      ((∀ post, ev ≠ .closeNotify post) ∧ ∃ c, buf = c ++ rest ∧ ∀ x, run eventBody r (c ++ x) = .done ev r' x) := by
    intro r buf
    refine run_ind hc (P := fun r buf => ∀ ev r' rest, run eventBody r buf = .done ev r' rest →
      (∃ post c, ev = .closeNotify post ∧ buf = c ++ post ∧
        ∀ x, run eventBody r (c ++ x) = .done (.closeNotify x) r' []) ∨
      ((∀ post, ev ≠ .closeNotify post) ∧ ∃ c, buf = c ++ rest ∧ ∀ x, run eventBody r (c ++ x) = .done ev r' x)) ?_ r buf
    intro r buf ih ev r' rest h
    rw [run_eq hc] at h
    rw [eventBody_eq] at h
    cases hg : r.layer.read buf with
    | done m l b1 =>
      obtain ⟨c, rfl, h1⟩ := layerRead_exact hg
      have h2 : ∀ x, r.layer.read (c ++ x) = .done m l x := by
        intro x
        rcases layerRead_mono.done h1 x with h3 | ⟨_, _, _, _, h3⟩
        · exact h3
        · exact h3.elim
      have h3 : ∀ x, eventBody r (c ++ x) = eventAct r l m x := by
        intro x; rw [eventBody_eq, h2]
      rw [hg] at h
      simp only at h
      rcases eventAct_cases r l m with ⟨f, hf⟩ | ⟨ev1, r1, hf⟩ | ⟨r1, hf⟩ | ⟨r1, hf, -⟩
      · rw [hf] at h; cases h
      · rw [hf] at h
        cases h
        have hne : ∀ post, ev ≠ .closeNotify post := by
          intro post he
          have h4 := hf []
          have h5 := hf [0]
          rw [he] at h4 h5
          unfold eventAct at h4 h5
          split at h4
          · cases h4
          · rename_i hs
            rw [if_neg hs] at h5
            split at h4
            · rename_i ht
              rw [if_pos ht] at h5
              cases hd : decodeAlert m.fragment <;> simp only [hd] at h4 h5
              · cases h4
              · split at h4
                · rename_i hn; rw [if_pos hn] at h5; cases h4; cases h5
                · cases h4
            · split at h4
              · cases hd : decodeHandshakeMessage (r.unparsed ++ m.fragment) with
                | error f => simp only [hd] at h4; cases h4
                | ok v => cases v <;> simp only [hd] at h4 <;> cases h4
              · split at h4 <;> cases h4
        refine .inr ⟨hne, c, rfl, fun x => ?_⟩
        rw [run_eq hc, h3, hf]
      · rw [hf] at h
        cases h
        refine .inl ⟨b1, c, rfl, rfl, fun x => ?_⟩
        rw [run_eq hc, h3, hf]
      · rw [hf] at h
        simp only at h
        have hb : eventBody r (c ++ b1) = .again r1 b1 := by rw [h3, hf]
        rcases ih _ _ hb _ _ _ h with ⟨post, c1, he, hb1, hx⟩ | ⟨hne, c1, hb1, hx⟩
        · refine .inl ⟨post, c ++ c1, he, by rw [hb1, List.append_assoc], fun x => ?_⟩
          rw [List.append_assoc, run_eq hc, h3, hf]
          exact hx x
        · refine .inr ⟨hne, c ++ c1, by rw [hb1, List.append_assoc], fun x => ?_⟩
          rw [List.append_assoc, run_eq hc, h3, hf]
          exact hx x
    | again l b1 => exact absurd hg (layerRead_ne_again _ _ _ _)
    | needMore _ _ _ => rw [hg] at h; cases h
    | fail _ => rw [hg] at h; cases h
  rw [readEvent_eq] at h
  cases hd : decodeHandshakeMessage r.unparsed with
  | error f => rw [hd] at h; cases h
  | ok v =>
    cases v with
    | none =>
      rw [hd] at h
      have he : ∀ x, readEvent r x = run eventBody r x := by intro x; rw [readEvent_eq, hd]
      simp only [he]
      exact key _ _ _ _ _ h
    | msg hm orig u' =>
      rw [hd] at h
      cases h
      refine .inr ⟨by simp, [], rfl, fun x => ?_⟩
      rw [readEvent_eq, hd]
      rfl

/-! ## The stream -/

/-- The endpoint that is given `p` at once and looks for events `n` times. -/
def atOnce (react : React) (r : Reader) (p : Bytes) (n : Nat) : Session :=
  Session.exec react (.live r [] []) (.feed p :: List.replicate n .poll)

theorem atOnce_succ (react : React) (r : Reader) (p : Bytes) (n : Nat) :
    atOnce react r p (n + 1) = (atOnce react r p n).step react .poll := by
  unfold atOnce
  rw [List.replicate_succ', ← List.cons_append, exec_append]
  rfl

theorem atOnce_dead {react : React} {r : Reader} {p : Bytes} {n : Nat} {e w} (h : atOnce react r p n = .dead e w) (k : Nat) :
    atOnce react r p (n + k) = .dead e w := by
  induction k with
  | zero => exact h
  | succ k ih => rw [← Nat.add_assoc, atOnce_succ, ih]; rfl

/-- What is known about an endpoint that has been given `d`. -/
def Known (react : React) (r0 : Reader) (d : Bytes) (t : Tap) : Prop :=
  match t.tls with
  | .live r buf evs => t.raw = [] ∧ ∃ used rc bc n, d = used ++ bc ∧ (∀ x, atOnce react r0 (used ++ x) n = .live rc x evs) ∧
      ∀ more, readEvent rc (bc ++ more) = readEvent r (buf ++ more)
  | .dead es none => ∃ used n evs post, es = evs ++ [.closeNotify post] ∧ d = used ++ t.raw ∧
      ∀ x, atOnce react r0 (used ++ x) n = .dead (evs ++ [.closeNotify x]) none
  | .dead _ (some _) => t.raw = []

theorem known_step {react : React} {r0 : Reader} {d : Bytes} {t : Tap} (h : Known react r0 d t) (op : Op) :
    Known react r0 (d ++ delivered [op]) (t.step react op) := by
  obtain ⟨s, raw⟩ := t
  cases s with
  | dead es w =>
    cases w with
    | none =>
      obtain ⟨used, n, evs, post, h1, h2, h3⟩ := h
      cases op with
      | feed x =>
        refine ⟨used, n, evs, post, h1, ?_, h3⟩
        simp only [delivered, List.append_nil] at h2 ⊢
        rw [h2, List.append_assoc]
        rfl
      | poll =>
        refine ⟨used, n, evs, post, h1, ?_, h3⟩
        simp only [delivered, List.append_nil]
        exact h2
    | some f => cases op <;> exact h
  | live r buf evs =>
    obtain ⟨h0, used, rc, bc, n, h1, h2, h3⟩ := h
    simp only at h0
    subst h0
    cases op with
    | feed x =>
      refine ⟨rfl, used, rc, bc ++ x, n, ?_, h2, fun more => ?_⟩
      · simp [delivered, h1]
      · rw [List.append_assoc, List.append_assoc]; exact h3 _
    | poll =>
      have hd : d ++ delivered [Op.poll] = d := by simp [delivered]
      rw [hd]
      have h30 : readEvent rc bc = readEvent r buf := by simpa using h3 []
      cases hr : readEvent r buf with
      | needMore hh r' rest =>
        simp only [Tap.step, hr, Session.step, Known]
        exact ⟨trivial, used, rc, bc, n, h1, h2, fun more => by rw [h3, readEvent_mono.need hr]⟩
      | again r' rest =>
        exfalso
        rw [readEvent_eq] at hr
        split at hr
        · cases hr
        · cases hr
        · exact run_ne_again eventBody_mono.consumes _ _ _ _ hr
      | fail f =>
        simp only [Tap.step, hr, Session.step, Known]
      | done ev r' rest =>
        rcases readEvent_exact (h30.trans hr) with ⟨post, c, rfl, hb, hx⟩ | ⟨hne, c, hb, hx⟩
        · simp only [Tap.step, hr, endOfTLS, Bool.false_eq_true, if_false, if_true, Known]
          refine ⟨used ++ c, n + 1, evs, post, rfl, by rw [h1, hb, List.append_assoc], fun x => ?_⟩
          rw [List.append_assoc, atOnce_succ, h2]
          simp only [Session.step, hx]
        · have hs : Tap.step react ⟨.live r buf evs, []⟩ .poll =
              ⟨.live (react (evs ++ [ev]) r') rest (evs ++ [ev]), []⟩ := by
            cases ev <;> first
              | exact absurd rfl (hne _)
              | simp only [Tap.step, hr, Session.step]
          rw [hs]
          refine ⟨rfl, used ++ c, react (evs ++ [ev]) r', rest, n + 1, by rw [h1, hb, List.append_assoc], fun x => ?_,
            fun _ => rfl⟩
          rw [List.append_assoc, atOnce_succ, h2]
          cases ev <;> first
            | exact absurd rfl (hne _)
            | simp only [Session.step, hx]

theorem delivered_append (a b : List Op) : delivered (a ++ b) = delivered a ++ delivered b := by
  induction a with
  | nil => rfl
  | cons op a ih => cases op <;> simp [delivered, ih]

theorem known_exec {react : React} {r0 : Reader} (ops : List Op) :
    ∀ {d : Bytes} {t : Tap}, Known react r0 d t → Known react r0 (d ++ delivered ops) (t.exec react ops) := by
  induction ops with
  | nil => intro d t h; simpa [delivered, Tap.exec] using h
  | cons op ops ih =>
    intro d t h
    have := ih (known_step h op)
    rw [List.append_assoc, ← delivered_append] at this
    exact this

theorem start_known (react : React) (r0 : Reader) : Known react r0 [] ⟨.live r0 [] [], []⟩ :=
  ⟨rfl, [], r0, [], 0, rfl, fun _ => rfl, fun _ => rfl⟩

/-- **Nothing lost, nothing taken.**  Whatever the transport's segmentation and the schedule, once the endpoint has seen the
close_notify, the bytes the application has been given - from the end-of-TLS callback, then from the transport - are those of
the stream behind the TLS part: the stream is `tls ++ raw`, and an endpoint that is given `tls`, with anything at all behind it,
comes to the same events and the close_notify, with that anything as what is left. -/
theorem C99_handover (react : React) (r0 : Reader) (ops : List Op) (es : List Event) (raw : Bytes)
    (h : Tap.exec react ⟨.live r0 [] [], []⟩ ops = ⟨.dead es none, raw⟩) :
    ∃ tls n evs post, delivered ops = tls ++ raw ∧ es = evs ++ [.closeNotify post] ∧
      ∀ x, atOnce react r0 (tls ++ x) n = .dead (evs ++ [.closeNotify x]) none := by
  have k := known_exec ops (start_known react r0)
  rw [h] at k
  obtain ⟨used, n, evs, post, h1, h2, h3⟩ := k
  exact ⟨used, n, evs, post, by simpa using h2, h1, h3⟩

theorem handover_agrees {react : React} {r0 : Reader} {u₁ u₂ x₁ x₂ : Bytes} {n₁ n₂ : Nat} {e₁ e₂ : List Event}
    (h : u₁ ++ x₁ = u₂ ++ x₂) (h₁ : atOnce react r0 (u₁ ++ x₁) n₁ = .dead (e₁ ++ [.closeNotify x₁]) none)
    (h₂ : atOnce react r0 (u₂ ++ x₂) n₂ = .dead (e₂ ++ [.closeNotify x₂]) none) : e₁ = e₂ ∧ x₁ = x₂ := by
  have a := atOnce_dead h₁ n₂
  have b := atOnce_dead h₂ n₁
  rw [h, Nat.add_comm, b] at a
  injection a with a
  have := List.append_inj' a rfl
  refine ⟨this.1.symm, ?_⟩
  have h3 := this.2
  simp only [List.cons.injEq, Event.closeNotify.injEq, and_true] at h3
  exact h3.symm

/-- **Whatever the segmentation.**  Two schedules that deliver the same stream, both past the close_notify, give the application
the same bytes, after the same events. -/
theorem C99_segmentation (react : React) (r0 : Reader) (ops₁ ops₂ : List Op) (es₁ es₂ : List Event) (raw₁ raw₂ : Bytes)
    (hd : delivered ops₁ = delivered ops₂)
    (h₁ : Tap.exec react ⟨.live r0 [] [], []⟩ ops₁ = ⟨.dead es₁ none, raw₁⟩)
    (h₂ : Tap.exec react ⟨.live r0 [] [], []⟩ ops₂ = ⟨.dead es₂ none, raw₂⟩) :
    raw₁ = raw₂ ∧ es₁.dropLast = es₂.dropLast := by
  obtain ⟨u₁, n₁, e₁, p₁, a₁, b₁, c₁⟩ := C99_handover react r0 ops₁ es₁ raw₁ h₁
  obtain ⟨u₂, n₂, e₂, p₂, a₂, b₂, c₂⟩ := C99_handover react r0 ops₂ es₂ raw₂ h₂
  obtain ⟨x, y⟩ := handover_agrees (a₁.symm.trans (hd.trans a₂)) (c₁ raw₁) (c₂ raw₂)
  exact ⟨y, by rw [b₁, b₂, List.dropLast_concat, List.dropLast_concat, x]⟩

theorem step_tls (react : React) (t : Tap) (op : Op) : (t.step react op).tls = t.tls.step react op := by
  obtain ⟨s, raw⟩ := t
  cases s with
  | dead e w => cases w <;> cases op <;> rfl
  | live r b e =>
    cases op with
    | feed d => rfl
    | poll =>
      simp only [Tap.step, endOfTLS, Bool.false_eq_true, if_false, if_true]
      cases hr : readEvent r b with
      | done ev r' rest => cases ev <;> simp [Session.step, hr]
      | _ => simp

theorem exec_tls (react : React) (ops : List Op) : ∀ t : Tap, (t.exec react ops).tls = t.tls.exec react ops := by
  induction ops with
  | nil => intro t; rfl
  | cons op ops ih =>
    intro t
    show ((t.step react op).exec react ops).tls = _
    rw [ih, step_tls]
    rfl

/-- **Shortest.**  The TLS part is the shortest beginning of the stream on which the endpoint comes to the close_notify: not a
byte behind the alert's record is taken. -/
theorem C99_shortest (react : React) (r0 : Reader) (ops : List Op) (es : List Event) (raw : Bytes)
    (h : Tap.exec react ⟨.live r0 [] [], []⟩ ops = ⟨.dead es none, raw⟩) (p q : Bytes)
    (hp : delivered ops = p ++ q) (hq : raw.length < q.length) (n : Nat) (es' : List Event) :
    atOnce react r0 p n ≠ .dead es' none := by
  intro hdead
  obtain ⟨u, n₁, e₁, p₁, a₁, -, c₁⟩ := C99_handover react r0 ops es raw h
  have k := known_exec (.feed p :: List.replicate n .poll) (start_known react r0)
  generalize ht : Tap.exec react ⟨.live r0 [] [], []⟩ (.feed p :: List.replicate n .poll) = t at k
  have h1 : t.tls = .dead es' none := by
    rw [← ht, exec_tls]; exact hdead
  obtain ⟨s, raw'⟩ := t
  cases h1
  obtain ⟨u', n', e', p', -, b', c'⟩ := k
  have hdel : ∀ n, delivered (List.replicate n Op.poll) = [] := by
    intro n
    induction n with
    | zero => rfl
    | succ n ih => rw [List.replicate_succ]; exact ih
  simp only [delivered, hdel, List.nil_append, List.append_nil] at b'
  have e : u ++ raw = u' ++ (raw' ++ q) := by rw [← List.append_assoc, ← b', ← hp, a₁]
  obtain ⟨-, y⟩ := handover_agrees e (c₁ raw) (c' (raw' ++ q))
  rw [y] at hq
  simp at hq
  omega

/-! ## From the event to the callback -/

/-- **Server.**  In every history, the end is reported exactly when a close_notify is read in a state that accepts data (or that
is waiting for it), with exactly the bytes that came with it; the connection is then closed, and in the first case the alert is
answered before that. -/
theorem C99_server {cfg : Server.Cfg} {newer y older s}
    (hr : Server.Run cfg (newer ++ y :: older) s) {b : Bytes} (h : .endOfData b ∈ y.acts) :
    y.trig = .sock ∧ y.env.sock = .event (.closeNotify b) false ∧
      ((y.pre.state = .acceptingData ∧ ∃ w, y.pre.write = some w ∧ y.acts =
          [.write none [Server.alertContent w 0] 0, .mutate Server.clearLayers, Server.transition .closed, .endOfData b]) ∨
        (y.pre.state = .expectingCloseNotify ∧ y.acts = [.mutate Server.clearLayers, Server.transition .closed, .endOfData b])) := by
  obtain ⟨hrun, -, hsh, h2⟩ := hr.split

  obtain ⟨-, -, h3⟩ := Server.delivers hsh h2
  obtain ⟨-, -, ⟨b', hm⟩, -⟩ := h3 ⟨b, h⟩
  obtain ⟨t, i, s, acts⟩ := y
  simp only at h hsh hm h2 h3 ⊢
  have hs : t = .sock ∧ ∃ u, i.sock = .event (.closeNotify b') u := by
    unfold Channel.message at hm
    split at hm
    · rename_i e u he
      split at hm
      · cases hm
      · cases hm; exact ⟨rfl, u, he⟩
    · cases hm
  obtain ⟨rfl, u, hsock⟩ := hs
  clear hm h3 h2 hr hrun
  cases hsh with
  | closeNotify h1 h2 h4 =>
    simp [Server.transition] at h
    subst h
    exact ⟨rfl, h2, .inl ⟨h1, _, h4, rfl⟩⟩
  | expectedCloseNotify h1 h2 =>
    simp [Server.transition] at h
    subst h
    exact ⟨rfl, h2, .inr ⟨h1, rfl⟩⟩
  | nothing => cases h
  | fail =>
    exfalso
    unfold Server.alertWrites at h
    repeat' split at h
    all_goals simp at h
  | _ =>
    rename_i hs
    exfalso
    simp_all

/-- **Client.**  Likewise. -/
theorem C99_client {cfg : ClientSM.Cfg} (hok : ∀ c a, cfg.hashOf c = .ok a → a.Ok) {newer y older s}
    (hr : ClientSM.Run cfg (newer ++ y :: older) s) {b : Bytes} (h : .endOfData b ∈ y.acts) :
    y.trig = .sock ∧ y.env.sock = .event (.closeNotify b) false ∧
      ((y.pre.state = .established ∧ ∃ w, y.pre.write = some w ∧ y.acts =
          [.write none [Server.alertContent w 0] 0, .mutate ClientSM.clearLayers, ClientSM.transition .closed, .endOfData b]) ∨
        (y.pre.state = .writeSideClosed ∧ y.acts = [.mutate ClientSM.clearLayers, ClientSM.transition .closed, .endOfData b])) := by
  obtain ⟨hrun, -, hsh, h2⟩ := hr.split
  have hi := ClientSM.run_inv hok hrun
  obtain ⟨-, -, h3⟩ := ClientSM.delivers hi hsh h2
  obtain ⟨-, -, ⟨b', hm⟩, -⟩ := h3 ⟨b, h⟩
  obtain ⟨t, i, s, acts⟩ := y
  simp only at h hsh hm h2 h3 ⊢
  have hs : t = .sock ∧ ∃ u, i.sock = .event (.closeNotify b') u := by
    unfold Channel.message at hm
    split at hm
    · rename_i e u he
      split at hm
      · cases hm
      · cases hm; exact ⟨rfl, u, he⟩
    · cases hm
  obtain ⟨rfl, u, hsock⟩ := hs
  clear hm h3 h2 hr hrun
  cases hsh with
  | closeNotify h1 h2 h4 =>
    simp [ClientSM.transition] at h
    subst h
    exact ⟨rfl, h2, .inl ⟨h1, _, h4, rfl⟩⟩
  | expectedCloseNotify h1 h2 =>
    simp [ClientSM.transition] at h
    subst h
    exact ⟨rfl, h2, .inr ⟨h1, rfl⟩⟩
  | nothing => cases h
  | fail =>
    exfalso
    unfold ClientSM.alertWrites at h
    repeat' split at h
    all_goals simp at h
  | _ =>
    rename_i hs
    exfalso
    simp_all

/-- **Whom it goes to.**  A connection that is established hands the bytes to the callback, unchanged, and nothing else happens;
without a callback, and while connecting, the connection ends with an error instead. -/
theorem C99_callback (connecting hasCallback : Bool) (b : Bytes) :
    (endOfTLS connecting hasCallback b = .callback b ↔ connecting = false ∧ hasCallback = true) ∧
    (∀ b', endOfTLS connecting hasCallback b = .callback b' → b' = b) ∧
    (endOfTLS connecting hasCallback b = .invalidState ↔ connecting = true) ∧
    (endOfTLS connecting hasCallback b = .eof ↔ connecting = false ∧ hasCallback = false) := by
  cases connecting <;> cases hasCallback <;> simp [endOfTLS, eq_comm]

/-! ## A concrete case -/

/-- close_notify, one byte that came with it, and another that came later: both reach the application. -/
theorem toy_closes : Tap.exec (fun _ r => r) ⟨.live ⟨.plain {}, []⟩ [] [], []⟩
    [.feed [21, 3, 3, 0, 2], .poll, .feed [1, 0, 104], .poll, .feed [105]] =
      ⟨.dead [.closeNotify [104]] none, [104, 105]⟩ := rfl

example := C99_handover _ _ _ _ _ toy_closes

end Fizz.Async.EndOfTls
