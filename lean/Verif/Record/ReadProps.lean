import Verif.Record.ReadSpec
import Verif.Record.ReadLemmas2

/-!
# Properties of reading: C08, C09, C10, C11
-/

namespace Fizz.Record
open Fizz.Codec

/-! ## C08 -/

/-- Internal: sessions that no schedule can tell apart. -/
def Eqv : Session → Session → Prop
  | .live r b e, .live r' b' e' => e = e' ∧ ∀ more, readEvent r (b ++ more) = readEvent r' (b' ++ more)
  | .dead e w, .dead e' w' => e.map Event.visible = e'.map Event.visible ∧ sameFailure w w'
  | _, _ => False

theorem sameFailure_refl (w : Option Failure) : sameFailure w w := rfl

theorem sameFailure_of_sim {f g : Failure} (h : Failure.Sim f g) : sameFailure (some f) (some g) := by
  cases f <;> cases g <;> simp_all [sameFailure, Failure.Sim, eraseMsg]

theorem sameFailure_trans {a b c : Option Failure} (h1 : sameFailure a b) (h2 : sameFailure b c) :
    sameFailure a c := Eq.trans h1 h2

theorem sameFailure_symm {a b : Option Failure} (h1 : sameFailure a b) : sameFailure b a :=
  Eq.symm h1

theorem Eqv.refl (s : Session) : Eqv s s := by
  cases s
  · exact ⟨rfl, fun _ => rfl⟩
  · exact ⟨rfl, sameFailure_refl _⟩

theorem Eqv.symm {s t : Session} (h : Eqv s t) : Eqv t s := by
  cases s <;> cases t <;> first | exact h.elim | skip
  · exact ⟨h.1.symm, fun m => (h.2 m).symm⟩
  · exact ⟨h.1.symm, sameFailure_symm h.2⟩

theorem Eqv.trans {s t u : Session} (h1 : Eqv s t) (h2 : Eqv t u) : Eqv s u := by
  cases s <;> cases t <;> cases u <;> first | exact h1.elim | exact h2.elim | skip
  · exact ⟨h1.1.trans h2.1, fun m => (h1.2 m).trans (h2.2 m)⟩
  · exact ⟨h1.1.trans h2.1, sameFailure_trans h1.2 h2.2⟩

theorem Eqv.same {s t : Session} (h : Eqv s t) : Session.Same s t := by
  cases s <;> cases t <;> first | exact h.elim | skip
  · exact h.1
  · exact h

theorem Eqv.step (react : React) {s t : Session} (h : Eqv s t) (op : Op) :
    Eqv (s.step react op) (t.step react op) := by
  cases s <;> cases t <;> first | exact h.elim | skip
  · obtain ⟨rfl, h2⟩ := h
    cases op with
    | feed d =>
      refine ⟨rfl, fun more => ?_⟩
      rw [List.append_assoc, List.append_assoc]; exact h2 _
    | poll =>
      have := h2 []
      simp only [List.append_nil] at this
      simp only [Session.step, this]
      exact Eqv.refl _
  · cases op <;> exact h

theorem Eqv.exec (react : React) {s t : Session} (h : Eqv s t) (ops : List Op) :
    Eqv (s.exec react ops) (t.exec react ops) := by
  induction ops generalizing s t with
  | nil => exact h
  | cons op ops ih => exact ih (h.step react op)

/-- Feed data to a session. -/
def Session.feed : Session → Bytes → Session
  | .live r b e, d => .live r (b ++ d) e
  | .dead e w, _ => .dead e w

def polls : List Op → Nat
  | [] => 0
  | .feed _ :: ops => polls ops
  | .poll :: ops => polls ops + 1

theorem visible_close (e : List Event) (x y : Bytes) :
    (e ++ [Event.closeNotify x]).map Event.visible = (e ++ [Event.closeNotify y]).map Event.visible := by
  simp [Event.visible]

theorem dead_exec (react : React) (e w ops) :
    (Session.dead e w).exec react ops = .dead e w := by
  induction ops with
  | nil => rfl
  | cons op ops ih => cases op <;> exact ih

theorem Eqv.feed {s t : Session} (h : Eqv s t) (d : Bytes) : Eqv (s.feed d) (t.feed d) := by
  cases s <;> cases t <;> first | exact h.elim | skip
  · refine ⟨h.1, fun more => ?_⟩
    rw [List.append_assoc, List.append_assoc]; exact h.2 _
  · exact h

/-- Every schedule behaves like delivering everything first and then polling some times. -/
theorem normalise (react : React) (ops : List Op) : ∀ s : Session, ∃ n ≤ polls ops,
    Eqv (s.exec react ops) ((s.feed (delivered ops)).exec react (List.replicate n .poll)) := by
  induction ops with
  | nil =>
    intro s
    refine ⟨0, Nat.le_refl _, ?_⟩
    cases s
    · exact ⟨rfl, fun m => by simp [delivered]⟩
    · exact Eqv.refl _
  | cons op ops ih =>
    intro s
    cases s with
    | dead e w =>
      refine ⟨0, Nat.zero_le _, ?_⟩
      rw [dead_exec]; exact Eqv.refl _
    | live r b e =>
      cases op with
      | feed d =>
        obtain ⟨n, hn, h⟩ := ih (.live r (b ++ d) e)
        refine ⟨n, hn, ?_⟩
        simp only [Session.feed, delivered] at h ⊢
        rw [List.append_assoc] at h
        exact h
      | poll =>
        have hm := readEvent_mono
        simp only [delivered]
        cases hr : readEvent r b with
        | needMore h r' rest =>
          have e1 : Session.exec react (.live r b e) (.poll :: ops) =
              Session.exec react (.live r' rest e) ops := by
            simp [Session.exec, Session.step, hr]
          obtain ⟨n, hn, h2⟩ := ih (.live r' rest e)
          refine ⟨n, by simp only [polls]; omega, ?_⟩
          rw [e1]
          refine h2.trans (Eqv.exec react (Eqv.feed ?_ _) _)
          exact ⟨rfl, fun more => (hm.need hr more).symm⟩
        | again r' rest =>
          exfalso
          rw [readEvent_eq] at hr
          split at hr
          · cases hr
          · cases hr
          · exact run_ne_again eventBody_mono.consumes _ _ _ _ hr
        | fail f =>
          have e1 : Session.exec react (.live r b e) (.poll :: ops) = .dead e (some f) := by
            have : Session.exec react (.live r b e) (.poll :: ops) =
              Session.exec react (.dead e (some f)) ops := by
              simp [Session.exec, Session.step, hr]
            rw [this, dead_exec]
          obtain ⟨f', h1, h2⟩ := hm.fail hr (delivered ops)
          refine ⟨1, by simp only [polls]; omega, ?_⟩
          rw [e1]
          simp only [Session.feed, Session.exec, List.replicate_one, List.foldl_cons,
            List.foldl_nil, Session.step, h1]
          exact ⟨rfl, sameFailure_of_sim h2⟩
        | done ev r' rest =>
          by_cases hc : ∃ x, ev = .closeNotify x
          · obtain ⟨x, rfl⟩ := hc
            have e1 : Session.exec react (.live r b e) (.poll :: ops) =
                .dead (e ++ [.closeNotify x]) none := by
              have : Session.exec react (.live r b e) (.poll :: ops) =
                Session.exec react (.dead (e ++ [.closeNotify x]) none) ops := by
                simp [Session.exec, Session.step, hr]
              rw [this, dead_exec]
            refine ⟨1, by simp only [polls]; omega, ?_⟩
            rw [e1]
            rcases hm.done hr (delivered ops) with h1 | ⟨a', s', r'', h1, y, z, hy, rfl⟩
            · simp only [Session.feed, Session.exec, List.replicate_one, List.foldl_cons,
                List.foldl_nil, Session.step, h1]
              exact ⟨rfl, rfl⟩
            · simp only [Session.feed, Session.exec, List.replicate_one, List.foldl_cons,
                List.foldl_nil, Session.step, h1]
              exact ⟨visible_close _ _ _, rfl⟩
          · have h1 : ∀ more, readEvent r (b ++ more) = .done ev r' (rest ++ more) := by
              intro more
              rcases hm.done hr more with h1 | ⟨a', s', r'', h1, y, z, hy, -⟩
              · exact h1
              · exact absurd ⟨y, hy⟩ hc
            have st : ∀ x, readEvent r x = .done ev r' rest ∨ True := fun _ => Or.inr trivial
            have e1 : Session.exec react (.live r b e) (.poll :: ops) =
                Session.exec react (.live (react (e ++ [ev]) r') rest (e ++ [ev])) ops := by
              cases ev <;> first | (exact absurd ⟨_, rfl⟩ hc) | simp [Session.exec, Session.step, hr]
            obtain ⟨n, hn, h2⟩ := ih (.live (react (e ++ [ev]) r') rest (e ++ [ev]))
            refine ⟨n + 1, by simp only [polls]; omega, ?_⟩
            rw [e1]
            refine h2.trans ?_
            have e2 : Session.exec react (Session.feed (.live r b e) (delivered ops))
                (List.replicate (n+1) .poll) = Session.exec react
                (.live (react (e ++ [ev]) r') (rest ++ delivered ops) (e ++ [ev]))
                (List.replicate n .poll) := by
              cases ev <;> first
                | (exact absurd ⟨_, rfl⟩ hc)
                | simp [Session.exec, Session.step, Session.feed, h1, List.replicate_succ]
            rw [e2]
            exact Eqv.refl _

theorem quiescent_iff (react : React) (s : Session) (h : s.Quiescent react) :
    Eqv (s.step react .poll) s := by
  cases s with
  | dead e w => exact Eqv.refl _
  | live r b e =>
    simp only [Session.Quiescent, Session.step] at *
    cases hr : readEvent r b with
    | needMore hh r' rest =>
      exact ⟨rfl, fun more => (readEvent_mono.need hr more).symm⟩
    | again r' rest =>
      exfalso
      rw [readEvent_eq] at hr
      split at hr
      · cases hr
      · cases hr
      · exact run_ne_again eventBody_mono.consumes _ _ _ _ hr
    | fail f => rw [hr] at h; exact h.elim
    | done ev r' rest =>
      rw [hr] at h
      cases ev <;> simp [Session.Same] at h

theorem Session.Same.quiescent (react : React) {s t : Session} (h : Eqv s t)
    (hq : s.Quiescent react) : t.Quiescent react := by
  have h1 := quiescent_iff react s hq
  have : Eqv t (t.step react .poll) := h.symm.trans (h1.symm.trans (h.step react .poll))
  exact this.same

theorem quiescent_polls (react : React) (s : Session) (h : s.Quiescent react) (n : Nat) :
    Eqv (s.exec react (List.replicate n .poll)) s := by
  induction n with
  | zero => exact Eqv.refl _
  | succ n ih =>
    rw [List.replicate_succ]
    have h1 := quiescent_iff react s h
    exact (Eqv.exec react h1 _).trans ih

theorem exec_append (react : React) (s : Session) (a b : List Op) :
    s.exec react (a ++ b) = (s.exec react a).exec react b := by
  simp [Session.exec, List.foldl_append]

/-- C08: two schedules that deliver the same bytes, however cut and interleaved with reads, and
that both have read everything available, produced the same events and the same fate - for every
initial layer and every user who switches layers in reaction to events. -/
theorem C08_segmentation (react : React) (r : Reader) (ops₁ ops₂ : List Op)
    (hd : delivered ops₁ = delivered ops₂)
    (q₁ : (Session.exec react (.live r [] []) ops₁).Quiescent react)
    (q₂ : (Session.exec react (.live r [] []) ops₂).Quiescent react) :
    Session.Same (Session.exec react (.live r [] []) ops₁)
      (Session.exec react (.live r [] []) ops₂) := by
  obtain ⟨n₁, -, h₁⟩ := normalise react ops₁ (.live r [] [])
  obtain ⟨n₂, -, h₂⟩ := normalise react ops₂ (.live r [] [])
  rw [← hd] at h₂
  have key : ∀ (s : Session) (a b : Nat), a ≤ b →
      (s.exec react (List.replicate a .poll)).Quiescent react →
      Eqv (s.exec react (List.replicate a .poll)) (s.exec react (List.replicate b .poll)) := by
    intro s a b hab hq
    obtain ⟨c, rfl⟩ := Nat.exists_eq_add_of_le hab
    rw [← List.replicate_append_replicate, exec_append]
    exact (quiescent_polls react _ hq c).symm
  rcases Nat.le_total n₁ n₂ with hle | hle
  · exact ((h₁.trans (key _ _ _ hle (Session.Same.quiescent react h₁ q₁))).trans h₂.symm).same
  · exact ((h₂.trans (key _ _ _ hle (Session.Same.quiescent react h₂ q₂))).trans h₁.symm).symm.same

/-- C08 (no schedule invents or reorders events): whatever the schedule, the events delivered so
far are those of receiving all its bytes at once and reading some number of times, at most as many
as the schedule did. -/
theorem C08_prefix (react : React) (r : Reader) (ops : List Op) :
    ∃ n, Session.Same (Session.exec react (.live r [] []) ops)
      (Session.exec react (.live r [] []) (.feed (delivered ops) :: List.replicate n .poll)) := by
  obtain ⟨n, -, h⟩ := normalise react ops (.live r [] [])
  exact ⟨n, h.same⟩

/-! ## C09 -/

/-- C09: when reading returns "need more data" with hint `h`: `h` is positive; what is buffered is
an incomplete header of which `h` bytes are missing, or a complete header with an incomplete body
of which `h` bytes are missing; and any smaller amount of additional data gives "need more data"
again, with the hint reduced by what arrived. -/
theorem C09_hint (l : Layer) (buf : Bytes) (h : Nat) (l' : Layer) (rest : Bytes)
    (hr : l.read buf = .needMore h l' rest) :
    0 < h ∧
    ((rest.length < 5 ∧ rest.length + h = 5) ∨
      ∃ (hd : Header) (body : Bytes), rest = hd.bytes ++ body ∧ body.length < hd.length ∧
        body.length + h = hd.length) ∧
    ∀ more : Bytes, more.length < h →
      ∃ l'', l.read (buf ++ more) = .needMore (h - more.length) l'' (rest ++ more) :=
  layerRead_hinted l buf h l' rest hr

/-- C09 at the level of events. -/
theorem C09_hint_event (r : Reader) (buf : Bytes) (h : Nat) (r' : Reader) (rest : Bytes)
    (hr : readEvent r buf = .needMore h r' rest) :
    0 < h ∧
    ((rest.length < 5 ∧ rest.length + h = 5) ∨
      ∃ (hd : Header) (body : Bytes), rest = hd.bytes ++ body ∧ body.length < hd.length ∧
        body.length + h = hd.length) ∧
    ∀ more : Bytes, more.length < h →
      ∃ r'', readEvent r (buf ++ more) = .needMore (h - more.length) r'' (rest ++ more) :=
  readEvent_hinted r buf h r' rest hr

/-- C09: a record read consumes at least its header, so a caller looping on reads terminates. -/
theorem C09_progress (l : Layer) (buf : Bytes) (m : TLSMessage) (l' : Layer) (rest : Bytes)
    (h : l.read buf = .done m l' rest) : rest.length + 5 ≤ buf.length :=
  layerRead_done_lt h

/-- C09: the reading loops terminate: one iteration per buffered byte is enough, more never change
the result. -/
theorem C09_terminates (n : Nat) (buf : Bytes) (hn : buf.length < n) :
    (∀ p, loop plainBody n p buf = plainRead p buf) ∧
    (∀ e, loop encBody n e buf = getDecryptedBuf e buf) ∧
    (∀ r, loop eventBody n r buf = loop eventBody (buf.length + 1) r buf) :=
  ⟨fun _ => loop_fuel plainBody_mono.consumes _ _ _ _ hn (by omega),
   fun _ => loop_fuel encBody_mono.consumes _ _ _ _ hn (by omega),
   fun _ => loop_fuel eventBody_mono.consumes _ _ _ _ hn (by omega)⟩

/-! ## C10 -/

theorem decode_framed {u : Bytes} {m orig u'} (h : decodeHandshakeMessage u = .ok (.msg m orig u')) :
    u = orig ++ u' ∧ Framed orig m ∧ orig.length ≤ 4 + kMaxHandshakeSize := by
  unfold decodeHandshakeMessage at h
  split at h
  · rename_i t a b c body
    split_ifs at h with h1 h2
    · cases h
    cases hp : parseHandshake t (body.take (be24 a b c)) with
    | error f => rw [hp] at h; cases h
    | ok m1 =>
      rw [hp] at h
      cases h
      have hl : (body.take (be24 a b c)).length = be24 a b c := by
        rw [List.length_take]; omega
      refine ⟨by simp, ⟨t, a, b, c, _, rfl, hl, hp⟩, ?_⟩
      simp only [List.length_cons, hl]; omega
  · cases h

theorem Reads.append {l b ms l1 b1 ms' l2 b2} (h : Reads l b ms l1 b1) (h' : Reads l1 b1 ms' l2 b2) :
    Reads l b (ms ++ ms') l2 b2 := by
  induction h with
  | nil => exact h'
  | cons h1 _ ih => exact .cons h1 (ih h')

/-- Everything `run eventBody` can deliver. -/
theorem run_event_done (r : Reader) (buf : Bytes) : ∀ ev r' rest,
    run eventBody r buf = .done ev r' rest →
    (∃ m orig ms, ev = .handshake m orig ∧ Reads r.layer buf ms r'.layer rest ∧
      (∀ x ∈ ms, x.type = ContentType.handshake) ∧
      r.unparsed ++ ms.flatMap (·.fragment) = orig ++ r'.unparsed ∧ Framed orig m ∧
      orig.length ≤ 4 + kMaxHandshakeSize) ∨
    (r.unparsed = [] ∧ r'.unparsed = [] ∧ ∃ m rest', r.layer.read buf = .done m r'.layer rest' ∧
      ((m.type = ContentType.application_data ∧ ev = .appData m.fragment ∧ rest' = rest) ∨
       (m.type = ContentType.alert ∧ ∃ a, decodeAlert m.fragment = .ok a ∧
          ((a.description = close_notify ∧ ev = .closeNotify rest' ∧ rest = []) ∨
           (a.description ≠ close_notify ∧ ev = .alert a ∧ rest' = rest))))) := by
  have hc := eventBody_mono.consumes
  refine run_ind hc (P := fun r buf => ∀ ev r' rest, run eventBody r buf = .done ev r' rest → (
    (∃ m orig ms, ev = .handshake m orig ∧ Reads r.layer buf ms r'.layer rest ∧
      (∀ x ∈ ms, x.type = ContentType.handshake) ∧
      r.unparsed ++ ms.flatMap (·.fragment) = orig ++ r'.unparsed ∧ Framed orig m ∧
      orig.length ≤ 4 + kMaxHandshakeSize) ∨
    (r.unparsed = [] ∧ r'.unparsed = [] ∧ ∃ m rest', r.layer.read buf = .done m r'.layer rest' ∧
      ((m.type = ContentType.application_data ∧ ev = .appData m.fragment ∧ rest' = rest) ∨
       (m.type = ContentType.alert ∧ ∃ a, decodeAlert m.fragment = .ok a ∧
          ((a.description = close_notify ∧ ev = .closeNotify rest' ∧ rest = []) ∨
           (a.description ≠ close_notify ∧ ev = .alert a ∧ rest' = rest))))))) ?_ r buf
  intro r buf ih ev r' rest h
  rw [run_eq hc] at h
  cases hb : eventBody r buf with
  | needMore _ _ _ => rw [hb] at h; simp at h
  | fail _ => rw [hb] at h; simp at h
  | again r1 rest1 =>
    rw [hb] at h
    have hb' := hb
    rw [eventBody_eq] at hb'
    cases hg : r.layer.read buf with
    | again l rest => exact absurd hg (layerRead_ne_again _ _ _ _)
    | needMore _ _ _ => rw [hg] at hb'; cases hb'
    | fail _ => rw [hg] at hb'; cases hb'
    | done m l rest2 =>
      rw [hg] at hb'
      simp only [eventAct] at hb'
      have hfrag := (layerRead_type hg).2
      split_ifs at hb' with c1 c2 c3 c4
      · split at hb'
        · cases hb'
        · split_ifs at hb'
      · split at hb'
        · cases hb'
        · cases hb'
          rcases ih _ _ hb _ _ _ h with ⟨m2, orig, ms, e1, e2, e3, e4, e5, e6⟩ | ⟨e1, -⟩
          · left
            refine ⟨m2, orig, m :: ms, e1, .cons hg e2, ?_, ?_, e5, e6⟩
            · intro x hx
              rcases List.mem_cons.1 hx with rfl | hx
              · exact c3
              · exact e3 x hx
            · simp only [List.flatMap_cons]
              rw [← List.append_assoc]; exact e4
          · exfalso
            simp only [List.append_eq_nil_iff] at e1
            have := hfrag e1.2
            rw [this] at c3
            exact absurd c3 (by decide)
        · cases hb'
  | done ev1 r1 rest1 =>
    rw [hb] at h
    cases h
    rw [eventBody_eq] at hb
    cases hg : r.layer.read buf with
    | again l rest => exact absurd hg (layerRead_ne_again _ _ _ _)
    | needMore _ _ _ => rw [hg] at hb; cases hb
    | fail _ => rw [hg] at hb; cases hb
    | done m l rest2 =>
      rw [hg] at hb
      simp only [eventAct] at hb
      split_ifs at hb with c1 c2 c3 c4
      · have hu : r.unparsed = [] := by
          by_cases hu : r.unparsed = []
          · exact hu
          · exfalso; apply c1; refine ⟨hu, ?_⟩; rw [c2]; decide
        cases hd : decodeAlert m.fragment with
        | error f => rw [hd] at hb; cases hb
        | ok a =>
          rw [hd] at hb
          simp only at hb
          split_ifs at hb with c5
          · cases hb
            exact Or.inr ⟨hu, hu, m, rest2, rfl, Or.inr ⟨c2, a, hd, Or.inl ⟨c5, rfl, rfl⟩⟩⟩
          · cases hb
            exact Or.inr ⟨hu, hu, m, _, rfl, Or.inr ⟨c2, a, hd, Or.inr ⟨c5, rfl, rfl⟩⟩⟩
      · cases hd : decodeHandshakeMessage (r.unparsed ++ m.fragment) with
        | error f => rw [hd] at hb; cases hb
        | ok o =>
          rw [hd] at hb
          cases o with
          | none => cases hb
          | msg hm orig u' =>
            cases hb
            obtain ⟨f1, f2, f3⟩ := decode_framed hd
            left
            refine ⟨hm, orig, [m], rfl, .cons hg (.nil _ _), ?_, ?_, f2, f3⟩
            · intro x hx; rw [List.mem_singleton.1 hx]; exact c3
            · simpa using f1
      · have hu : r.unparsed = [] := by
          by_cases hu : r.unparsed = []
          · exact hu
          · exfalso; apply c1; refine ⟨hu, ?_⟩; rw [c4]; decide
        cases hb
        exact Or.inr ⟨hu, hu, m, _, rfl, Or.inl ⟨c4, rfl, rfl⟩⟩

/-- C10: a delivered handshake message is exactly one framed message cut from the front of the
leftover handshake bytes followed by the fragments of the records read (all handshake records);
whatever follows it in those records is kept for the next message; its `originalEncoding` is the
exact bytes received; it is at most 128 KiB plus the 4-byte header. -/
theorem C10_reassembly (r : Reader) (buf : Bytes) (m : HsMsg) (orig : Bytes) (r' : Reader)
    (rest : Bytes) (h : readEvent r buf = .done (.handshake m orig) r' rest) :
    ∃ ms, Reads r.layer buf ms r'.layer rest ∧ (∀ x ∈ ms, x.type = ContentType.handshake) ∧
      r.unparsed ++ ms.flatMap (·.fragment) = orig ++ r'.unparsed ∧
      Framed orig m ∧ orig.length ≤ 4 + 128 * 1024 := by
  rw [readEvent_eq] at h
  split at h
  · cases h
  · rename_i hm o u' hd
    cases h
    obtain ⟨f1, f2, f3⟩ := decode_framed hd
    exact ⟨[], .nil _ _, by simp, by simpa using f1, f2, f3⟩
  · rcases run_event_done _ _ _ _ _ h with ⟨m2, orig2, ms, e1, e2, e3, e4, e5, e6⟩ |
      ⟨_, _, _, _, _, ⟨_, h2, _⟩ | ⟨_, _, _, ⟨_, h2, _⟩ | ⟨_, h2, _⟩⟩⟩
    · cases e1; exact ⟨ms, e2, e3, e4, e5, e6⟩
    all_goals cases h2

/-- C10: application data and alerts are delivered only when no partial handshake message is
pending, and are exactly the content of the one record just read. -/
theorem C10_no_splice (r : Reader) (buf : Bytes) (ev : Event) (r' : Reader) (rest : Bytes)
    (h : readEvent r buf = .done ev r' rest) (hne : ∀ m o, ev ≠ .handshake m o) :
    r.unparsed = [] ∧ r'.unparsed = [] ∧
      ∃ m rest', r.layer.read buf = .done m r'.layer rest' ∧
      ((m.type = ContentType.application_data ∧ ev = .appData m.fragment ∧ rest' = rest) ∨
       (m.type = ContentType.alert ∧ ∃ a, decodeAlert m.fragment = .ok a ∧
          ((a.description = close_notify ∧ ev = .closeNotify rest' ∧ rest = []) ∨
           (a.description ≠ close_notify ∧ ev = .alert a ∧ rest' = rest)))) := by
  rw [readEvent_eq] at h
  split at h
  · cases h
  · cases h; exact absurd rfl (hne _ _)
  · rcases run_event_done _ _ _ _ _ h with ⟨m2, orig2, ms, e1, _⟩ | h2
    · exact absurd e1 (hne _ _)
    · exact h2

/-- C10: a record of another type arriving while a handshake message is incomplete is an error. -/
theorem C10_splice_is_error (r : Reader) (buf : Bytes) (m : TLSMessage) (l : Layer) (rest : Bytes)
    (hu : r.unparsed ≠ []) (hd : decodeHandshakeMessage r.unparsed = .ok .none)
    (hr : r.layer.read buf = .done m l rest) (ht : m.type ≠ ContentType.handshake) :
    readEvent r buf = .fail (Failure.rt "spliced handshake data") := by
  rw [readEvent_eq, hd]
  simp only
  rw [run_eq eventBody_mono.consumes, eventBody_eq, hr]
  simp only [eventAct]
  rw [if_pos ⟨hu, ht⟩]

theorem framed_unique {o o' : Bytes} {m m' : HsMsg} {x y : Bytes} (h : Framed o m) (h' : Framed o' m')
    (he : o ++ x = o' ++ y) : o = o' ∧ m = m' ∧ x = y := by
  obtain ⟨t, a, b, c, body, rfl, hl, hp⟩ := h
  obtain ⟨t', a', b', c', body', rfl, hl', hp'⟩ := h'
  simp only [List.cons_append, List.cons.injEq] at he
  obtain ⟨rfl, rfl, rfl, rfl, he⟩ := he
  obtain ⟨rfl, rfl⟩ := List.append_inj he (by rw [hl, hl'])
  rw [hp] at hp'
  cases hp'
  exact ⟨rfl, rfl, rfl⟩

/-- C10 (history): over any number of successive handshake messages, the original encodings
concatenated are exactly the handshake bytes received, in order, none lost, duplicated or
reordered; the leftover is what is still unparsed. -/
theorem C10_history {r : Reader} {buf : Bytes} {evs : List (HsMsg × Bytes)} {r' : Reader} {rest : Bytes}
    (h : Polls r buf (evs.map fun p => .handshake p.1 p.2) r' rest) :
    ∃ ms, Reads r.layer buf ms r'.layer rest ∧ (∀ x ∈ ms, x.type = ContentType.handshake) ∧
      r.unparsed ++ ms.flatMap (·.fragment) = evs.flatMap (·.2) ++ r'.unparsed ∧
      ∀ p ∈ evs, Framed p.2 p.1 := by
  generalize hl : (evs.map fun p => Event.handshake p.1 p.2) = l at h
  induction h generalizing evs with
  | nil r b =>
    rw [List.map_eq_nil_iff] at hl; subst hl
    exact ⟨[], .nil _ _, by simp, by simp, by simp⟩
  | cons h1 _ ih =>
    cases evs with
    | nil => simp at hl
    | cons p ps =>
      simp only [List.map_cons, List.cons.injEq] at hl
      obtain ⟨rfl, rfl⟩ := hl
      obtain ⟨ms1, a1, a2, a3, a4, -⟩ := C10_reassembly _ _ _ _ _ _ h1
      obtain ⟨ms2, b1, b2, b3, b4⟩ := ih rfl
      refine ⟨ms1 ++ ms2, a1.append b1, ?_, ?_, ?_⟩
      · intro x hx; rcases List.mem_append.1 hx with hx | hx
        · exact a2 x hx
        · exact b2 x hx
      · rw [List.flatMap_append, ← List.append_assoc, a3, List.append_assoc, b3]; simp
      · intro q hq; rcases List.mem_cons.1 hq with rfl | hq
        · exact a4
        · exact b4 q hq

theorem Reads.length {l b ms l' c} (h : Reads l b ms l' c) : c.length + ms.length ≤ b.length := by
  induction h with
  | nil => simp
  | cons h1 _ ih => have := layerRead_done_lt h1; simp only [List.length_cons]; omega

theorem Reads.unique {l b ms l' c} (h : Reads l b ms l' c) : ∀ {ms' l''}, Reads l b ms' l'' c →
    ms = ms' := by
  induction h with
  | nil l b =>
    intro ms' l'' h'
    have := h'.length
    cases ms' with
    | nil => rfl
    | cons _ _ => simp at this; omega
  | cons h1 h2 ih =>
    intro ms' l'' h'
    cases h' with
    | nil =>
      have := h2.length
      have := layerRead_done_lt h1
      omega
    | cons h3 h4 =>
      rw [h1] at h3
      cases h3
      rw [ih h4]

/-- C10 (independence of record boundaries): two readers, whatever their layers and however the
handshake bytes were cut into records `m₁` and `m₂`, deliver the same messages from the same
handshake bytes (up to the bytes `x`, `y` still to come). -/
theorem C10_boundaries {r₁ r₂ : Reader} {b₁ b₂ : Bytes} {e₁ e₂ : List (HsMsg × Bytes)}
    {r₁' r₂' : Reader} {c₁ c₂ : Bytes} {m₁ m₂ : List TLSMessage} (hn : e₁.length = e₂.length)
    (h₁ : Polls r₁ b₁ (e₁.map fun p => .handshake p.1 p.2) r₁' c₁)
    (h₂ : Polls r₂ b₂ (e₂.map fun p => .handshake p.1 p.2) r₂' c₂)
    (hm₁ : Reads r₁.layer b₁ m₁ r₁'.layer c₁) (hm₂ : Reads r₂.layer b₂ m₂ r₂'.layer c₂) (x y : Bytes)
    (hxy : r₁.unparsed ++ m₁.flatMap (·.fragment) ++ x = r₂.unparsed ++ m₂.flatMap (·.fragment) ++ y) :
    e₁ = e₂ := by
  obtain ⟨ms1, a1, a2, a3, a4⟩ := C10_history h₁
  obtain ⟨ms2, b1, b2, b3, b4⟩ := C10_history h₂
  rw [hm₁.unique a1, hm₂.unique b1, a3, b3] at hxy
  simp only [List.append_assoc] at hxy
  clear h₁ h₂ a1 b1 a2 b2 a3 b3 hm₁ hm₂
  revert hxy
  generalize r₁'.unparsed ++ x = u
  generalize r₂'.unparsed ++ y = v
  induction e₁ generalizing e₂ with
  | nil => intro _; cases e₂ with
    | nil => rfl
    | cons _ _ => simp at hn
  | cons p ps ih =>
    cases e₂ with
    | nil => simp at hn
    | cons q qs =>
      intro hxy
      simp only [List.flatMap_cons, List.append_assoc] at hxy
      obtain ⟨f1, f2, f3⟩ := framed_unique (a4 p (by simp)) (b4 q (by simp)) hxy
      have : p = q := Prod.ext f2 f1
      rw [this, ih (by simpa using hn) (fun z hz => a4 z (by simp [hz])) (fun z hz => b4 z (by simp [hz])) f3]

/-! ## C11 -/

theorem encBody_done {st : EncRd} {buf : Bytes} {chain st' rest}
    (h : encBody st buf = .done chain st' rest) :
    ∃ (hd : Header) (ct : Bytes) (a : Aead), buf = hd.bytes ++ ct ++ rest ∧ ct.length = hd.length ∧
      hd.t ≠ 20 ∧ st.aead = some a ∧ st.seq ≠ maxSeq ∧
      a.tryDecrypt (if st.useAD then some hd.bytes else none) st.seq ct = .ok (some chain) ∧
      st' = { st with seq := st.seq + 1, skipFailed := false } := by
  rcases short_or_header buf with hs | ⟨t, v1, v2, l1, l2, body, rfl⟩
  · rw [encBody, recordBody_short _ _ st hs] at h; cases h
  · simp only [encBody, recordBody] at h
    split at h
    · cases h
    · rename_i st1 hst
      have hst1 : st1 = st := by
        unfold encHeaderCheck at hst; split_ifs at hst; cases hst; rfl
      subst hst1
      split_ifs at h with hl
      split at h <;> cases h
      rename_i hact
      refine ⟨⟨t, v1, v2, l1, l2⟩, body.take (Header.length ⟨t, v1, v2, l1, l2⟩), ?_⟩
      unfold encRecord at hact
      cases ha : st1.aead with
      | none => simp only [ha] at hact; split_ifs at hact
      | some a =>
        simp only [ha] at hact
        split_ifs at hact with c1 c2 c3 c4 c5
        · refine ⟨a, by simp [Header.bytes], by rw [List.length_take]; omega, c2, rfl, c4, ?_⟩
          split at hact <;> cases hact
          rename_i hq
          exact ⟨hq, rfl⟩
        · refine ⟨a, by simp [Header.bytes], by rw [List.length_take]; omega, c2, rfl, c4, ?_⟩
          split at hact <;> cases hact
          rename_i hq
          unfold Aead.decrypt at hq
          split at hq <;> cases hq
          rename_i hq2
          refine ⟨hq2, ?_⟩
          have : st1.skipFailed = false := by simpa using c5
          cases st1; simp_all

theorem encBody_again {st : EncRd} {buf : Bytes} {st' rest}
    (h : encBody st buf = .again st' rest) : st' = st ∧ ∃ (hd : Header) (ct : Bytes),
      buf = hd.bytes ++ ct ++ rest ∧ ct.length = hd.length ∧
      ((hd.t = 20 ∧ ct = [1]) ∨ (hd.t ≠ 20 ∧ st.skipFailed = true ∧ ∃ a, st.aead = some a ∧
        a.tryDecrypt (if st.useAD then some hd.bytes else none) st.seq ct = .ok none)) := by
  rcases short_or_header buf with hs | ⟨t, v1, v2, l1, l2, body, rfl⟩
  · rw [encBody, recordBody_short _ _ st hs] at h; cases h
  · simp only [encBody, recordBody] at h
    split at h
    · cases h
    · rename_i st1 hst
      have hst1 : st1 = st := by
        unfold encHeaderCheck at hst; split_ifs at hst; cases hst; rfl
      subst hst1
      split_ifs at h with hl
      split at h <;> cases h
      rename_i hact
      unfold encRecord at hact
      have hlen : (body.take (Header.length ⟨t, v1, v2, l1, l2⟩)).length =
        Header.length ⟨t, v1, v2, l1, l2⟩ := by rw [List.length_take]; omega
      have hbuf : t :: v1 :: v2 :: l1 :: l2 :: body = Header.bytes ⟨t, v1, v2, l1, l2⟩ ++
        body.take (Header.length ⟨t, v1, v2, l1, l2⟩) ++ body.drop (Header.length ⟨t, v1, v2, l1, l2⟩)
        := by simp [Header.bytes]
      cases ha : st1.aead with
      | none =>
        simp only [ha] at hact
        split_ifs at hact with c1 c2 c3 c4
        cases hact
        exact ⟨rfl, ⟨t, v1, v2, l1, l2⟩, _, hbuf, hlen, Or.inl ⟨c2, c3⟩⟩
      | some a =>
        simp only [ha] at hact
        split_ifs at hact with c1 c2 c3 c4 c5
        · cases hact
          exact ⟨rfl, ⟨t, v1, v2, l1, l2⟩, _, hbuf, hlen, Or.inl ⟨c2, c3⟩⟩
        · split at hact <;> cases hact
          rename_i hq
          exact ⟨rfl, ⟨t, v1, v2, l1, l2⟩, _, hbuf, hlen, Or.inr ⟨c2, c5, a, rfl, hq⟩⟩
        · split at hact <;> cases hact

/-- C11: what an encrypted reader delivers is the opening of exactly one record, accepted by the
AEAD for the current sequence number with the received header as associated data (unless draft 23);
the records before it in the buffer were all droppable; the sequence number advances by one, no
matter how many records were dropped; skip mode is over. -/
theorem C11_authenticated (st : EncRd) (buf : Bytes) (m : TLSMessage) (st' : EncRd) (rest : Bytes)
    (h : encRead st buf = .done m st' rest) :
    ∃ (drop : Bytes) (hd : Header) (ct : Bytes) (a : Aead) (chain : List Bytes) (k : Nat),
      buf = drop ++ hd.bytes ++ ct ++ rest ∧ Dropped st drop ∧ ct.length = hd.length ∧
      st.aead = some a ∧ st.seq ≠ 0xffffffffffffffff ∧
      a.tryDecrypt (if st.useAD then some hd.bytes else none) st.seq ct = .ok (some chain) ∧
      chain.flatten = m.fragment ++ m.type :: List.replicate k 0 ∧
      (m.type = 21 ∨ m.type = 22 ∨ m.type = 23) ∧
      st' = { st with seq := st.seq + 1, skipFailed := false } := by
  unfold encRead at h
  cases hg : getDecryptedBuf st buf with
  | done chain s r =>
    rw [hg] at h
    simp only at h
    split at h
    · rename_i m1 ho
      cases h
      obtain ⟨⟨k, hk⟩, ht, -⟩ := (openInner_iff (openInner_ne_nil ho) _).1 ho
      have key : ∃ drop hd ct a, buf = drop ++ Header.bytes hd ++ ct ++ rest ∧ Dropped st drop ∧
          ct.length = hd.length ∧ st.aead = some a ∧ st.seq ≠ maxSeq ∧
          a.tryDecrypt (if st.useAD then some hd.bytes else none) st.seq ct = .ok (some chain) ∧
          st' = { st with seq := st.seq + 1, skipFailed := false } := by
        clear hk ht ho
        revert hg
        refine run_ind encBody_mono.consumes (P := fun st buf =>
          run encBody st buf = .done chain st' rest →
          ∃ drop hd ct a, buf = drop ++ Header.bytes hd ++ ct ++ rest ∧ Dropped st drop ∧
          ct.length = hd.length ∧ st.aead = some a ∧ st.seq ≠ maxSeq ∧
          a.tryDecrypt (if st.useAD then some hd.bytes else none) st.seq ct = .ok (some chain) ∧
          st' = { st with seq := st.seq + 1, skipFailed := false }) ?_ st buf
        intro st buf ih hr
        rw [run_eq encBody_mono.consumes] at hr
        cases hb : encBody st buf with
        | needMore _ _ _ => rw [hb] at hr; simp at hr
        | fail _ => rw [hb] at hr; simp at hr
        | done c s2 r2 =>
          rw [hb] at hr; cases hr
          obtain ⟨hd, ct, a, e1, e2, e3, e4, e5, e6, e7⟩ := encBody_done hb
          exact ⟨[], hd, ct, a, by simpa using e1, .nil, e2, e4, e5, e6, e7⟩
        | again s2 r2 =>
          rw [hb] at hr
          obtain ⟨drop, hd, ct, a, e1, e2, e3, e4, e5, e6, e7⟩ := ih _ _ hb hr
          obtain ⟨rfl, hd', ct', f1, f2, f3⟩ := encBody_again hb
          refine ⟨hd'.bytes ++ ct' ++ drop, hd, ct, a, ?_, ?_, e3, e4, e5, e6, e7⟩
          · rw [f1, e1]; simp
          · rcases f3 with ⟨g1, rfl⟩ | ⟨g1, g2, a', g3, g4⟩
            · exact .ccs g1 f2.symm e2
            · exact .rejected g1 f2 g2 g3 g4 e2
      obtain ⟨drop, hd, ct, a, e1, e2, e3, e4, e5, e6, e7⟩ := key
      refine ⟨drop, hd, ct, a, chain, k, e1, e2, e3, e4, e5, e6, hk, ?_, e7⟩
      rcases ht with h | h | h
      · exact Or.inr (Or.inl h)
      · exact Or.inl h
      · exact Or.inr (Or.inr h)
    · cases h
  | _ => rw [hg] at h; cases h

theorem encBody_complete (st : EncRd) (hd : Header) (ct rest : Bytes) (hl : ct.length = hd.length)
    (h0 : hd.length ≠ 0) (hmax : hd.length ≤ 0x4100) :
    encBody st (hd.bytes ++ ct ++ rest) = match encRecord st hd ct with
      | .skip st' => .again st' rest
      | .deliver a st' => .done a st' rest
      | .fail f => .fail f := by
  obtain ⟨t, v1, v2, l1, l2⟩ := hd
  simp only [encBody, Header.bytes, List.cons_append, List.nil_append, recordBody]
  have h1 : encHeaderCheck st ⟨t, v1, v2, l1, l2⟩
      ((t :: v1 :: v2 :: l1 :: l2 :: (ct ++ rest)).take 10) = .ok st := by
    unfold encHeaderCheck kMaxEncryptedRecordSize
    rw [if_neg h0, if_neg (by omega)]
  rw [h1]
  simp only
  rw [if_neg (by simp; omega), ← hl, List.take_left, List.drop_left]
  cases encRecord st ⟨t, v1, v2, l1, l2⟩ ct <;> rfl

/-- C11: outside skip mode the first record the AEAD rejects is a fatal error. -/
theorem C11_reject_fatal (st : EncRd) (a : Aead) (hd : Header) (ct rest : Bytes)
    (ha : st.aead = some a) (hskip : st.skipFailed = false) (hl : ct.length = hd.length)
    (h0 : hd.length ≠ 0) (hmax : hd.length ≤ 0x4100) (ht : hd.t ≠ 20)
    (hrej : a.tryDecrypt (if st.useAD then some hd.bytes else none) st.seq ct = .ok none) :
    ∃ f, encRead st (hd.bytes ++ ct ++ rest) = .fail f := by
  have key : ∃ f, encRecord st hd ct = .fail f := by
    unfold encRecord
    by_cases c1 : hd.t = ContentType.alert ∧ hd.length = 2
    · rw [if_pos c1]; exact ⟨_, rfl⟩
    rw [if_neg c1, if_neg (show ¬ hd.t = ContentType.change_cipher_spec from ht)]
    by_cases c4 : st.seq = maxSeq
    · rw [if_pos c4]; exact ⟨_, rfl⟩
    rw [if_neg c4, ha]
    simp only [hskip, Bool.false_eq_true, if_false]
    have : a.decrypt (st.ad hd) st.seq ct = .error (Failure.rt "decryption failed") := by
      unfold Aead.decrypt EncRd.ad; rw [hrej]
    rw [this]
    exact ⟨_, rfl⟩
  obtain ⟨f, hf⟩ := key
  refine ⟨f, ?_⟩
  unfold encRead
  have : getDecryptedBuf st (hd.bytes ++ ct ++ rest) = .fail f := by
    show run encBody st _ = _
    rw [run_eq encBody_mono.consumes, encBody_complete st hd ct rest hl h0 hmax, hf]
  rw [this]

/-- C11: in skip mode a rejected record is dropped without any change of state: no sequence number
is used up and skip mode stays on. -/
theorem C11_skip_drops (st : EncRd) (a : Aead) (hd : Header) (ct rest : Bytes)
    (ha : st.aead = some a) (hskip : st.skipFailed = true) (hl : ct.length = hd.length)
    (h0 : hd.length ≠ 0) (hmax : hd.length ≤ 0x4100) (ht : hd.t ≠ 20)
    (halert : ¬ (hd.t = 21 ∧ hd.length = 2)) (hseq : st.seq ≠ 0xffffffffffffffff)
    (hrej : a.tryDecrypt (if st.useAD then some hd.bytes else none) st.seq ct = .ok none) :
    encRead st (hd.bytes ++ ct ++ rest) = encRead st rest := by
  have key : encRecord st hd ct = .skip st := by
    unfold encRecord
    rw [if_neg (show ¬ (hd.t = ContentType.alert ∧ hd.length = 2) from halert),
      if_neg (show ¬ hd.t = ContentType.change_cipher_spec from ht),
      if_neg (show ¬ st.seq = maxSeq from hseq), ha]
    simp only [hskip, if_true]
    have : a.tryDecrypt (st.ad hd) st.seq ct = .ok none := hrej
    rw [this]
  unfold encRead
  have : getDecryptedBuf st (hd.bytes ++ ct ++ rest) = getDecryptedBuf st rest := by
    show run encBody st _ = run encBody st _
    rw [run_eq encBody_mono.consumes, encBody_complete st hd ct rest hl h0 hmax, key]
  rw [this]

/-- C11: a change_cipher_spec record is ignored (no sequence number used) if it is the single byte
1, and otherwise fatal with an illegal_parameter alert, whatever the mode. -/
theorem C11_ccs (st : EncRd) (hd : Header) (ct rest : Bytes) (hl : ct.length = hd.length)
    (h0 : hd.length ≠ 0) (hmax : hd.length ≤ 0x4100) (ht : hd.t = 20) :
    (ct = [1] → encRead st (hd.bytes ++ ct ++ rest) = encRead st rest) ∧
    (ct ≠ [1] → encRead st (hd.bytes ++ ct ++ rest) =
      .fail (Failure.fizz "received ccs" (some 47))) := by
  have h21 : ¬ (hd.t = ContentType.alert ∧ hd.length = 2) := by
    rintro ⟨h, -⟩; rw [ht] at h; exact absurd h (by decide)
  constructor
  · intro hc
    have key : encRecord st hd ct = .skip st := by
      unfold encRecord
      rw [if_neg h21, if_pos (show hd.t = ContentType.change_cipher_spec from ht), if_pos hc]
    have : getDecryptedBuf st (hd.bytes ++ ct ++ rest) = getDecryptedBuf st rest := by
      show run encBody st _ = run encBody st _
      rw [run_eq encBody_mono.consumes, encBody_complete st hd ct rest hl h0 hmax, key]
    unfold encRead
    rw [this]
  · intro hc
    have key : encRecord st hd ct = .fail (Failure.fizz "received ccs" (some 47)) := by
      unfold encRecord
      rw [if_neg h21, if_pos (show hd.t = ContentType.change_cipher_spec from ht), if_neg hc]
      rfl
    have : getDecryptedBuf st (hd.bytes ++ ct ++ rest) =
        .fail (Failure.fizz "received ccs" (some 47)) := by
      show run encBody st _ = _
      rw [run_eq encBody_mono.consumes, encBody_complete st hd ct rest hl h0 hmax, key]
    unfold encRead
    rw [this]

/-! ## Concrete instances (the hypotheses above are met by non-trivial cases) -/

/-- A toy AEAD: the tag is the low byte of sequence number plus plaintext length. -/
def toyAead : Aead where
  overhead := 1
  encrypt _ seq pt := .ok (pt ++ [UInt8.ofNat (seq.toNat + pt.length)])
  tryDecrypt _ seq ct :=
    if ct.getLast? = some (UInt8.ofNat (seq.toNat + ct.length - 1)) then .ok (some [ct.dropLast])
    else .ok none

section
/-- A Finished message split over two plaintext records, then an alert. -/
private def ex1 : Bytes := [22, 3, 3, 0, 3, 20, 0, 0] ++ [22, 3, 3, 0, 3, 2, 9, 9] ++ [21, 3, 3, 0, 2, 1, 0, 77]

set_option maxRecDepth 20000 in
example : readEvent ⟨.plain {}, []⟩ ex1 =
    .done (.handshake (.finished ⟨[9, 9]⟩) [20, 0, 0, 2, 9, 9])
      ⟨.plain ⟨false, some 0x0303⟩, []⟩ [21, 3, 3, 0, 2, 1, 0, 77] := by rfl

-- C08: two different segmentations of ex1, both quiescent
set_option maxRecDepth 20000 in
example : delivered [.feed (ex1.take 7), .poll, .feed (ex1.drop 7), .poll, .poll] =
    delivered [.feed ex1, .poll, .poll] ∧
    (Session.exec (fun _ r => r) (.live ⟨.plain {}, []⟩ [] [])
      [.feed (ex1.take 7), .poll, .feed (ex1.drop 7), .poll, .poll]).Quiescent (fun _ r => r) ∧
    (Session.exec (fun _ r => r) (.live ⟨.plain {}, []⟩ [] [])
      [.feed ex1, .poll, .poll]).Quiescent (fun _ r => r) :=
  ⟨by decide, ⟨by rfl, by rfl⟩, ⟨by rfl, by rfl⟩⟩

-- C09
example : Layer.read (.plain {}) [22, 3, 3, 0, 3, 20] =
    .needMore 2 (.plain ⟨false, some 0x0303⟩) [22, 3, 3, 0, 3, 20] := by rfl

-- C10: splice
example : readEvent ⟨.plain {}, [20, 0, 0]⟩ [21, 3, 3, 0, 2, 1, 0] =
    .fail (Failure.rt "spliced handshake data") := by rfl

-- C11: skip mode drops an undecryptable record, then a change_cipher_spec, then delivers
set_option maxRecDepth 20000 in
example : (match encRead { aead := some toyAead, skipFailed := true }
    ([23, 3, 3, 0, 2, 8, 8] ++ [20, 3, 3, 0, 1, 1] ++ [23, 3, 3, 0, 4, 5, 23, 0, 3]) with
    | .done m st rest => m = ⟨23, [5]⟩ ∧ st.seq = 1 ∧ st.skipFailed = false ∧ rest = []
    | _ => False) := by
  refine ⟨by rfl, by rfl, by rfl, by rfl⟩
end

end Fizz.Record
