import Verif.Ktls.Spec
import Verif.Record.ReadProps

/-! # Kernel TLS: reading (C85) -/

namespace Fizz.Ktls

open Fizz.Codec Fizz.Record

theorem run_append (c : Conn) (a b : List Recv) : c.run (a ++ b) = (c.run a).run b := by
  simp [Conn.run]

theorem run_over {c : Conn} {r : Result} (h : c.over = some r) (rs : List Recv) : c.run rs = c := by
  induction rs with
  | nil => rfl
  | cons x rs ih =>
    show (c.step x).run rs = c
    have : c.step x = c := by simp [Conn.step, h]
    rw [this, ih]

theorem snoc_rec {α : Type} {motive : List α → Prop} (nil : motive [])
    (snoc : ∀ l a, motive l → motive (l ++ [a])) (l : List α) : motive l := by
  have : ∀ r : List α, motive r.reverse := by
    intro r
    induction r with
    | nil => exact nil
    | cons a r ih => rw [List.reverse_cons]; exact snoc _ _ ih
  rw [← List.reverse_reverse l]
  exact this _

/-- What one call does to the connection, by cases. -/
inductive Did (c d : Conn) : Recv → Prop
  | app {b} : c.sock.unparsed = none → d = { c with app := c.app ++ b, sock := { c.sock with received := c.sock.received + b.length } } →
      Did c d (.bytes (some (true, 23)) b)
  | block : d = c → Did c d .wouldBlock
  | saved {b u} : c.sock.callback ≠ none → u = c.sock.unparsed.getD [] ++ b →
      decodeHandshakeMessage u = .ok .none → d = { c with sock := { c.sock with unparsed := some u } } →
      Did c d (.bytes (some (true, 22)) b)
  | ticket {b u t orig rest h} : c.sock.callback = some h → u = c.sock.unparsed.getD [] ++ b →
      decodeHandshakeMessage u = .ok (.msg (.newSessionTicket t) orig rest) →
      d = { c with sock := { c.sock with unparsed := none, tickets := c.sock.tickets ++ [t] },
                   over := (h t).map .thrown } →
      Did c d (.bytes (some (true, 22)) b)
  | ended {r} : d.app = c.app → d.sock.tickets = c.sock.tickets → d.sock.received = c.sock.received →
      (d.over = some .eof ↔ (r = .eof ∨ ∃ b a rest, r = .bytes (some (true, 21)) b ∧ c.sock.unparsed = none ∧
        readAlert b = .ok (a, rest) ∧ a.description = 0)) →
      (d.over = some .eof ∨ ∃ m, d.over = some (.error m)) → Did c d r

theorem processMessage_did {c : Conn} {s : Sock} {h : Handler} {m : HsMsg} {b u orig rest}
    (hs : s = { c.sock with unparsed := none }) (hcb : c.sock.callback = some h)
    (hu : u = c.sock.unparsed.getD [] ++ b) (hover : c.over = none)
    (hd : decodeHandshakeMessage u = .ok (.msg m orig rest)) :
    Did c (c.take (processMessage s h m)) (.bytes (some (true, 22)) b) := by
  subst hs
  have bad : ∀ msg, Did c { c with sock := { c.sock with unparsed := none }, over := some (.error msg) }
      (.bytes (some (true, 22)) b) := by
    intro msg
    refine .ended rfl rfl rfl ?_ (Or.inr ⟨msg, rfl⟩)
    constructor
    · intro h; cases h
    · rintro (h | ⟨b', a, r, h, -⟩)
      · cases h
      · simp at h
  cases m with
  | newSessionTicket t =>
    simp only [processMessage]
    cases ht : h t with
    | none => exact .ticket hcb hu hd (by simp [Conn.take, ht, hover])
    | some f => exact .ticket hcb hu hd (by simp [Conn.take, ht])
  | keyUpdate k => exact bad _
  | _ => exact bad _

theorem step_did (c : Conn) (hover : c.over = none) (r : Recv) : Did c (c.step r) r := by
  have fin : ∀ (m : String) (r : Recv), (∀ b, r ≠ .bytes (some (true, 21)) b) → r ≠ .eof →
      Did c (c.take (c.sock, .error m)) r := by
    intro m r h1 h2
    refine .ended rfl rfl rfl ?_ (Or.inr ⟨m, rfl⟩)
    constructor
    · intro h; cases h
    · rintro (h | ⟨b, a, rr, h, -⟩)
      · exact (h2 h).elim
      · exact (h1 b h).elim
  have hstep : c.step r = c.take (performRead c.sock r) := by simp [Conn.step, hover]
  rw [hstep]
  cases r with
  | wouldBlock => exact .block rfl
  | error => exact fin _ _ (by simp) (by simp)
  | eof => exact .ended rfl rfl rfl ⟨fun _ => Or.inl rfl, fun _ => rfl⟩ (Or.inl rfl)
  | bytes cm b =>
    cases cm with
    | none => exact fin _ _ (by simp) (by simp)
    | some p =>
      obtain ⟨k, type⟩ := p
      cases k with
      | false => exact fin _ _ (by simp) (by simp)
      | true =>
        by_cases h23 : type = 23
        · subst h23
          rw [performRead, if_pos (show (23 : UInt8) = ContentType.application_data from rfl)]
          by_cases hu : c.sock.unparsed.isSome = true
          · rw [if_pos hu]; exact fin _ _ (by simp) (by simp)
          · rw [if_neg hu]
            exact .app (by simpa using hu) rfl
        · rw [performRead, if_neg (show ¬ type = ContentType.application_data from h23)]
          by_cases h22 : type = 22
          · subst h22
            rw [handleOther, if_neg (fun h => h.2 rfl),
              if_neg (show ¬ (22 : UInt8) = ContentType.alert by decide),
              if_pos (show (22 : UInt8) = ContentType.handshake from rfl)]
            split
            · exact fin _ _ (by simp) (by simp)
            · rename_i h hcb
              have hlast : ∀ (u : Option Bytes) (m : String), Did c
                  (c.take ({ c.sock with unparsed := u }, .error m)) (.bytes (some (true, 22)) b) := by
                intro u m
                refine .ended rfl rfl rfl ?_ (Or.inr ⟨m, rfl⟩)
                constructor
                · intro h; cases h
                · rintro (h | ⟨b', a, rr, h, -⟩)
                  · cases h
                  · simp at h
              rw [processHandshake]
              split
              · rename_i hu
                split
                · exact fin _ _ (by simp) (by simp)
                · rename_i hd
                  exact .saved (by simp [hcb]) (by rw [hu]; rfl) hd rfl
                · rename_i m orig rest hd
                  refine processMessage_did (u := b) ?_ hcb (by rw [hu]; rfl) hover hd
                  cases hsk : c.sock with
                  | mk a b' d e => rw [hsk] at hu; simp only at hu; subst hu; rfl
              · rename_i u hu
                split
                · exact hlast _ _
                · rename_i hd
                  exact .saved (by simp [hcb]) (by rw [hu]; rfl) hd rfl
                · rename_i m orig rest hd
                  exact processMessage_did (u := u ++ b) rfl hcb (by rw [hu]; rfl) hover hd
          · by_cases h21 : type = 21
            · subst h21
              by_cases hu : c.sock.unparsed.isSome = true
              · rw [handleOther, if_pos ⟨hu, h22⟩]
                refine .ended rfl rfl rfl ?_ (Or.inr ⟨_, rfl⟩)
                constructor
                · intro h; cases h
                · rintro (h | ⟨b', a, rr, -, h, -⟩)
                  · cases h
                  · rw [h] at hu; cases hu
              · rw [handleOther, if_neg (fun h => hu h.1),
                  if_pos (show (21 : UInt8) = ContentType.alert from rfl), processAlert]
                have hu' : c.sock.unparsed = none := by simpa using hu
                split
                · rename_i f ha
                  refine .ended rfl rfl rfl ?_ (Or.inr ⟨_, rfl⟩)
                  constructor
                  · intro h; cases h
                  · rintro (h | ⟨b', a, rr, hb, -, h, -⟩)
                    · cases h
                    · simp at hb; subst hb; rw [ha] at h; cases h
                · rename_i a rest ha
                  by_cases hcn : a.description = close_notify
                  · rw [if_pos hcn]
                    exact .ended rfl rfl rfl ⟨fun _ => Or.inr ⟨b, a, rest, rfl, hu', ha, hcn⟩, fun _ => rfl⟩
                      (Or.inl rfl)
                  · rw [if_neg hcn]
                    refine .ended rfl rfl rfl ?_ (Or.inr ⟨_, rfl⟩)
                    constructor
                    · intro h; cases h
                    · rintro (h | ⟨b', a', rr, hb, -, h, hz⟩)
                      · cases h
                      · simp at hb; subst hb; rw [ha] at h; cases h; exact (hcn hz).elim
            · rw [handleOther]
              split
              · exact fin _ _ (by intro b'; simp; intro h; exact (h21 h).elim) (by simp)
              · rw [if_neg (show ¬ type = ContentType.alert from h21),
                  if_neg (show ¬ type = ContentType.handshake from h22)]
                exact fin _ _ (by intro b'; simp; intro h; exact (h21 h).elim) (by simp)

/-- A connection that has read nothing. -/
def start (cb : Option Handler) : Conn := { sock := { callback := cb } }

theorem run_snoc (c : Conn) (rs : List Recv) (r : Recv) : c.run (rs ++ [r]) = (c.run rs).step r := by
  rw [run_append]; rfl

theorem appOf_append (a b : List Recv) : Spec.appOf (a ++ b) = Spec.appOf a ++ Spec.appOf b := by
  simp [Spec.appOf]

theorem handshakeOf_append (a b : List Recv) :
    Spec.handshakeOf (a ++ b) = Spec.handshakeOf a ++ Spec.handshakeOf b := by
  simp [Spec.handshakeOf]

theorem step_callback {c d : Conn} {r : Recv} (h : Did c d r) : d.over = none → d.sock.callback = c.sock.callback := by
  intro ho
  cases h with
  | app _ h => rw [h]
  | block h => rw [h]
  | saved _ _ _ h => rw [h]
  | ticket _ _ _ h => rw [h]
  | ended _ _ _ _ h =>
    rcases h with h | ⟨m, h⟩ <;> rw [h] at ho <;> cases ho

/-- C85: the application gets exactly the application data the kernel delivered, in order, each byte once,
up to the answer that ended reading; nothing after it. -/
theorem C85_app (cb : Option Handler) (rs : List Recv) :
    ((start cb).run rs).sock.received = ((start cb).run rs).app.length ∧
    ((((start cb).run rs).over = none ∧ ((start cb).run rs).app = Spec.appOf rs) ∨
     ∃ a r b, rs = a ++ r :: b ∧ ((start cb).run a).over = none ∧ ((start cb).run rs).over ≠ none ∧
       (start cb).run rs = (start cb).run (a ++ [r]) ∧ ((start cb).run rs).app = Spec.appOf a) := by
  induction rs using snoc_rec with
  | nil => exact ⟨rfl, Or.inl ⟨rfl, rfl⟩⟩
  | snoc rs r ih =>
    obtain ⟨hr, ih⟩ := ih
    rcases ih with ⟨ho, ha⟩ | ⟨a, x, b, rfl, h1, h2, h3, h4⟩
    · have hd := step_did _ ho r
      rw [run_snoc]
      generalize hc : (start cb).run rs = c at *
      generalize hdd : c.step r = d at *
      rw [appOf_append]
      cases hd with
      | app hu h =>
        subst h
        exact ⟨by simp [hr], Or.inl ⟨ho, by simp [Spec.appOf, ha]⟩⟩
      | block h => subst h; exact ⟨hr, Or.inl ⟨ho, by simp [Spec.appOf, ha]⟩⟩
      | saved _ _ _ h => subst h; exact ⟨hr, Or.inl ⟨ho, by simp [Spec.appOf, ha]⟩⟩
      | @ticket b u t orig rest h _ _ _ h' =>
        cases ht : h t with
        | none =>
          subst h'
          exact ⟨hr, Or.inl ⟨by simp [ht], by simp [Spec.appOf, ha]⟩⟩
        | some f =>
          rw [ht] at h'
          subst h'
          refine ⟨hr, Or.inr ⟨rs, _, [], rfl, by rw [hc]; exact ho, by simp, ?_, ha⟩⟩
          rw [run_snoc, hc, hdd]
      | ended h1 h2 h3 h4 h5 =>
        refine ⟨by rw [h3, h1]; exact hr, Or.inr ⟨rs, r, [], rfl, by rw [hc]; exact ho, ?_, ?_, by rw [h1, ha]⟩⟩
        · rcases h5 with h | ⟨m, h⟩ <;> rw [h] <;> simp
        · rw [run_snoc, hc, hdd]
    · obtain ⟨v, hv⟩ := Option.ne_none_iff_exists'.1 h2
      rw [run_append, run_over hv]
      exact ⟨hr, Or.inr ⟨a, x, b ++ [r], by simp, h1, h2, h3, h4⟩⟩

/-- C85: end of stream is reported exactly when the kernel reports it, or a close_notify alert arrives while
no handshake message is incomplete. -/
theorem C85_eof (cb : Option Handler) (rs : List Recv) :
    ((start cb).run rs).over = some .eof ↔
    ∃ a r b, rs = a ++ r :: b ∧ ((start cb).run a).over = none ∧
      (r = .eof ∨ ∃ d al rest, r = .bytes (some (true, 21)) d ∧ ((start cb).run a).sock.unparsed = none ∧
        readAlert d = .ok (al, rest) ∧ al.description = 0) := by
  constructor
  · intro h
    rcases (C85_app cb rs).2 with ⟨ho, -⟩ | ⟨a, r, b, he, ho, -, heq, -⟩
    · rw [ho] at h; cases h
    · refine ⟨a, r, b, he, ho, ?_⟩
      rw [heq, run_snoc] at h
      have hd := step_did _ ho r
      cases hd with
      | app _ h' => rw [h'] at h; rw [show ((start cb).run a).over = none from ho] at h; cases h
      | block h' => rw [h', ho] at h; cases h
      | saved _ _ _ h' => rw [h'] at h; rw [show ((start cb).run a).over = none from ho] at h; cases h
      | @ticket b u t orig rest hh _ _ _ h' =>
        rw [h'] at h
        cases ht : hh t <;> rw [ht] at h <;> simp at h
      | ended _ _ _ h4 _ => exact h4.1 h
  · rintro ⟨a, r, b, rfl, ho, hr⟩
    have hd := step_did _ ho r
    have key : (((start cb).run a).step r).over = some .eof := by
      cases hd with
      | app _ _ =>
        rcases hr with h | ⟨d, al, rest, h, -⟩
        · cases h
        · simp at h
      | block _ =>
        rcases hr with h | ⟨d, al, rest, h, -⟩ <;> cases h
      | saved _ _ _ _ =>
        rcases hr with h | ⟨d, al, rest, h, -⟩
        · cases h
        · simp at h
      | ticket _ _ _ _ =>
        rcases hr with h | ⟨d, al, rest, h, -⟩
        · cases h
        · simp at h
      | ended _ _ _ h4 _ => exact h4.2 hr
    rw [show a ++ r :: b = (a ++ [r]) ++ b by simp, run_append, run_snoc, run_over key]
    exact key

/-- C85: the callback is given tickets the peer sent, in their order, each once: every one is a whole
NewSessionTicket message among the handshake data, and the parts do not overlap.  What is neither in a ticket
nor still to be completed was dropped. -/
theorem C85_tickets (cb : Option Handler) (rs : List Recv) :
    ∃ (parts : List (NewSessionTicket × Bytes × Bytes)) (rest : Bytes),
      Spec.handshakeOf rs = parts.flatMap (fun p => p.2.1 ++ p.2.2) ++ rest ∧
      (∀ p ∈ parts, Framed p.2.1 (.newSessionTicket p.1)) ∧
      ((start cb).run rs).sock.tickets = parts.map (·.1) ∧
      (((start cb).run rs).over = none → rest = ((start cb).run rs).sock.unparsed.getD []) := by
  induction rs using snoc_rec with
  | nil => exact ⟨[], [], rfl, by simp, rfl, fun _ => rfl⟩
  | snoc rs r ih =>
    obtain ⟨parts, rest, h1, h2, h3, h4⟩ := ih
    rw [handshakeOf_append, h1]
    cases ho : ((start cb).run rs).over with
    | some v =>
      rw [run_append, run_over ho]
      exact ⟨parts, rest ++ Spec.handshakeOf [r], by simp, h2, h3, by rw [ho]; intro h; cases h⟩
    | none =>
      have h4 := h4 ho
      have hd := step_did _ ho r
      rw [run_snoc]
      generalize (start cb).run rs = c at *
      generalize c.step r = d at *
      cases hd with
      | app hu h => subst h; exact ⟨parts, rest, by simp [Spec.handshakeOf], h2, h3, fun _ => h4⟩
      | block h => subst h; exact ⟨parts, rest, by simp [Spec.handshakeOf], h2, h3, fun _ => h4⟩
      | @saved b u _ hu _ h =>
        subst h
        exact ⟨parts, u, by simp [Spec.handshakeOf, hu, h4], h2, h3, fun _ => rfl⟩
      | @ticket b u t orig rest' hh _ hu hdec h' =>
        obtain ⟨e1, e2, -⟩ := decode_framed hdec
        subst h'
        refine ⟨parts ++ [(t, orig, rest')], [], ?_, ?_, by simp [h3], fun _ => rfl⟩
        · simp [Spec.handshakeOf, h4, ← e1, hu]
        · intro p hp
          rcases List.mem_append.1 hp with hp | hp
          · exact h2 p hp
          · rw [List.mem_singleton] at hp; subst hp; exact e2
      | ended e1 e2 e3 e4 e5 =>
        refine ⟨parts, rest ++ Spec.handshakeOf [r], by simp, h2, by rw [e2]; exact h3, ?_⟩
        intro h
        rcases e5 with e | ⟨m, e⟩ <;> rw [e] at h <;> cases h

/-! ## Whole messages -/

theorem decode_whole {wire : Bytes} {m : HsMsg} (hf : Framed wire m) (hl : wire.length ≤ 4 + 128 * 1024)
    (x : Bytes) : decodeHandshakeMessage (wire ++ x) = .ok (.msg m wire x) := by
  obtain ⟨t, a, b, c, body, rfl, hb, hp⟩ := hf
  simp only [List.cons_append, List.length_cons, decodeHandshakeMessage] at *
  rw [if_neg (by simp [kMaxHandshakeSize]; omega), if_neg (by simp; omega)]
  rw [← hb, List.take_left, hp, List.drop_left]

theorem decode_prefix {wire : Bytes} {m : HsMsg} (hf : Framed wire m) (hl : wire.length ≤ 4 + 128 * 1024)
    {p q : Bytes} (hpq : p ++ q = wire) (hq : q ≠ []) : decodeHandshakeMessage p = .ok .none := by
  obtain ⟨t, a, b, c, body, rfl, hb, hp⟩ := hf
  unfold decodeHandshakeMessage
  split
  · rename_i t' a' b' c' body'
    simp only [List.cons_append, List.cons.injEq] at hpq
    obtain ⟨rfl, rfl, rfl, rfl, hpq⟩ := hpq
    have : body'.length + q.length = body.length := by rw [← hpq]; simp
    have hq' : 0 < q.length := List.length_pos_iff.2 hq
    simp only [List.length_cons] at hl
    rw [if_neg (by simp [kMaxHandshakeSize]; omega), if_pos (by omega)]
  · rfl

/-- A step on handshake data with a callback. -/
theorem step_handshake {c : Conn} {h : Handler} (ho : c.over = none) (hcb : c.sock.callback = some h) (b : Bytes) :
    c.step (.bytes (some (true, 22)) b) = c.take (processHandshake c.sock h b) := by
  rw [Conn.step, ho]
  simp only
  rw [performRead, if_neg (show ¬ (22 : UInt8) = ContentType.application_data by decide), handleOther,
    if_neg (fun h => h.2 rfl), if_neg (show ¬ (22 : UInt8) = ContentType.alert by decide),
    if_pos (show (22 : UInt8) = ContentType.handshake from rfl), hcb]

/-- C85 (what is lost): whatever follows a ticket in the data it is completed by is ignored: another ticket,
a KeyUpdate, the beginning of a message. -/
theorem C85_dropped {c : Conn} {h : Handler} (ho : c.over = none) (hcb : c.sock.callback = some h)
    {m : HsMsg} {wire b : Bytes} (hf : Framed wire m) (hl : wire.length ≤ 4 + 128 * 1024)
    (hw : c.sock.unparsed.getD [] ++ b = wire) (x : Bytes) :
    c.step (.bytes (some (true, 22)) (b ++ x)) = c.step (.bytes (some (true, 22)) b) := by
  rw [step_handshake ho hcb, step_handshake ho hcb]
  congr 1
  unfold processHandshake
  cases hu : c.sock.unparsed with
  | none =>
    rw [hu] at hw
    simp only [Option.getD_none, List.nil_append] at hw
    subst hw
    have := decode_whole hf hl []
    rw [List.append_nil] at this
    simp only [decode_whole hf hl, this]
  | some u =>
    rw [hu] at hw
    simp only [Option.getD_some] at hw
    have e : decodeHandshakeMessage (u ++ b) = .ok (.msg m wire []) := by
      have := decode_whole hf hl []
      rw [List.append_nil] at this
      rw [hw, this]
    have e' : decodeHandshakeMessage (u ++ (b ++ x)) = .ok (.msg m wire x) := by
      rw [← List.append_assoc, hw, decode_whole hf hl]
    simp only [e, e']

/-- C85: a handshake message other than a ticket, a KeyUpdate in particular, ends the connection with an
error, and nothing more is delivered. -/
theorem C85_unsupported {c : Conn} (ho : c.over = none) {m : HsMsg} {wire b : Bytes} (hf : Framed wire m)
    (hm : ∀ t, m ≠ .newSessionTicket t) (hl : wire.length ≤ 4 + 128 * 1024)
    (hw : c.sock.unparsed.getD [] ++ b = wire) :
    ∃ msg, ∀ later, (c.run (.bytes (some (true, 22)) b :: later)).over = some (.error msg) ∧
      (c.run (.bytes (some (true, 22)) b :: later)).app = c.app ∧
      (c.run (.bytes (some (true, 22)) b :: later)).sock.tickets = c.sock.tickets := by
  have hd := step_did c ho (.bytes (some (true, 22)) b)
  have hdec := decode_whole hf hl []
  rw [List.append_nil] at hdec
  suffices h : ∃ msg, (c.step (.bytes (some (true, 22)) b)).over = some (.error msg) ∧
      (c.step (.bytes (some (true, 22)) b)).app = c.app ∧
      (c.step (.bytes (some (true, 22)) b)).sock.tickets = c.sock.tickets by
    obtain ⟨msg, h1, h2, h3⟩ := h
    refine ⟨msg, fun later => ?_⟩
    have : c.run (.bytes (some (true, 22)) b :: later) = c.step (.bytes (some (true, 22)) b) := by
      show (c.step _).run later = _
      exact run_over h1 later
    rw [this]
    exact ⟨h1, h2, h3⟩
  cases hd with
  | saved _ hu hn _ =>
    rw [hw] at hu; subst hu; rw [hdec] at hn; cases hn
  | ticket _ hu hn _ =>
    rw [hw] at hu; subst hu; rw [hdec] at hn; cases hn; exact (hm _ rfl).elim
  | ended h1 h2 h3 h4 h5 =>
    rcases h5 with h | ⟨msg, h⟩
    · rcases h4.1 h with h | ⟨_, _, _, h, -⟩
      · cases h
      · simp at h
    · exact ⟨msg, h, h1, h2⟩

/-- C85: while a handshake message is incomplete, anything but handshake data is an error and is not
delivered. -/
theorem C85_no_splice {c : Conn} (ho : c.over = none) (hu : c.sock.unparsed ≠ none) (type : UInt8) (d : Bytes)
    (ht : type ≠ 22) :
    ∃ msg, ∀ later, (c.run (.bytes (some (true, type)) d :: later)).over = some (.error msg) ∧
      (c.run (.bytes (some (true, type)) d :: later)).app = c.app := by
  have hd := step_did c ho (.bytes (some (true, type)) d)
  suffices h : ∃ msg, (c.step (.bytes (some (true, type)) d)).over = some (.error msg) ∧
      (c.step (.bytes (some (true, type)) d)).app = c.app by
    obtain ⟨msg, h1, h2⟩ := h
    refine ⟨msg, fun later => ?_⟩
    have : c.run (.bytes (some (true, type)) d :: later) = c.step (.bytes (some (true, type)) d) := by
      show (c.step _).run later = _
      exact run_over h1 later
    rw [this]
    exact ⟨h1, h2⟩
  cases hd with
  | app h _ => exact (hu h).elim
  | saved => exact (ht rfl).elim
  | ticket => exact (ht rfl).elim
  | ended h1 h2 h3 h4 h5 =>
    rcases h5 with h | ⟨msg, h⟩
    · rcases h4.1 h with h | ⟨_, _, _, _, h, -⟩
      · cases h
      · exact (hu h).elim
    · exact ⟨msg, h, h1⟩

/-! ## Everything arrives -/

theorem run_filter (c : Conn) (rs : List Recv) :
    c.run rs = c.run (rs.filter fun r => match r with | .wouldBlock => false | _ => true) := by
  induction rs generalizing c with
  | nil => rfl
  | cons r rs ih =>
    cases r with
    | wouldBlock =>
      rw [List.filter_cons_of_neg (by simp)]
      have : c.step .wouldBlock = c := by
        unfold Conn.step
        cases h : c.over <;> rfl
      show (c.step .wouldBlock).run rs = _
      rw [this, ih]
    | error => rw [List.filter_cons_of_pos (by simp)]; exact ih _
    | eof => rw [List.filter_cons_of_pos (by simp)]; exact ih _
    | bytes x y => rw [List.filter_cons_of_pos (by simp)]; exact ih _

theorem run_app {c : Conn} (ho : c.over = none) (hu : c.sock.unparsed = none) (ps : List Bytes) :
    c.run (Spec.pieces 23 ps) =
      { c with app := c.app ++ ps.flatten,
               sock := { c.sock with received := c.sock.received + ps.flatten.length } } := by
  induction ps generalizing c with
  | nil => simp [Spec.pieces, Conn.run]
  | cons p ps ih =>
    have hstep : c.step (.bytes (some (true, 23)) p) =
        { c with app := c.app ++ p, sock := { c.sock with received := c.sock.received + p.length } } := by
      rw [Conn.step, ho]
      simp only
      rw [performRead, if_pos (show (23 : UInt8) = ContentType.application_data from rfl), if_neg (by simp [hu])]
      simp [Conn.take, ho]
    show (c.step _).run (Spec.pieces 23 ps) = _
    rw [hstep]
    exact (ih (c := { c with
      app := c.app ++ p, sock := { c.sock with received := c.sock.received + p.length } }) ho hu).trans
      (by simp [Nat.add_assoc])

theorem run_ticket {h : Handler} {t : NewSessionTicket} {wire : Bytes} (hf : Framed wire (.newSessionTicket t))
    (hl : wire.length ≤ 4 + 128 * 1024) (ht : h t = none) {c : Conn} (ho : c.over = none)
    (hcb : c.sock.callback = some h) (ps : List Bytes) (hps : c.sock.unparsed.getD [] ++ ps.flatten = wire)
    (hne : [] ∉ ps) (hps0 : ps ≠ []) :
    c.run (Spec.pieces 22 ps) =
      { c with sock := { c.sock with unparsed := none, tickets := c.sock.tickets ++ [t] } } := by
  induction ps generalizing c with
  | nil => exact (hps0 rfl).elim
  | cons p ps ih =>
    have hd := step_did c ho (.bytes (some (true, 22)) p)
    show (c.step _).run (Spec.pieces 22 ps) = _
    cases hq : ps with
    | nil =>
      subst hq
      simp only [List.flatten_cons, List.flatten_nil, List.append_nil] at hps
      have hdec := decode_whole hf hl []
      rw [List.append_nil] at hdec
      cases hd with
      | saved _ hu hn _ => rw [hps] at hu; subst hu; rw [hdec] at hn; cases hn
      | ticket hcb' hu hn h' =>
        rw [hps] at hu; subst hu; rw [hdec] at hn; cases hn
        rw [hcb] at hcb'
        cases Option.some.inj hcb'
        show c.step _ = _
        rw [h', ht]
        simp [ho]
      | ended h1 h2 h3 h4 h5 =>
        exfalso
        have := step_handshake ho hcb p
        rcases h5 with e | ⟨m, e⟩
        all_goals
          rw [this] at e
          unfold processHandshake at e
          cases hu : c.sock.unparsed with
          | none =>
            rw [hu] at hps e
            simp only [Option.getD_none, List.nil_append] at hps
            subst hps
            rw [hdec] at e
            simp [processMessage, ht, Conn.take, ho] at e
          | some u =>
            rw [hu] at hps e
            simp only [Option.getD_some] at hps
            simp only [hps] at e
            rw [hdec] at e
            simp [processMessage, ht, Conn.take, ho] at e
    | cons p' ps' =>
      have hrest : ps.flatten ≠ [] := by
        rw [hq]
        intro e
        simp only [List.flatten_cons, List.append_eq_nil_iff] at e
        exact hne (by rw [hq, ← e.1]; simp)
      have hdec : decodeHandshakeMessage (c.sock.unparsed.getD [] ++ p) = .ok .none :=
        decode_prefix hf hl (q := ps.flatten) (by rw [← hps]; simp) hrest
      have hs : c.step (.bytes (some (true, 22)) p) =
          { c with sock := { c.sock with unparsed := some (c.sock.unparsed.getD [] ++ p) } } := by
        rw [step_handshake ho hcb]
        unfold processHandshake
        cases hu : c.sock.unparsed with
        | none =>
          rw [hu] at hdec
          simp only [Option.getD_none, List.nil_append] at hdec
          simp only [hdec]
          rfl
        | some u =>
          rw [hu] at hdec
          simp only [Option.getD_some] at hdec
          simp only [hdec]
          rfl
      rw [hs, ← hq]
      exact ih (c := { c with sock := { c.sock with unparsed := some (c.sock.unparsed.getD [] ++ p) } }) ho hcb
        (by show (c.sock.unparsed.getD [] ++ p) ++ ps.flatten = wire; rw [← hps]; simp)
        (fun h => hne (List.mem_cons_of_mem _ h)) (by rw [hq]; simp)

/-- C85: whatever application data and tickets the peer sends, each ticket a message of its own, and however
the kernel cuts the records and makes the socket wait: the application gets all the data, the callback all the
tickets, and the connection stays open, as long as the callback does not throw. -/
theorem C85_complete (h : Handler) (items : List Spec.Sent) (hok : ∀ x ∈ items, x.Ok)
    (hh : ∀ x ∈ items, ∀ t ∈ x.tickets, h t = none) (rs : List Recv)
    (hrs : (rs.filter fun r => match r with | .wouldBlock => false | _ => true) =
      items.flatMap Spec.Sent.recvs) :
    ((start (some h)).run rs).over = none ∧
    ((start (some h)).run rs).app = items.flatMap Spec.Sent.app? ∧
    ((start (some h)).run rs).sock.tickets = items.flatMap Spec.Sent.tickets ∧
    ((start (some h)).run rs).sock.unparsed = none := by
  rw [run_filter, hrs]
  suffices H : ∀ (items : List Spec.Sent) (c : Conn), (∀ x ∈ items, x.Ok) →
      (∀ x ∈ items, ∀ t ∈ x.tickets, h t = none) → c.over = none → c.sock.callback = some h →
      c.sock.unparsed = none →
      (c.run (items.flatMap Spec.Sent.recvs)).over = none ∧
      (c.run (items.flatMap Spec.Sent.recvs)).app = c.app ++ items.flatMap Spec.Sent.app? ∧
      (c.run (items.flatMap Spec.Sent.recvs)).sock.tickets = c.sock.tickets ++ items.flatMap Spec.Sent.tickets ∧
      (c.run (items.flatMap Spec.Sent.recvs)).sock.unparsed = none by
    simpa [start] using H items (start (some h)) hok hh rfl rfl rfl
  clear hok hh hrs items
  intro items
  induction items with
  | nil => intro c _ _ ho _ hu; exact ⟨ho, by simp [Conn.run], by simp [Conn.run], hu⟩
  | cons x items ih =>
    intro c hok hh ho hcb hu
    have hok' := fun y hy => hok y (List.mem_cons_of_mem _ hy)
    have hh' := fun y hy => hh y (List.mem_cons_of_mem _ hy)
    rw [List.flatMap_cons, run_append]
    cases x with
    | app ps =>
      have e := run_app ho hu ps
      rw [show Spec.Sent.recvs (.app ps) = Spec.pieces 23 ps from rfl, e]
      obtain ⟨a, b, c', d⟩ := ih { c with
        app := c.app ++ ps.flatten,
        sock := { c.sock with received := c.sock.received + ps.flatten.length } } hok' hh' ho hcb hu
      exact ⟨a, by rw [b]; simp [Spec.Sent.app?], by rw [c']; simp [Spec.Sent.tickets], d⟩
    | ticket t wire ps =>
      obtain ⟨h1, h2, h3, h4⟩ := hok _ List.mem_cons_self
      have hps0 : ps ≠ [] := by
        intro e
        obtain ⟨_, _, _, _, _, e', -⟩ := h1
        rw [e] at h3
        rw [e'] at h3
        cases h3
      have e := run_ticket h1 h2 (hh _ List.mem_cons_self t (by simp [Spec.Sent.tickets])) ho hcb ps
        (by rw [hu]; simpa using h3) h4 hps0
      rw [show Spec.Sent.recvs (.ticket t wire ps) = Spec.pieces 22 ps from rfl, e]
      obtain ⟨a, b, c', d⟩ := ih { c with
        sock := { c.sock with unparsed := none, tickets := c.sock.tickets ++ [t] } } hok' hh' ho hcb rfl
      exact ⟨a, by rw [b]; simp [Spec.Sent.app?], by rw [c']; simp [Spec.Sent.tickets], d⟩

end Fizz.Ktls
