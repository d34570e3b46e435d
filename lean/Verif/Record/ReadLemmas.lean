import Verif.Record.ReadModel
import Mathlib.Tactic.SplitIfs

/-! Helper lemmas for the reading side (nothing here is a claim). -/

namespace Fizz

/-- Two failures the connection treats alike: same kind, same alert, same category; the human
readable message may differ. -/
def Failure.Sim : Failure → Failure → Prop
  | .err _ a c, .err _ a' c' => a = a' ∧ c = c'
  | x, y => x = y

theorem Failure.Sim.refl (f : Failure) : Failure.Sim f f := by
  cases f <;> simp [Failure.Sim]

end Fizz

namespace Fizz.Record
open Fizz.Codec

variable {σ α : Type}

/-- What a loop body must satisfy so that reading is insensitive to how much is buffered. -/
structure Mono (body : σ → Bytes → Iter σ α) (fin : α → α → Prop) : Prop where
  done : ∀ {st buf a st' rest}, body st buf = .done a st' rest → ∀ more,
    body st (buf ++ more) = .done a st' (rest ++ more) ∨
      ∃ a' st'' r, body st (buf ++ more) = .done a' st'' r ∧ fin a a'
  again : ∀ {st buf st' rest}, body st buf = .again st' rest →
    (∀ more, body st (buf ++ more) = .again st' (rest ++ more)) ∧ rest.length < buf.length
  fail : ∀ {st buf f}, body st buf = .fail f → ∀ more,
    ∃ f', body st (buf ++ more) = .fail f' ∧ Failure.Sim f f'
  need : ∀ {st buf h st' rest}, body st buf = .needMore h st' rest → ∀ more,
    body st (buf ++ more) = body st' (rest ++ more)

/-- The loop with enough fuel. -/
def run (body : σ → Bytes → Iter σ α) (st : σ) (buf : Bytes) : Iter σ α :=
  loop body (buf.length + 1) st buf

/-- Bodies whose `continue` consumes input. -/
def Consumes (body : σ → Bytes → Iter σ α) : Prop :=
  ∀ st buf st' rest, body st buf = .again st' rest → rest.length < buf.length

theorem loop_fuel {body : σ → Bytes → Iter σ α} (hc : Consumes body) :
    ∀ (n m : Nat) (st : σ) (buf : Bytes), buf.length < n → buf.length < m →
      loop body n st buf = loop body m st buf := by
  intro n
  induction n with
  | zero => intro m st buf h; omega
  | succ n ih =>
    intro m st buf hn hm
    cases m with
    | zero => omega
    | succ m =>
      simp only [loop]
      cases hb : body st buf with
      | again st' rest =>
        have := hc _ _ _ _ hb
        exact ih m st' rest (by omega) (by omega)
      | _ => rfl

theorem run_eq {body : σ → Bytes → Iter σ α} (hc : Consumes body) (st : σ) (buf : Bytes) :
    run body st buf = match body st buf with
      | .again st' rest => run body st' rest
      | x => x := by
  rw [run, loop]
  cases hb : body st buf with
  | again st' rest =>
    have := hc _ _ _ _ hb
    exact loop_fuel hc _ _ _ _ (by omega) (by omega)
  | _ => rfl

theorem Mono.consumes {body : σ → Bytes → Iter σ α} {fin} (hm : Mono body fin) : Consumes body :=
  fun _ _ _ _ h => (hm.again h).2

/-- Induction principle for `run`: over the chain of `continue`s. -/
theorem run_ind {body : σ → Bytes → Iter σ α} (hc : Consumes body) {P : σ → Bytes → Prop}
    (h : ∀ st buf, (∀ st' rest, body st buf = .again st' rest → P st' rest) → P st buf)
    (st : σ) (buf : Bytes) : P st buf := by
  induction hn : buf.length using Nat.strongRecOn generalizing st buf with
  | _ n ih =>
    apply h
    intro st' rest hb
    exact ih rest.length (by have := hc _ _ _ _ hb; omega) _ _ rfl

/-- `run` never returns `again`. -/
theorem run_ne_again {body : σ → Bytes → Iter σ α} (hc : Consumes body) (st : σ) (buf : Bytes) :
    ∀ st' rest, run body st buf ≠ .again st' rest := by
  refine run_ind hc (P := fun st buf => ∀ st' rest, run body st buf ≠ .again st' rest) ?_ st buf
  · intro st buf ih s r
    rw [run_eq hc]
    cases hb : body st buf with
    | again st' rest => exact ih _ _ hb s r
    | _ => simp

/-- `run` of a monotone body is monotone. -/
theorem Mono.run {body : σ → Bytes → Iter σ α} {fin} (hm : Mono body fin) :
    Mono (Record.run body) fin := by
  have hc := hm.consumes
  constructor
  · intro st buf
    refine run_ind hc (P := fun st buf => ∀ {a st' rest}, Record.run body st buf = .done a st' rest →
        ∀ more, Record.run body st (buf ++ more) = .done a st' (rest ++ more) ∨ ∃ a' st'' r, Record.run body st (buf ++ more) = .done a' st'' r ∧ fin a a') ?_ st buf
    · intro st buf ih a st' rest h more
      rw [run_eq hc] at h
      rw [run_eq hc st (buf ++ more)]
      cases hb : body st buf with
      | again s r =>
        rw [hb] at h
        rw [(hm.again hb).1 more]
        exact ih _ _ hb h more
      | done a1 s1 r1 =>
        rw [hb] at h
        cases h
        rcases hm.done hb more with h1 | ⟨a', s', r', h1, hf⟩
        · left; rw [h1]
        · right; exact ⟨a', s', r', by rw [h1], hf⟩
      | needMore _ _ _ => rw [hb] at h; simp at h
      | fail _ => rw [hb] at h; simp at h
  · intro st buf st' rest h
    exact absurd h (run_ne_again hc _ _ _ _)
  · intro st buf
    refine run_ind hc (P := fun st buf => ∀ {f}, Record.run body st buf = .fail f →
        ∀ more, ∃ f', Record.run body st (buf ++ more) = .fail f' ∧ Failure.Sim f f') ?_ st buf
    · intro st buf ih f h more
      rw [run_eq hc] at h
      rw [run_eq hc st (buf ++ more)]
      cases hb : body st buf with
      | again s r =>
        rw [hb] at h
        rw [(hm.again hb).1 more]
        exact ih _ _ hb h more
      | fail f1 =>
        rw [hb] at h
        cases h
        obtain ⟨f', h1, h2⟩ := hm.fail hb more
        exact ⟨f', by rw [h1], h2⟩
      | needMore _ _ _ => rw [hb] at h; simp at h
      | done _ _ _ => rw [hb] at h; simp at h
  · intro st buf
    refine run_ind hc (P := fun st buf => ∀ {h st' rest}, Record.run body st buf = .needMore h st' rest →
        ∀ more, Record.run body st (buf ++ more) = Record.run body st' (rest ++ more)) ?_ st buf
    · intro st buf ih hh st' rest h more
      rw [run_eq hc] at h
      rw [run_eq hc st (buf ++ more)]
      cases hb : body st buf with
      | again s r =>
        rw [hb] at h
        rw [(hm.again hb).1 more]
        exact ih _ _ hb h more
      | needMore h1 s1 r1 =>
        rw [hb] at h
        cases h
        rw [hm.need hb more, run_eq hc st' (rest ++ more)]
      | fail f1 => rw [hb] at h; simp at h
      | done _ _ _ => rw [hb] at h; simp at h

/-! ## Plaintext -/

theorem take_append_le {n : Nat} {l more : Bytes} (h : n ≤ l.length) :
    (l ++ more).take n = l.take n := List.take_append_of_le_length h
theorem drop_append_le {n : Nat} {l more : Bytes} (h : n ≤ l.length) :
    (l ++ more).drop n = l.drop n ++ more := List.drop_append_of_le_length h

theorem short_or_header (buf : Bytes) :
    buf.length < 5 ∨ ∃ t v1 v2 l1 l2 body, buf = t :: v1 :: v2 :: l1 :: l2 :: body := by
  match buf with
  | [] | [_] | [_, _] | [_, _, _] | [_, _, _, _] => left; simp
  | t :: v1 :: v2 :: l1 :: l2 :: body => exact Or.inr ⟨_, _, _, _, _, _, rfl⟩

theorem recordBody_short (hdr : σ → Header → Bytes → Res σ) (act : σ → Header → Bytes → RecAct σ α)
    (st : σ) {buf : Bytes} (h : buf.length < 5) :
    recordBody hdr act st buf = .needMore (5 - buf.length) st buf := by
  match buf with
  | [] | [_] | [_, _] | [_, _, _] | [_, _, _, _] => rfl
  | t :: v1 :: v2 :: l1 :: l2 :: body => simp at h; omega

/-- A header check that does not depend on the buffer (except for error messages) and is
idempotent. -/
structure HdrOk (hdr : σ → Header → Bytes → Res σ) : Prop where
  ok : ∀ {st h b st'}, hdr st h b = .ok st' → ∀ b', hdr st h b' = .ok st' ∧ hdr st' h b' = .ok st'
  err : ∀ {st h b f}, hdr st h b = .error f → ∀ b', ∃ f', hdr st h b' = .error f' ∧ Failure.Sim f f'

theorem recordBody_mono {hdr : σ → Header → Bytes → Res σ} {act : σ → Header → Bytes → RecAct σ α}
    (hh : HdrOk hdr) : Mono (recordBody hdr act) (fun _ _ => False) := by
  constructor
  · intro st buf a st' rest h more
    left
    rcases short_or_header buf with hs | ⟨t, v1, v2, l1, l2, body, rfl⟩
    · rw [recordBody_short _ _ st hs] at h; cases h
    · simp only [recordBody, List.cons_append] at h ⊢
      split at h
      · cases h
      · rename_i st1 hst
        rw [(hh.ok hst _).1]
        split_ifs at h with hl
        have hlt : ¬ (body ++ more).length < Header.length ⟨t, v1, v2, l1, l2⟩ := by simp; omega
        simp only [hlt, if_false, take_append_le (Nat.le_of_not_lt hl),
          drop_append_le (Nat.le_of_not_lt hl)]
        split at h <;> cases h
        rfl
  · intro st buf st' rest h
    rcases short_or_header buf with hs | ⟨t, v1, v2, l1, l2, body, rfl⟩
    · rw [recordBody_short _ _ st hs] at h; cases h
    · simp only [recordBody] at h
      split at h
      · cases h
      · rename_i st1 hst
        split_ifs at h with hl
        split at h <;> cases h
        rename_i h2
        refine ⟨fun more => ?_, by simp; omega⟩
        simp only [recordBody, List.cons_append]
        rw [(hh.ok hst _).1]
        have hlt : ¬ (body ++ more).length < Header.length ⟨t, v1, v2, l1, l2⟩ := by simp; omega
        simp only [hlt, if_false, take_append_le (Nat.le_of_not_lt hl),
          drop_append_le (Nat.le_of_not_lt hl), h2]
  · intro st buf f h more
    rcases short_or_header buf with hs | ⟨t, v1, v2, l1, l2, body, rfl⟩
    · rw [recordBody_short _ _ st hs] at h; cases h
    · simp only [recordBody, List.cons_append] at h ⊢
      split at h
      · rename_i f1 hf
        cases h
        obtain ⟨f', h1, h2⟩ := hh.err hf _
        rw [h1]
        exact ⟨f', rfl, h2⟩
      · rename_i st1 hst
        rw [(hh.ok hst _).1]
        split_ifs at h with hl
        have hlt : ¬ (body ++ more).length < Header.length ⟨t, v1, v2, l1, l2⟩ := by simp; omega
        simp only [hlt, if_false, take_append_le (Nat.le_of_not_lt hl),
          drop_append_le (Nat.le_of_not_lt hl)]
        split at h <;> cases h
        exact ⟨_, rfl, Failure.Sim.refl _⟩
  · intro st buf h st' rest hb more
    rcases short_or_header buf with hs | ⟨t, v1, v2, l1, l2, body, rfl⟩
    · rw [recordBody_short _ _ st hs] at hb; cases hb; rfl
    · simp only [recordBody] at hb
      split at hb
      · cases hb
      · rename_i st1 hst
        split_ifs at hb with hl
        · cases hb
          simp only [recordBody, List.cons_append]
          rw [(hh.ok hst _).1, (hh.ok hst _).2]
        · split at hb <;> cases hb

theorem plainHeader_ok : HdrOk plainHeader := by
  constructor
  · intro st h b st' hs b'
    unfold plainHeader at hs ⊢
    by_cases c1 : st.skipEncrypted = true ∧ h.t = ContentType.application_data
    · rw [if_pos c1] at hs; cases hs; simp [c1]
    · rw [if_neg c1] at hs ⊢
      simp only at hs ⊢
      by_cases c2 : h.t ≠ ContentType.handshake ∧ h.t ≠ ContentType.alert ∧
        h.t ≠ ContentType.change_cipher_spec
      · rw [if_pos c2] at hs; cases hs
      · rw [if_neg c2] at hs
        simp only [if_neg c2]
        by_cases c3 : kMaxPlaintextRecordSize < h.length
        · rw [if_pos c3] at hs; cases hs
        · rw [if_neg c3] at hs
          by_cases c4 : h.length = 0
          · rw [if_pos c4] at hs; cases hs
          · rw [if_neg c4] at hs
            cases hs
            simp only [if_neg c3, if_neg c4, true_and]
            have c5 : h.t ≠ ContentType.application_data := by
              intro e; apply c2; rw [e]; decide
            simp only [c5, and_false, if_false]
            by_cases c6 : h.t = ContentType.change_cipher_spec <;> simp [c6]
  · intro st h b f hs b'
    unfold plainHeader at hs ⊢
    by_cases c1 : st.skipEncrypted = true ∧ h.t = ContentType.application_data
    · rw [if_pos c1] at hs; cases hs
    · rw [if_neg c1] at hs ⊢
      simp only at hs ⊢
      by_cases c2 : h.t ≠ ContentType.handshake ∧ h.t ≠ ContentType.alert ∧
        h.t ≠ ContentType.change_cipher_spec
      · rw [if_pos c2] at hs ⊢; cases hs; exact ⟨_, rfl, by simp [Failure.Sim, Failure.rt]⟩
      · rw [if_neg c2] at hs ⊢
        exact ⟨_, hs, Failure.Sim.refl _⟩

theorem encHeader_ok : HdrOk encHeaderCheck := by
  constructor
  · intro st h b st' hs b'
    unfold encHeaderCheck at *
    split_ifs at hs <;> cases hs
    split_ifs; simp
  · intro st h b f hs b'
    unfold encHeaderCheck at *
    exact ⟨f, hs, Failure.Sim.refl _⟩

theorem plainBody_mono : Mono plainBody (fun _ _ => False) := recordBody_mono plainHeader_ok
theorem encBody_mono : Mono encBody (fun _ _ => False) := recordBody_mono encHeader_ok

theorem plainRead_mono : Mono plainRead (fun _ _ => False) := plainBody_mono.run
theorem getDecryptedBuf_mono : Mono getDecryptedBuf (fun _ _ => False) := encBody_mono.run

theorem encRead_mono : Mono encRead (fun _ _ => False) := by
  have hm := getDecryptedBuf_mono
  constructor
  · intro st buf a st' rest h more
    left
    unfold encRead at *
    cases hg : getDecryptedBuf st buf with
    | done c s r =>
      rw [hg] at h
      rcases hm.done hg more with h1 | ⟨_, _, _, _, h2⟩
      · rw [h1]
        simp only at h ⊢
        cases ho : openInner c with
        | ok m => rw [ho] at h; cases h; rfl
        | error f => rw [ho] at h; cases h
      · exact h2.elim
    | _ => rw [hg] at h; cases h
  · intro st buf st' rest h
    exfalso
    unfold encRead at h
    cases hg : getDecryptedBuf st buf with
    | again s r => exact run_ne_again encBody_mono.consumes _ _ _ _ hg
    | done c s r =>
      rw [hg] at h
      simp only at h
      split at h <;> cases h
    | _ => rw [hg] at h; cases h
  · intro st buf f h more
    unfold encRead at *
    cases hg : getDecryptedBuf st buf with
    | done c s r =>
      rw [hg] at h
      rcases hm.done hg more with h1 | ⟨_, _, _, _, h2⟩
      · rw [h1]
        simp only at h ⊢
        cases ho : openInner c with
        | ok m => rw [ho] at h; cases h
        | error f => rw [ho] at h; cases h; exact ⟨_, rfl, Failure.Sim.refl _⟩
      · exact h2.elim
    | fail f1 =>
      rw [hg] at h
      cases h
      obtain ⟨f', h1, h2⟩ := hm.fail hg more
      rw [h1]; exact ⟨_, rfl, h2⟩
    | _ => rw [hg] at h; cases h
  · intro st buf hh st' rest h more
    have hr : getDecryptedBuf st buf = .needMore hh st' rest := by
      unfold encRead at h
      cases hg : getDecryptedBuf st buf with
      | needMore _ _ _ => rw [hg] at h; cases h; rfl
      | done c s r =>
        rw [hg] at h
        simp only at h
        split at h <;> cases h
      | _ => rw [hg] at h; cases h
    unfold encRead
    rw [hm.need hr more]

theorem layerRead_mono : Mono Layer.read (fun _ _ => False) := by
  constructor
  · intro st buf a st' rest h more
    left
    cases st with
    | plain p =>
      simp only [Layer.read] at *
      cases hg : plainRead p buf with
      | done c s r =>
        rcases plainRead_mono.done hg more with h1 | ⟨_, _, _, _, h2⟩
        · rw [hg] at h; rw [h1]; cases h; rfl
        · exact h2.elim
      | _ => rw [hg] at h; cases h
    | enc e =>
      simp only [Layer.read] at *
      cases hg : encRead e buf with
      | done c s r =>
        rcases encRead_mono.done hg more with h1 | ⟨_, _, _, _, h2⟩
        · rw [hg] at h; rw [h1]; cases h; rfl
        · exact h2.elim
      | _ => rw [hg] at h; cases h
  · intro st buf st' rest h
    exfalso
    cases st with
    | plain p =>
      simp only [Layer.read] at *
      cases hg : plainRead p buf with
      | again s r => exact run_ne_again plainBody_mono.consumes _ _ _ _ hg
      | _ => rw [hg] at h; cases h
    | enc e =>
      simp only [Layer.read] at *
      cases hg : encRead e buf with
      | again s r =>
        have := (encRead_mono.again hg).2
        unfold encRead at hg
        cases hq : getDecryptedBuf e buf with
        | again s r => exact run_ne_again encBody_mono.consumes _ _ _ _ hq
        | done c s r => rw [hq] at hg; simp only at hg; split at hg <;> cases hg
        | _ => rw [hq] at hg; cases hg
      | _ => rw [hg] at h; cases h
  · intro st buf f h more
    cases st with
    | plain p =>
      simp only [Layer.read] at *
      cases hg : plainRead p buf with
      | fail f1 =>
        obtain ⟨f', h1, h2⟩ := plainRead_mono.fail hg more
        rw [hg] at h; rw [h1]; cases h; exact ⟨_, rfl, h2⟩
      | _ => rw [hg] at h; cases h
    | enc e =>
      simp only [Layer.read] at *
      cases hg : encRead e buf with
      | fail f1 =>
        obtain ⟨f', h1, h2⟩ := encRead_mono.fail hg more
        rw [hg] at h; rw [h1]; cases h; exact ⟨_, rfl, h2⟩
      | _ => rw [hg] at h; cases h
  · intro st buf hh st' rest h more
    cases st with
    | plain p =>
      simp only [Layer.read] at h
      cases hg : plainRead p buf with
      | needMore h1 s1 r1 =>
        rw [hg] at h; cases h
        simp only [Layer.read, plainRead_mono.need hg more]
      | _ => rw [hg] at h; cases h
    | enc e =>
      simp only [Layer.read] at h
      cases hg : encRead e buf with
      | needMore h1 s1 r1 =>
        rw [hg] at h; cases h
        simp only [Layer.read, encRead_mono.need hg more]
      | _ => rw [hg] at h; cases h

/-! ## Progress -/

theorem recordBody_done_lt {hdr : σ → Header → Bytes → Res σ} {act : σ → Header → Bytes → RecAct σ α}
    {st : σ} {buf : Bytes} {a st' rest} (h : recordBody hdr act st buf = .done a st' rest) :
    rest.length + 5 ≤ buf.length := by
  rcases short_or_header buf with hs | ⟨t, v1, v2, l1, l2, body, rfl⟩
  · rw [recordBody_short _ _ st hs] at h; cases h
  · simp only [recordBody] at h
    split at h
    · cases h
    · split_ifs at h
      split at h <;> cases h
      simp

theorem run_done_lt {body : σ → Bytes → Iter σ α} (hc : Consumes body)
    (hd : ∀ st buf a st' rest, body st buf = .done a st' rest → rest.length + 5 ≤ buf.length)
    (st : σ) (buf : Bytes) :
    ∀ a st' rest, run body st buf = .done a st' rest → rest.length + 5 ≤ buf.length := by
  refine run_ind hc (P := fun st buf => ∀ a st' rest, run body st buf = .done a st' rest →
    rest.length + 5 ≤ buf.length) ?_ st buf
  intro st buf ih a st' rest h
  rw [run_eq hc] at h
  cases hb : body st buf with
  | again s r =>
    rw [hb] at h
    have := ih _ _ hb _ _ _ h
    have := hc _ _ _ _ hb
    omega
  | done a1 s1 r1 => rw [hb] at h; cases h; exact hd _ _ _ _ _ hb
  | _ => rw [hb] at h; simp at h

theorem layerRead_done_lt {l : Layer} {buf : Bytes} {m l' rest}
    (h : l.read buf = .done m l' rest) : rest.length + 5 ≤ buf.length := by
  cases l with
  | plain p =>
    simp only [Layer.read] at h
    cases hg : plainRead p buf with
    | done c s r =>
      rw [hg] at h; cases h
      exact run_done_lt plainBody_mono.consumes (fun _ _ _ _ _ => recordBody_done_lt) _ _ _ _ _ hg
    | _ => rw [hg] at h; cases h
  | enc e =>
    simp only [Layer.read] at h
    cases hg : encRead e buf with
    | done c s r =>
      rw [hg] at h; cases h
      unfold encRead at hg
      cases hq : getDecryptedBuf e buf with
      | done c s r =>
        rw [hq] at hg
        simp only at hg
        split at hg <;> cases hg
        exact run_done_lt encBody_mono.consumes (fun _ _ _ _ _ => recordBody_done_lt) _ _ _ _ _ hq
      | _ => rw [hq] at hg; cases hg
    | _ => rw [hg] at h; cases h

theorem layerRead_ne_again (l : Layer) (buf : Bytes) (l' rest) : l.read buf ≠ .again l' rest := by
  intro h
  cases l with
  | plain p =>
    simp only [Layer.read] at *
    cases hg : plainRead p buf with
    | again s r => exact run_ne_again plainBody_mono.consumes _ _ _ _ hg
    | _ => rw [hg] at h; cases h
  | enc e =>
    simp only [Layer.read] at *
    cases hg : encRead e buf with
    | again s r =>
      unfold encRead at hg
      cases hq : getDecryptedBuf e buf with
      | again s r => exact run_ne_again encBody_mono.consumes _ _ _ _ hq
      | done c s r => rw [hq] at hg; simp only at hg; split at hg <;> cases hg
      | _ => rw [hq] at hg; cases hg
    | _ => rw [hg] at h; cases h

/-! ## Events -/

/-- Both are close_notify (their payload, the bytes buffered behind the alert, may differ). -/
def BothClose (a b : Event) : Prop := ∃ x y, a = .closeNotify x ∧ b = .closeNotify y

/-- What `eventBody` does with a record, separated from the buffer. -/
def eventAct (r : Reader) (l : Layer) (m : TLSMessage) (rest : Bytes) : Iter Reader Event :=
  if r.unparsed ≠ [] ∧ m.type ≠ ContentType.handshake then
    .fail (Failure.rt "spliced handshake data")
  else if m.type = ContentType.alert then
    match decodeAlert m.fragment with
    | .error f => .fail f
    | .ok a =>
      if a.description = close_notify then .done (.closeNotify rest) { r with layer := l } []
      else .done (.alert a) { r with layer := l } rest
  else if m.type = ContentType.handshake then
    match decodeHandshakeMessage (r.unparsed ++ m.fragment) with
    | .error f => .fail f
    | .ok .none => .again ⟨l, r.unparsed ++ m.fragment⟩ rest
    | .ok (.msg hm orig u') => .done (.handshake hm orig) ⟨l, u'⟩ rest
  else if m.type = ContentType.application_data then
    .done (.appData m.fragment) { r with layer := l } rest
  else .fail (Failure.rt "unknown content type")

theorem eventBody_eq (r : Reader) (buf : Bytes) : eventBody r buf = match r.layer.read buf with
    | .needMore h l rest => .needMore h { r with layer := l } rest
    | .again l rest => .again { r with layer := l } rest
    | .fail f => .fail f
    | .done m l rest => eventAct r l m rest := rfl

/-- `eventAct` treats the rest of the buffer opaquely. -/
theorem eventAct_cases (r : Reader) (l : Layer) (m : TLSMessage) :
    (∃ f, ∀ rest, eventAct r l m rest = .fail f) ∨
    (∃ ev r', ∀ rest, eventAct r l m rest = .done ev r' rest) ∨
    (∃ r', ∀ rest, eventAct r l m rest = .done (.closeNotify rest) r' []) ∨
    (∃ r', (∀ rest, eventAct r l m rest = .again r' rest) ∧
      decodeHandshakeMessage r'.unparsed = .ok .none) := by
  unfold eventAct
  split_ifs
  · left; exact ⟨_, fun _ => rfl⟩
  · cases decodeAlert m.fragment with
    | error f => left; exact ⟨_, fun _ => rfl⟩
    | ok a =>
      simp only
      split_ifs
      · right; right; left; exact ⟨_, fun _ => rfl⟩
      · right; left; exact ⟨_, _, fun _ => rfl⟩
  · cases hd : decodeHandshakeMessage (r.unparsed ++ m.fragment) with
    | error f => left; exact ⟨_, fun _ => rfl⟩
    | ok o =>
      cases o with
      | none => right; right; right; exact ⟨_, fun _ => rfl, hd⟩
      | msg a b c => right; left; exact ⟨_, _, fun _ => rfl⟩
  · right; left; exact ⟨_, _, fun _ => rfl⟩
  · left; exact ⟨_, fun _ => rfl⟩

theorem eventBody_mono : Mono eventBody BothClose := by
  have hm := layerRead_mono
  have key : ∀ {r : Reader} {buf m l rest}, r.layer.read buf = .done m l rest →
      ∀ more, r.layer.read (buf ++ more) = .done m l (rest ++ more) := by
    intro r buf m l rest h more
    rcases hm.done h more with h1 | ⟨_, _, _, _, h2⟩
    · exact h1
    · exact h2.elim
  constructor
  · intro r buf a r' rest h more
    rw [eventBody_eq] at h ⊢
    cases hg : r.layer.read buf with
    | done m l rest1 =>
      rw [hg] at h
      rw [key hg more]
      simp only at h ⊢
      rcases eventAct_cases r l m with ⟨f, hf⟩ | ⟨ev, r1, h1⟩ | ⟨r1, h1⟩ | ⟨r1, h1, -⟩
      · rw [hf] at h; cases h
      · rw [h1] at h ⊢; cases h; left; rfl
      · rw [h1] at h ⊢; cases h; right; exact ⟨_, _, _, rfl, _, _, rfl, rfl⟩
      · rw [h1] at h; cases h
    | _ => rw [hg] at h; cases h
  · intro r buf r' rest h
    rw [eventBody_eq] at h
    cases hg : r.layer.read buf with
    | done m l rest1 =>
      rw [hg] at h
      simp only at h
      rcases eventAct_cases r l m with ⟨f, hf⟩ | ⟨ev, r1, h1⟩ | ⟨r1, h1⟩ | ⟨r1, h1, -⟩
      · rw [hf] at h; cases h
      · rw [h1] at h; cases h
      · rw [h1] at h; cases h
      · rw [h1] at h; cases h
        refine ⟨fun more => ?_, by have := layerRead_done_lt hg; omega⟩
        rw [eventBody_eq, key hg more]
        exact h1 _
    | again l rest => exact absurd hg (layerRead_ne_again _ _ _ _)
    | _ => rw [hg] at h; cases h
  · intro r buf f h more
    rw [eventBody_eq] at h ⊢
    cases hg : r.layer.read buf with
    | done m l rest1 =>
      rw [hg] at h
      rw [key hg more]
      simp only at h ⊢
      rcases eventAct_cases r l m with ⟨f, hf⟩ | ⟨ev, r1, h1⟩ | ⟨r1, h1⟩ | ⟨r1, h1, -⟩
      · rw [hf] at h ⊢; cases h; exact ⟨_, rfl, Failure.Sim.refl _⟩
      · rw [h1] at h; cases h
      · rw [h1] at h; cases h
      · rw [h1] at h; cases h
    | fail f1 =>
      rw [hg] at h
      obtain ⟨f', h1, h2⟩ := hm.fail hg more
      rw [h1]; cases h; exact ⟨_, rfl, h2⟩
    | _ => rw [hg] at h; cases h
  · intro r buf hh r' rest h more
    rw [eventBody_eq] at h
    cases hg : r.layer.read buf with
    | needMore h1 l1 r1 =>
      rw [hg] at h; cases h
      rw [eventBody_eq, eventBody_eq, hm.need hg more]
      simp only [eventAct]
    | done m l rest1 =>
      rw [hg] at h
      simp only at h
      rcases eventAct_cases r l m with ⟨f, hf⟩ | ⟨ev, r1, h1⟩ | ⟨r1, h1⟩ | ⟨r1, h1, -⟩
      · rw [hf] at h; cases h
      · rw [h1] at h; cases h
      · rw [h1] at h; cases h
      · rw [h1] at h; cases h
    | _ => rw [hg] at h; cases h

theorem readEvent_eq (r : Reader) (buf : Bytes) :
    readEvent r buf = match decodeHandshakeMessage r.unparsed with
      | .error f => .fail f
      | .ok (.msg hm orig u') => .done (.handshake hm orig) { r with unparsed := u' } buf
      | .ok .none => run eventBody r buf := by
  unfold readEvent
  by_cases h : r.unparsed = []
  · have : decodeHandshakeMessage r.unparsed = .ok .none := by rw [h]; rfl
    rw [this]
    simp [h, run]
  · rw [if_pos h]
    rfl

/-- The loop leaves undecodable leftovers only. -/
theorem run_event_unparsed (r : Reader) (buf : Bytes) :
    decodeHandshakeMessage r.unparsed = .ok .none → ∀ h r' rest,
    run eventBody r buf = .needMore h r' rest → decodeHandshakeMessage r'.unparsed = .ok .none := by
  have hc := eventBody_mono.consumes
  refine run_ind hc (P := fun r buf => decodeHandshakeMessage r.unparsed = .ok .none → ∀ h r' rest,
    run eventBody r buf = .needMore h r' rest → decodeHandshakeMessage r'.unparsed = .ok .none)
    ?_ r buf
  intro r buf ih hd h r' rest hr
  rw [run_eq hc] at hr
  cases hb : eventBody r buf with
  | again r1 rest1 =>
    rw [hb] at hr
    refine ih _ _ hb ?_ _ _ _ hr
    rw [eventBody_eq] at hb
    cases hg : r.layer.read buf with
    | done m l rest1 =>
      rw [hg] at hb
      simp only at hb
      rcases eventAct_cases r l m with ⟨f, hf⟩ | ⟨ev, r1, h1⟩ | ⟨r1, h1⟩ | ⟨r1, h1, h2⟩
      · rw [hf] at hb; cases hb
      · rw [h1] at hb; cases hb
      · rw [h1] at hb; cases hb
      · rw [h1] at hb; cases hb; exact h2
    | again l rest => exact absurd hg (layerRead_ne_again _ _ _ _)
    | _ => rw [hg] at hb; cases hb
  | needMore h1 r1 rest1 =>
    rw [hb] at hr
    cases hr
    rw [eventBody_eq] at hb
    cases hg : r.layer.read buf with
    | needMore h1 l1 r1 => rw [hg] at hb; cases hb; exact hd
    | done m l rest1 =>
      rw [hg] at hb
      simp only at hb
      rcases eventAct_cases r l m with ⟨f, hf⟩ | ⟨ev, r1, h1⟩ | ⟨r1, h1⟩ | ⟨r1, h1, h2⟩
      · rw [hf] at hb; cases hb
      · rw [h1] at hb; cases hb
      · rw [h1] at hb; cases hb
      · rw [h1] at hb; cases hb
    | _ => rw [hg] at hb; cases hb
  | _ => rw [hb] at hr; simp at hr

theorem readEvent_mono : Mono readEvent BothClose := by
  have hm := eventBody_mono.run
  constructor
  · intro r buf a r' rest h more
    rw [readEvent_eq] at h ⊢
    split at h
    · cases h
    · cases h; left; rfl
    · exact hm.done h more
  · intro r buf r' rest h
    rw [readEvent_eq] at h
    split at h
    · cases h
    · cases h
    · exact absurd h (run_ne_again eventBody_mono.consumes _ _ _ _)
  · intro r buf f h more
    rw [readEvent_eq] at h ⊢
    split at h
    · cases h; exact ⟨_, rfl, Failure.Sim.refl _⟩
    · cases h
    · exact hm.fail h more
  · intro r buf hh r' rest h more
    rw [readEvent_eq] at h
    split at h
    · cases h
    · cases h
    · rename_i hd
      rw [readEvent_eq, readEvent_eq, hd, run_event_unparsed r buf hd _ _ _ h]
      exact hm.need h more

end Fizz.Record
