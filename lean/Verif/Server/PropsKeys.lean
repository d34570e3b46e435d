import Verif.Server.Props

/-!
# C28, continued: a connection that is over keeps no record layer
-/

namespace Fizz.Server
open Fizz.Codec Fizz.Crypto
open Fizz.Conn (Trig)

/-- No record protection is left in either direction. -/
def Spec.NoKeys (s : St) : Prop := s.read = none ∧ s.write = none

/-- The step hands the connection over to the application's fallback (an older protocol version). -/
def Spec.fallsBack (y : Step) : Prop := ∃ b sni, Action.attemptVersionFallback b sni ∈ y.acts

theorem fail_keys {s s' : St} {a b} :
    Spec.NoKeys (applyAll (.mutate toError :: (alertWrites s a b ++ [.reportError a])) s') := by
  have hal : applyAll (.mutate toError :: (alertWrites s a b ++ [.reportError a])) s' = toError s' := by
    unfold applyAll alertWrites
    repeat' split
    all_goals rfl
  rw [hal]
  exact ⟨rfl, rfl⟩

theorem hello_over {cfg inp s u m orig acts} (h : HelloShape cfg inp s u m orig acts)
    (ht : terminal (applyAll acts s) = true) : ∃ b sni, Action.attemptVersionFallback b sni ∈ acts := by
  have hact : ∀ p f w, terminal (applyAll (helloActions cfg p f w) s) = true → False := by
    intro p f w
    unfold helloActions
    dsimp only
    repeat' split
    all_goals (intro h; cases h)
  cases h with
  | fallback => exact ⟨_, _, List.mem_cons_of_mem _ (List.mem_singleton.2 rfl)⟩
  | retry _ _ _ _ h5 =>
    exfalso
    unfold sendRetry at h5
    simp only [Res.bind_eq_ok] at h5
    obtain ⟨_, _, _, _, _, _, _, _, _, _, _, _, h⟩ := h5
    rw [← pure_eq_ok.1 h] at ht
    cases ht
  | noKex _ _ _ _ _ _ => exact (hact _ _ _ ht).elim
  | kex _ _ _ _ _ _ _ => exact (hact _ _ _ ht).elim

theorem keys_step {cfg : Cfg} {i s t acts} {P : Prop} (hi : terminal s = true → Spec.NoKeys s ∨ P)
    (hsh : Shape cfg i s t acts) (ht : terminal (applyAll acts s) = true) :
    (Spec.NoKeys (applyAll acts s) ∨ P) ∨ ∃ b sni, Action.attemptVersionFallback b sni ∈ acts := by
  have hn : ∀ st, s.state = st → (st ≠ .error ∧ st ≠ .closed) → terminal s = true → False := by
    intro st h1 h2 h3
    simp [terminal, h1, h2.1, h2.2] at h3
  cases hsh with
  | nothing => exact .inl (hi ht)
  | fail _ => exact .inl (.inl fail_keys)
  | wait _ => exact .inl (hi ht)
  | closeNow _ => exact .inl (.inl ⟨rfl, rfl⟩)
  | close _ => cases ht
  | closed _ => exact .inl (.inl ⟨rfl, rfl⟩)
  | accept _ => cases ht
  | v2 => exact .inr ⟨_, _, List.mem_cons_of_mem _ (List.mem_singleton.2 rfl)⟩
  | hello _ _ h => exact .inr (hello_over h ht)
  | earlyData _ _ => exact .inl (hi ht)
  | data _ _ => exact .inl (hi ht)
  | appWrite _ _ => exact .inl (hi ht)
  | endOfEarlyData _ _ _ => cases ht
  | noCertificate _ _ _ _ _ => cases ht
  | certificate _ _ _ _ _ _ => cases ht
  | certificateVerify _ _ _ _ _ _ _ _ => cases ht
  | @finished m orig ctx secret h hc ks ks' cipher version read rms nst _ _ _ _ _ _ _ _ _ _ _ _ _ hk =>
    exfalso
    revert ht
    unfold finishedTicket at hk
    unfold finishedActions
    by_cases hc : cfg.sendNewSessionTicket = true
    · rw [if_pos hc] at hk ⊢
      have := (ticket_plain hk).1
      have e : ∀ a b : List Action, ∀ s, applyAll (a ++ b) s = applyAll b (applyAll a s) := by
        intro a b s; unfold applyAll; rw [List.foldl_append]
      rw [e, e, this]
      intro h; cases h
    · rw [if_neg hc]
      intro h; cases h
  | ticket _ hk => rw [(ticket_plain hk).1] at ht ⊢; exact .inl (hi ht)
  | keyUpdateInitiation hs _ _ _ _ _ => exact (hn _ hs (by simp) (by exact ht)).elim
  | keyUpdate hs _ _ _ _ => exact (hn _ hs (by simp) (by exact ht)).elim
  | keyUpdateAnswered hs _ _ _ _ _ _ _ => exact (hn _ hs (by simp) (by exact ht)).elim
  | closeNotify _ _ _ => exact .inl (.inl ⟨rfl, rfl⟩)
  | expectedCloseNotify _ _ => exact .inl (.inl ⟨rfl, rfl⟩)

/-- C28: a connection that is in Error or Closed holds no traffic keys any more, in either direction,
unless it was handed over to the fallback for older protocol versions. -/
theorem C28_keys {cfg : Cfg} {h s} (hr : Run cfg h s) (ht : terminal s = true) :
    Spec.NoKeys s ∨ ∃ y ∈ h, Spec.fallsBack y := by
  induction h generalizing s with
  | nil => cases hr; cases ht
  | cons y h ih =>
    obtain ⟨r1, r2, r3, r4⟩ := hr.split (newer := []) (y := y)
    have := r2.det hr
    subst this
    rcases keys_step (fun hh => ih r1 hh) r3 ht with (h1 | ⟨z, hz, h1⟩) | h1
    · exact .inl h1
    · exact .inr ⟨z, List.mem_cons_of_mem _ hz, h1⟩
    · exact .inr ⟨y, by simp, h1⟩

end Fizz.Server
