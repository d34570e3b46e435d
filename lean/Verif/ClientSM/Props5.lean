import Verif.ClientSM.Props3

/-!
# C53, continued: a connection that is over keeps no record layer
-/

namespace Fizz.ClientSM
open Fizz.Codec Fizz.Crypto
open Fizz.Conn (Trig)

/-- No record protection is left in either direction. -/
def Spec.NoKeys (s : St) : Prop := s.read = none ∧ s.write = none

theorem fail_keys {s s' : St} {a b} :
    Spec.NoKeys (applyAll (.mutate toError :: (alertWrites s a b ++ [.reportError a])) s') := by
  have hal : applyAll (.mutate toError :: (alertWrites s a b ++ [.reportError a])) s' = toError s' := by
    unfold applyAll alertWrites
    repeat' split
    all_goals rfl
  rw [hal]
  exact ⟨rfl, rfl⟩

theorem keys_step {cfg : Cfg} {i s t acts} (hi : terminal s = true → Spec.NoKeys s)
    (hsh : Shape cfg i s t acts) (ht : terminal (applyAll acts s) = true) :
    Spec.NoKeys (applyAll acts s) := by
  have hn : ∀ st, s.state = st → (st ≠ .error ∧ st ≠ .closed) → terminal s = true → False := by
    intro st h1 h2 h3
    simp [terminal, h1, h2.1, h2.2] at h3
  cases hsh with
  | nothing => exact hi ht
  | fail _ => exact fail_keys
  | report _ => exact hi ht
  | wait _ => exact hi ht
  | closeNow _ => exact ⟨rfl, rfl⟩
  | close _ => cases ht
  | closed _ => exact ⟨rfl, rfl⟩
  | @connect c hs _ =>
    exfalso; revert ht; unfold connectActions; dsimp only
    split <;> (intro h; cases h)
  | retry _ _ _ _ => cases ht
  | serverHello _ _ _ => cases ht
  | earlyFailed hs _ => exact hi ht
  | earlyFirst hs _ _ _ _ _ => exact hi ht
  | earlyWrite hs _ _ _ => exact hi ht
  | earlyLate hs _ _ => exact hi ht
  | @encryptedExtensions _ _ _ _ _ _ _ retry t hs _ _ _ _ _ _ _ _ _ =>
    exfalso; revert ht
    cases retry <;> cases t <;> (intro h; cases h)
  | certificateRequest _ _ _ _ _ _ _ => cases ht
  | certificate _ _ _ _ => cases ht
  | compressedCertificate _ _ _ _ _ _ => cases ht
  | certificateVerify _ _ _ _ _ _ _ _ => cases ht
  | @finished m orig u d hs _ _ =>
    by_cases hr : echRejected s
    · rw [finalReport, if_pos hr, handleError, if_neg (by rw [hs]; simp)]
      exact fail_keys (s' := { saveFinished cfg d s with state := .established })
    · rw [finalReport, if_neg hr] at ht; cases ht
  | ticket hs _ ha =>
    obtain ⟨p, rfl⟩ := ticket_shape ha
    exact hi ht
  | data hs _ => exact hi ht
  | appWrite hs _ => exact hi ht
  | keyUpdateInitiation hs _ _ _ _ _ => exact (hn _ hs (by simp) (by exact ht)).elim
  | keyUpdate hs _ _ _ _ => exact (hn _ hs (by simp) (by exact ht)).elim
  | keyUpdateAnswered hs _ _ _ _ _ _ _ => exact (hn _ hs (by simp) (by exact ht)).elim
  | closeNotify _ _ _ => exact ⟨rfl, rfl⟩
  | expectedCloseNotify _ _ => exact ⟨rfl, rfl⟩

/-- C53: a connection that is in Error or Closed holds no traffic keys any more, in either direction. -/
theorem C53_keys {cfg : Cfg} {h s} (hr : Run cfg h s) (ht : terminal s = true) :
    Spec.NoKeys s := by
  induction h generalizing s with
  | nil => cases hr; cases ht
  | cons y h ih =>
    obtain ⟨r1, r2, r3, r4⟩ := hr.split (newer := []) (y := y)
    have := r2.det hr
    subst this
    exact keys_step (fun hh => ih r1 hh) r3 ht

end Fizz.ClientSM
