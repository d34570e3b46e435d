import Verif.Psp.Props

/-! # PSP upgrade: a concrete run of two ends -/

namespace Fizz.Psp.Example

open Fizz.Codec

/-- The association each end's kernel makes. -/
def saA : SA := ⟨0, 0x01020304, List.replicate 16 7⟩
@[inherit_doc saA] def saB : SA := ⟨1, 0xfffefdfc, List.replicate 32 9⟩

theorem validA : Spec.Valid saA := Or.inl ⟨rfl, rfl⟩
theorem validB : Spec.Valid saB := Or.inr (Or.inr (Or.inl ⟨rfl, rfl⟩))

/-- What happens at an end with association `own` whose peer's message comes in two pieces. -/
def events (own peer : SA) (cut : Nat) : List Event :=
  [.start true, .rxDone (.ok own), .wrote, .data ((Spec.message peer).take cut),
    .data ((Spec.message peer).drop cut), .txDone (.ok ())]

/-- What such an end does. -/
def effects (own peer : SA) : List Eff :=
  [.rxAssoc, .write (Spec.message own), .txAssoc peer, .success]

theorem run_a : ∃ s, Run (Spec.new true) s (events saA saB 9) (effects saA saB) :=
  C83_completes true (own := saA) (peer := saB) (by decide) validB [(Spec.message saB).take 9]
    ((Spec.message saB).drop 9) ⟨(Spec.message saB).drop 9, by simp⟩ (by decide) ⟨[], by simp⟩

theorem run_b : ∃ s, Run (Spec.new true) s (events saB saA 41) (effects saB saA) :=
  C83_completes true (own := saB) (peer := saA) (by decide) validA [(Spec.message saA).take 41]
    ((Spec.message saA).drop 41) ⟨(Spec.message saA).drop 41, by simp⟩ (by decide) ⟨[], by simp⟩

/-- The hypotheses of `C83_agree` are met by the two runs, and its conclusion is not empty. -/
theorem agree : .rxDone (.ok saB) ∈ events saB saA 41 := by
  obtain ⟨s, ha⟩ := run_a
  obtain ⟨s', hb⟩ := run_b
  refine C83_agree ha hb ⟨[], ?_⟩ ?_ (peer := saB) (by simp [effects])
  · simp [events, effects, Spec.received, Spec.written]
  · intro sa h
    simp [events] at h
    subst h
    exact validB

/-- A peer that hangs up after half of its message: the failure is reported once and the transport
closed. -/
theorem run_eof : ∃ s msg, Run (Spec.new true) s
    [.start true, .rxDone (.ok saA), .wrote, .data ((Spec.message saB).take 9), .eof]
    [.rxAssoc, .write (Spec.message saA), .close, .failure msg] := by
  have h0 : Run (Spec.new true) (Spec.new true) [] [] := .nil
  have h1 := Run.snoc h0 (e := .start true) ⟨by simp, by simp⟩ rfl
  have h2 := Run.snoc h1 (e := .rxDone (.ok saA)) rfl rfl
  have h3 := Run.snoc h2 (e := .wrote) rfl rfl
  have h4 := Run.snoc h3 (e := .data ((Spec.message saB).take 9)) rfl rfl
  exact ⟨_, _, Run.snoc h4 (e := .eof) rfl rfl⟩

end Fizz.Psp.Example
