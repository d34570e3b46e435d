import Verif.ClientSM.Machine
import Verif.Conn.Props

/-!
# Executions of the client

A `Step` is one run of the state machine: what triggered it, what the environment contributed, the
state before, and the actions returned.  A `Run` is a history of such steps (most recent first) in
which every step's actions were applied, and application or socket events were only processed in
states that do not end the connection — which is what the connection driver guarantees (C24).
-/

namespace Fizz.ClientSM
open Fizz.Codec Fizz.Crypto
open Fizz.Conn (Trig Env Reachable Entry)

/-- One run of the state machine. -/
structure Step where
  trig : Trig
  env : StepIn
  pre : St
  acts : List Action

/-- A history of the client, most recent step first, and the state it leads to. -/
inductive Run (cfg : Cfg) : List Step → St → Prop where
  | nil : Run cfg [] {}
  | step {h s t i o} : Run cfg h s →
      (t = .sock ∨ (∃ e, t = .app e) → terminal s = false) →
      step cfg i s t = o →
      Run cfg (⟨t, i, s, o.acts⟩ :: h) (applyAll o.acts s)

/-- The environment of a connection runs this client: every answer of the state machine is one of
`step`. -/
def Runs (cfg : Cfg) (E : Env machine) : Prop :=
  ∀ L s t, ∃ i, E.proc L s t = step cfg i s t

/-- The trigger and actions of a step. -/
def Step.block (x : Step) : Trig × List Action := (x.trig, x.acts)

/-- All actions of a history, oldest first. -/
def actions (h : List Step) : List Action := h.reverse.flatMap Step.acts

@[simp] theorem actions_nil : actions [] = [] := rfl
@[simp] theorem actions_cons (x : Step) (h : List Step) : actions (x :: h) = actions h ++ x.acts := by
  simp [actions]

theorem Run.of_exec {cfg : Cfg} {E : Env machine} (hE : Runs cfg E) {bs s}
    (h : Conn.Spec.Exec machine (Conn.Proc E) ({} : St) bs s) :
    ∃ hist, Run cfg hist s ∧ hist.map Step.block = bs := by
  induction h with
  | nil => exact ⟨[], .nil, rfl⟩
  | @step bs s t o h ht hp ih =>
    obtain ⟨hist, hr, hb⟩ := ih
    obtain ⟨L, hL⟩ := hp
    obtain ⟨i, hi⟩ := hE L s t
    rw [← hL] at hi
    subst hi
    exact ⟨_, .step hr ht rfl, by simp only [List.map_cons, hb]; rfl⟩

theorem actions_blocks (h : List Step) :
    actions h = (h.map Step.block).reverse.flatMap Prod.snd := by
  induction h with
  | nil => rfl
  | cons x h ih => simp [ih, Step.block]

/-- What a connection has done so far is a prefix of what some history of the state machine does:
all steps but the last completely, and of the last the first few actions. -/
theorem Reachable.run {cfg : Cfg} {E : Env machine} (hE : Runs cfg E) {c : Conn.C machine}
    (hr : Reachable E ({} : St) c) :
    ∃ h s, Run cfg h s ∧ Conn.Spec.visited c.log <+: actions h ∧
      h.map Step.trig = (Conn.Spec.blocks c.log).map Prod.fst := by
  have hv := Conn.visited_blocks hr
  rcases (Conn.C24_exec hr).1 with h0 | ⟨t, as, older, s, o, hb, hx, ht, ⟨L, hL⟩, hp⟩
  · refine ⟨[], {}, .nil, ?_, by simp [h0]⟩
    rw [hv, h0]; exact List.prefix_rfl
  · obtain ⟨h, hh, hm⟩ := Run.of_exec hE hx
    obtain ⟨i, hi⟩ := hE L s t
    rw [← hL] at hi
    refine ⟨⟨t, i, s, o.acts⟩ :: h, _, .step hh ht hi.symm, ?_, ?_⟩
    · rw [hv, hb, actions_cons, actions_blocks, hm]
      simp only [List.reverse_cons, List.flatMap_append, List.flatMap_cons, List.flatMap_nil,
        List.append_nil]
      exact (List.prefix_append_right_inj _).2 hp
    · rw [hb]
      show t :: h.map Step.trig = t :: older.map Prod.fst
      rw [show h.map Step.trig = (h.map Step.block).map Prod.fst from by rw [List.map_map]; rfl]
      exact congrArg (fun x : List (Trig × List Action) => t :: x.map Prod.fst) hm

end Fizz.ClientSM
