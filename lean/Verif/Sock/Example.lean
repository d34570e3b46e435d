import Verif.Sock.Props

/-!
# The sockets: concrete runs

Histories of the model that meet the hypotheses of the theorems.
-/

namespace Fizz.Sock.Example

open Fizz.Sock Fizz.Sock.Spec

/-- Run a list of operations. -/
def run (cfg : Cfg) : St → List Op → Option St
  | s, [] => some s
  | s, o :: os => (step cfg s o).bind fun s' => run cfg s' os

theorem reach_run {cfg} : ∀ {os s s'}, Reach cfg s → run cfg s os = some s' → Reach cfg s'
  | [], s, s', h, e => by cases Option.some.inj e; exact h
  | o :: os, s, s', h, e => by
    simp only [run] at e
    cases hs : step cfg s o with
    | none => rw [hs] at e; cases e
    | some t => rw [hs] at e; exact reach_run (h.step hs) e

/-- The log after some operations on a fresh socket. -/
def logAfter (cfg : Cfg) (os : List Op) : Option (List Obs) := (run cfg {} os).map (·.log)

theorem reach_log {cfg os l} (h : logAfter cfg os = some l) : ∃ s, Reach cfg s ∧ s.log = l ∧ run cfg {} os = some s := by
  unfold logAfter at h
  cases hr : run cfg {} os with
  | none => rw [hr] at h; cases h
  | some s =>
    rw [hr] at h
    exact ⟨s, reach_run (Reach.init true false false) hr, Option.some.inj h, rfl⟩

/-- A client that resends, with a key update every five bytes. -/
def client : Cfg := { server := false, sendEarly := true, policy := .resend, threshold := 5 }

def p : Params := ⟨0x0304, 0x1301, none, some [1], none⟩

/-- Early data `[1,2]` is sent, `[3,4,5]` does not fit, the server turns the early data down over the
same parameters: all is sent again, in order, and the key is updated after five bytes. -/
def resends : List Op :=
  [.connect true false, .visit (.earlyOk 4), .setReplay true, .write [1, 2] true, .stop, .write [3, 4, 5] true, .ret, .done,
   .take, .done, .sock, .visit (.success false p p), .tau, .tau, .ret, .done, .take, .done, .take, .done, .take, .done, .stop]

def resendsLog : List Obs :=
  [.connect true, .earlyOk 4, .hsOk, .write 0 [1, 2] true true, .submit (.early (some 0) [1, 2]), .write 1 [3, 4, 5] true true,
   .take (.early (some 0) [1, 2]), .success false p p, .submit (.app none [1, 2]), .submit (.app (some 1) [3, 4, 5]),
   .submit (.keyUpdate true), .replaySafe, .take (.app none [1, 2]), .take (.app (some 1) [3, 4, 5]), .take (.keyUpdate true)]

example : logAfter client resends = some resendsLog := by decide +kernel

/-- C74, C75, C77 apply to it: nothing failed, it is complete, its writes waited, and it is at rest. -/
example : ∃ s, Reach client s ∧ .error ∉ s.log ∧ Complete s.log ∧ EarlyStarted s.log ∧ s.stack = [] ∧
    written s.log = [1, 2, 3, 4, 5] ∧ app s.log = [1, 2, 3, 4, 5] ∧ early s.log = [1, 2] ∧ autoKeys s.log = 1 ∧
    (∃ pre suf, s.log = pre ++ .replaySafe :: suf) ∧ s.isReplaySafe = true := by
  obtain ⟨s, h1, h2, h3⟩ := reach_log (cfg := client) (os := resends) (l := resendsLog) (by decide +kernel)
  have h4 : (run client {} resends).map (·.stack) = some [] := by decide +kernel
  have h5 : (run client {} resends).map (·.isReplaySafe) = some true := by decide +kernel
  rw [h3] at h4 h5
  refine ⟨s, h1, ?_, ⟨false, p, p, ?_⟩, ⟨4, ?_⟩, Option.some.inj h4, ?_, ?_, ?_, ?_, ⟨resendsLog.take 11, resendsLog.drop 12, ?_⟩, Option.some.inj h5⟩
  all_goals rw [h2]
  all_goals first | decide +kernel | rfl

/-- The writes of that run waited. -/
example : WritesWait resendsLog := by
  intro pre i d c suf h
  left
  refine ⟨4, ?_⟩
  match pre, h with
  | [], h => cases h
  | [_], h => cases h
  | [_, _], h => cases h
  | a :: b :: c :: pre, h =>
    injection h with _ h
    injection h with h _
    simp [← h]

/-- The same, over another cipher: the connection fails, and both writes are reported. -/
def refuses : List Op :=
  [.connect true false, .visit (.earlyOk 4), .write [1, 2] true, .stop, .write [3, 4, 5] true, .ret, .done,
   .take, .done, .sock, .visit (.success false { p with cipher := 0x1302 } p), .tau, .tau, .tau, .tau, .ret, .tau, .tau, .tau,
   .tau, .ret, .ret, .done, .stop]

def refusesLog : List Obs :=
  [.connect true, .earlyOk 4, .hsOk, .write 0 [1, 2] true true, .submit (.early (some 0) [1, 2]), .write 1 [3, 4, 5] true true,
   .take (.early (some 0) [1, 2]), .success false { p with cipher := 0x1302 } p, .removePsk, .error, .wErr 1, .errorDone]

example : logAfter client refuses = some refusesLog := by decide +kernel

example : ∃ s, Reach client s ∧ EarlyStarted s.log ∧ s.stack = [] ∧ .error ∈ s.log ∧
    (∃ pre suf, s.log = pre ++ .success false { p with cipher := 0x1302 } p :: suf) ∧
    ¬ (client.policy = .resend ∧ SameParams { p with cipher := 0x1302 } p) := by
  obtain ⟨s, h1, h2, h3⟩ := reach_log (cfg := client) (os := refuses) (l := refusesLog) (by decide +kernel)
  have h4 : (run client {} refuses).map (·.stack) = some [] := by decide +kernel
  rw [h3] at h4
  refine ⟨s, h1, ⟨4, ?_⟩, Option.some.inj h4, ?_, ⟨refusesLog.take 7, refusesLog.drop 8, ?_⟩, ?_⟩
  · rw [h2]; decide +kernel
  · rw [h2]; decide +kernel
  · rw [h2]; rfl
  · rintro ⟨_, h⟩
    have := h.cipher
    cases this

/-- A client without early data keeps a write until the handshake is complete; a write on a closed
transport is refused. -/
def plain : Cfg := { server := false, sendEarly := false, policy := .fatal, threshold := 0 }

def waits : List Op :=
  [.connect true false, .visit .other, .write [7] true, .ret, .visit (.success true p p), .tau, .ret, .tau, .done, .take, .done, .stop,
   .env false false false, .write [8] true, .ret]

example : logAfter plain waits = some [.connect true, .write 0 [7] true true, .success true p p, .submit (.app (some 0) [7]),
    .hsOk, .take (.app (some 0) [7]), .write 1 [8] true false, .wErr 1] := by decide +kernel

/-- A server whose connection fails with a write still queued. -/
def server : Cfg := { server := true, sendEarly := false, policy := .fatal, threshold := 3 }

def serves : List Op :=
  [.connect true false, .visit (.success true p p), .write [1, 2] true, .stop, .tau, .write [3, 4] true, .stop, .tau, .stop, .ret,
   .done, .take, .done, .stop, .transportError, .tau, .tau, .tau, .tau, .tau, .tau, .ret, .tau, .tau, .tau, .ret]

def servesLog : List Obs :=
  [.connect true, .success true p p, .hsOk, .write 0 [1, 2] true true, .submit (.app (some 0) [1, 2]),
   .write 1 [3, 4] true true, .submit (.app (some 1) [3, 4]), .submit (.keyUpdate true), .take (.app (some 0) [1, 2]),
   .error, .wErr 1, .errorDone]

example : ∃ s, Reach server s ∧ s.log = servesLog ∧ s.stack = [] := by
  obtain ⟨s, h1, h2, h3⟩ := reach_log (cfg := server) (os := serves) (l := servesLog) (by decide +kernel)
  have h4 : (run server {} serves).map (·.stack) = some [] := by decide +kernel
  rw [h3] at h4
  exact ⟨s, h1, h2, Option.some.inj h4⟩

end Fizz.Sock.Example
