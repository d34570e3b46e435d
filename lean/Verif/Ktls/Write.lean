import Verif.Ktls.Model
import Verif.Record.WriteSpec

/-!
# Kernel TLS for receiving only: writing

Model of `AsyncKTLSRxSocket` (`fizz/experimental/ktls/AsyncKTLSSocket.cpp:286-440`) and C86.  The record layer
is taken not to fail, callbacks not to call back into the socket (that is C73's subject, for the queue this one
was copied from), and the application not to write after a failure.
-/

namespace Fizz.Ktls.Rx

open Fizz.Codec Fizz.Record

/-- A `QueuedWriteRequest` (`AsyncKTLSSocket.h:225-268`): which write it is for and what is still to be
handed down. -/
structure Req where
  id : Nat
  rest : Bytes

/-- The socket: its queue (the front one is being written), the writes `folly::AsyncSocket` has been given and
not finished (the write's number, and whether its callback is the queue), what was given to it in plaintext
pieces, and the callbacks made (true for success). -/
structure St where
  queue : List Req := []
  out : List (Nat × Bool) := []
  handed : List Bytes := []
  ended : List (Nat × Bool) := []

/-- `kPartialWriteThreshold` (`AsyncKTLSSocket.cpp:309`). -/
def kPartial : Nat := 128 * 1024

/-- `writeAppData` (`AsyncKTLSSocket.cpp:425-439`): of an empty buffer the record layer makes no record, and
then nothing is written. -/
def St.hand (s : St) (id : Nat) (queued : Bool) (piece : Bytes) : St :=
  if piece = [] then s else { s with out := s.out ++ [(id, queued)], handed := s.handed ++ [piece] }

/-- `startWriting` on the front of the queue (`AsyncKTLSSocket.cpp:311-325`). -/
def St.start (s : St) : St :=
  match s.queue with
  | [] => s
  | r :: q => { s with queue := { r with rest := r.rest.drop kPartial } :: q }.hand r.id true (r.rest.take kPartial)

/-- What happens: a write (`needs` is `needsToQueue`), or the transport finishes its oldest write, or it fails. -/
inductive Op
  | write (id : Nat) (data : Bytes) (needs : Bool)
  | done
  | fail

/-- `writeChain` (`AsyncKTLSSocket.cpp:392-423`). -/
def St.write (s : St) (id : Nat) (data : Bytes) (needs : Bool) : St :=
  match s.queue with
  | [] => if needs then { s with queue := [⟨id, data⟩] }.start else s.hand id false data
  | _ => { s with queue := s.queue ++ [⟨id, data⟩] }

/-- `writeSuccess` of the front request (`AsyncKTLSSocket.cpp:339-359`). -/
def St.success (s : St) : St :=
  match s.queue with
  | [] => s
  | r :: q =>
    if r.rest ≠ [] then s.start
    else { s with queue := q, ended := s.ended ++ [(r.id, true)] }.start

/-- The transport finishes its oldest write. -/
def St.done (s : St) : St :=
  match s.out with
  | [] => s
  | (id, false) :: o => { s with out := o, ended := s.ended ++ [(id, true)] }
  | (_, true) :: o => { s with out := o }.success

/-- The transport fails: every write it has fails, and a request passes that on to all behind it
(`AsyncKTLSSocket.cpp:361-390`). -/
def St.fail (s : St) : St :=
  let direct := (s.out.filter fun w => !w.2).map fun w => (w.1, false)
  if s.out.any (·.2) then
    { s with queue := [], out := [], ended := s.ended ++ (direct ++ s.queue.map fun r => (r.id, false)) }
  else { s with out := [], ended := s.ended ++ direct }

/-- One event. -/
def St.step (s : St) : Op → St
  | .write id data needs => s.write id data needs
  | .done => s.done
  | .fail => s.fail

/-- A history. -/
def St.run (s : St) (ops : List Op) : St := ops.foldl St.step s

/-! ## Specification -/

/-- The writes the application made. -/
def writes (ops : List Op) : List (Nat × Bytes) :=
  ops.flatMap fun
    | .write id data _ => [(id, data)]
    | _ => []

/-- All their bytes. -/
def bytes (ws : List (Nat × Bytes)) : Bytes := ws.flatMap (·.2)

/-! ## Proofs -/

theorem writes_append (a b : List Op) : writes (a ++ b) = writes a ++ writes b := by simp [writes]

theorem snoc_rec {α : Type} {motive : List α → Prop} (nil : motive [])
    (snoc : ∀ l a, motive l → motive (l ++ [a])) (l : List α) : motive l := by
  have : ∀ r : List α, motive r.reverse := by
    intro r
    induction r with
    | nil => exact nil
    | cons a r ih => rw [List.reverse_cons]; exact snoc _ _ ih
  rw [← List.reverse_reverse l]
  exact this _

/-- Finished writes, writes the transport has directly, writes in the queue; of the front one a part was
handed down. -/
structure Inv (s : St) (ws : List (Nat × Bytes)) (A B C : List (Nat × Bytes)) (part : Bytes) : Prop where
  all : ws = A ++ B ++ C
  ended : s.ended = A.map fun w => (w.1, true)
  out : s.out = (B.map fun w => (w.1, false)) ++ (match s.queue with | [] => [] | r :: _ => [(r.id, true)])
  ids : s.queue.map (·.id) = C.map (·.1)
  handed : s.handed.flatten = bytes A ++ bytes B ++ part
  rest : part ++ s.queue.flatMap (·.rest) = bytes C
  later : s.queue.tail.map (·.rest) = C.tail.map (·.2)
  empty : s.queue = [] → part = []
  piece : ∀ p ∈ s.handed, p ≠ []

theorem bytes_append (a b : List (Nat × Bytes)) : bytes (a ++ b) = bytes a ++ bytes b := by simp [bytes]

/-- Starting the front request, nothing of which was handed down. -/
theorem start_inv {s : St} {ws A B C : List (Nat × Bytes)} {w : Nat × Bytes} (hw : w.2 ≠ [])
    (hq : s.queue.map (fun r => (r.id, r.rest)) = w :: C) (hall : ws = A ++ B ++ w :: C)
    (he : s.ended = A.map fun w => (w.1, true)) (ho : s.out = B.map fun w => (w.1, false))
    (hh : s.handed.flatten = bytes A ++ bytes B) (hp : ∀ p ∈ s.handed, p ≠ []) :
    ∃ part, Inv s.start ws A B (w :: C) part := by
  cases hs : s.queue with
  | nil => rw [hs] at hq; cases hq
  | cons r q =>
    rw [hs] at hq
    simp only [List.map_cons, List.cons.injEq] at hq
    obtain ⟨rfl, rfl⟩ := hq
    have hne : r.rest.take kPartial ≠ [] := by
      simp only at hw
      rw [Ne, List.take_eq_nil_iff]
      simp [hw, kPartial]
    refine ⟨r.rest.take kPartial, ?_⟩
    unfold St.start St.hand
    rw [hs]
    simp only
    rw [if_neg hne]
    exact
      { all := hall, ended := he, out := by simp [ho], ids := by simp
        handed := by simp [hh], rest := by
          simp only [List.flatMap_cons, bytes, List.flatMap_map]
          rw [← List.append_assoc, List.take_append_drop]
        later := by simp
        empty := by simp
        piece := by
          intro p hp'
          simp only [List.mem_append, List.mem_singleton] at hp'
          rcases hp' with h | h
          · exact hp p h
          · rw [h]; exact hne }

theorem step_inv {s : St} {ws A B C : List (Nat × Bytes)} {part : Bytes} (h : Inv s ws A B C part)
    (hne : ∀ w ∈ ws, w.2 ≠ []) (op : Op) (hop : op ≠ .fail) (hn : ∀ id d n, op = .write id d n → d ≠ []) :
    ∃ A' B' C' part', Inv (s.step op) (ws ++ writes [op]) A' B' C' part' := by
  cases op with
  | fail => exact (hop rfl).elim
  | write id d needs =>
    have hd := hn _ _ _ rfl
    simp only [St.step, St.write, writes, List.flatMap_cons, List.flatMap_nil, List.append_nil]
    cases hq : s.queue with
    | nil =>
      simp only
      have hC : C = [] := by have := h.ids; rw [hq] at this; simpa using this.symm
      subst hC
      have hpart := h.empty hq
      subst hpart
      have ho := h.out
      rw [hq] at ho
      simp only [List.append_nil] at ho
      have hh := h.handed
      rw [List.append_nil] at hh
      have hall := h.all
      rw [List.append_nil] at hall
      split
      · obtain ⟨part', h'⟩ := start_inv (s := { s with queue := [⟨id, d⟩] }) (A := A) (B := B) (C := [])
          (w := (id, d)) hd rfl rfl h.ended ho hh h.piece
        exact ⟨A, B, [(id, d)], part', by rw [hall]; exact h'⟩
      · refine ⟨A, B ++ [(id, d)], [], [], ?_⟩
        unfold St.hand
        rw [if_neg hd]
        exact
          { all := by rw [hall]; simp, ended := h.ended, out := by simp [hq, ho], ids := by simp [hq]
            handed := by simp [hh, bytes], rest := by simp [hq, bytes]
            later := by simp [hq], empty := fun _ => rfl
            piece := by
              intro p hp'
              simp only [List.mem_append, List.mem_singleton] at hp'
              rcases hp' with h' | h'
              · exact h.piece p h'
              · rw [h']; exact hd }
    | cons r q =>
      simp only
      obtain ⟨w, C', rfl⟩ : ∃ w C', C = w :: C' := by
        have := h.ids
        rw [hq] at this
        cases C with
        | nil => simp at this
        | cons w C' => exact ⟨w, C', rfl⟩
      have hr := h.rest
      have hl := h.later
      have hi := h.ids
      have ho := h.out
      rw [hq] at hr hl hi ho
      refine ⟨A, B, w :: C' ++ [(id, d)], part, ?_⟩
      exact
        { all := by rw [h.all]; simp, ended := h.ended, out := by simpa using ho
          ids := by
            simp only [List.map_cons, List.cons.injEq, List.map_append] at hi ⊢
            simp [hi.1, hi.2]
          handed := h.handed
          rest := by
            rw [bytes_append, ← hr]
            simp [bytes]
          later := by
            simp only [List.tail_cons] at hl
            simp [hl]
          empty := by simp
          piece := h.piece }
  | done =>
    rw [show writes [.done] = [] from rfl, List.append_nil]
    simp only [St.step, St.done]
    cases B with
    | cons b B' =>
      have ho := h.out
      simp only [List.map_cons, List.cons_append] at ho
      rw [ho]
      simp only
      exact ⟨A ++ [b], B', C, part,
        { all := by rw [h.all]; simp, ended := by simp [h.ended], out := rfl, ids := h.ids
          handed := by rw [h.handed]; simp [bytes], rest := h.rest, later := h.later
          empty := h.empty, piece := h.piece }⟩
    | nil =>
      have ho := h.out
      simp only [List.map_nil, List.nil_append] at ho
      cases hq : s.queue with
      | nil =>
        rw [hq] at ho
        simp only at ho
        rw [ho]
        exact ⟨A, [], C, part, h⟩
      | cons r q =>
        rw [hq] at ho
        simp only at ho
        rw [ho]
        simp only
        obtain ⟨w, C', rfl⟩ : ∃ w C', C = w :: C' := by
          have := h.ids
          rw [hq] at this
          cases C with
          | nil => simp at this
          | cons w C' => exact ⟨w, C', rfl⟩
        have hr := h.rest
        have hl := h.later
        have hi := h.ids
        rw [hq] at hr hl hi
        simp only [List.map_cons, List.cons.injEq] at hi
        simp only [List.tail_cons] at hl
        unfold St.success
        simp only [hq]
        by_cases hrest : r.rest = []
        · rw [if_neg (by simp [hrest])]
          have hq2 : q.map (fun r => (r.id, r.rest)) = C' := by
            have : ∀ (q : List Req) (C : List (Nat × Bytes)), q.map (·.id) = C.map (·.1) →
                q.map (·.rest) = C.map (·.2) → q.map (fun r => (r.id, r.rest)) = C := by
              intro q
              induction q with
              | nil => intro C h1 _; cases C <;> simp_all
              | cons x q ih =>
                intro C h1 h2
                cases C with
                | nil => simp at h1
                | cons c C =>
                  simp only [List.map_cons, List.cons.injEq] at h1 h2 ⊢
                  exact ⟨by rw [h1.1, h2.1], ih C h1.2 h2.2⟩
            exact this q C' hi.2 hl
          have hfl : q.flatMap (·.rest) = bytes C' := by
            rw [← hq2]; simp [bytes, List.flatMap_map]
          have hpart : part = w.2 := by
            simp only [List.flatMap_cons, hrest, List.nil_append, hfl] at hr
            have e : bytes (w :: C') = w.2 ++ bytes C' := by simp [bytes]
            rw [e] at hr
            exact List.append_cancel_right hr
          cases hqq : q with
          | nil =>
            have hC : C' = [] := by rw [← hq2, hqq]; rfl
            subst hC
            refine ⟨A ++ [w], [], [], [], ?_⟩
            unfold St.start
            simp only
            exact
              { all := by rw [h.all]; simp, ended := by simp [h.ended, hi.1], out := by simp
                ids := by simp, handed := by rw [h.handed, hpart]; simp [bytes], rest := by simp [bytes]
                later := by simp, empty := fun _ => rfl, piece := h.piece }
          | cons r' q' =>
            rw [hqq] at hq2
            cases C' with
            | nil => simp at hq2
            | cons w' C'' =>
              obtain ⟨part', h'⟩ := start_inv
                (s := { s with out := [], queue := r' :: q', ended := s.ended ++ [(r.id, true)] })
                (ws := ws) (A := A ++ [w]) (B := []) (C := C'') (w := w')
                (hne _ (by rw [h.all]; simp)) hq2 (by rw [h.all]; simp) (by simp [h.ended, hi.1]) rfl
                (by show s.handed.flatten = _; rw [h.handed, hpart]; simp [bytes]) h.piece
              exact ⟨_, _, _, part', h'⟩
        · rw [if_pos hrest]
          refine ⟨A, [], w :: C', part ++ r.rest.take kPartial, ?_⟩
          have hne' : r.rest.take kPartial ≠ [] := by
            rw [Ne, List.take_eq_nil_iff]
            simp [hrest, kPartial]
          unfold St.start St.hand
          simp only
          rw [if_neg hne']
          exact
            { all := h.all, ended := h.ended, out := by simp, ids := by simp [hi.1, hi.2]
              handed := by simp [h.handed]
              rest := by
                rw [← hr]
                simp only [List.flatMap_cons]
                rw [List.append_assoc, ← List.append_assoc (r.rest.take kPartial), List.take_append_drop]
              later := by simp [hl]
              empty := by simp
              piece := by
                intro p hp'
                simp only [List.mem_append, List.mem_singleton] at hp'
                rcases hp' with h' | h'
                · exact h.piece p h'
                · rw [h']; exact hne' }

theorem run_inv (ops : List Op) (hne : ∀ w ∈ writes ops, w.2 ≠ []) (hf : .fail ∉ ops) :
    ∃ A B C part, Inv (({} : St).run ops) (writes ops) A B C part := by
  induction ops using snoc_rec with
  | nil =>
    exact ⟨[], [], [], [],
      { all := rfl, ended := rfl, out := rfl, ids := rfl, handed := rfl, rest := rfl, later := rfl
        empty := fun _ => rfl, piece := by intro p hp; cases hp }⟩
  | snoc ops op ih =>
    rw [writes_append] at hne
    obtain ⟨A, B, C, part, h⟩ := ih (fun w hw => hne w (List.mem_append_left _ hw))
      (fun h => hf (List.mem_append_left _ h))
    have := step_inv h (fun w hw => hne w (List.mem_append_left _ hw)) op
      (fun e => hf (by rw [e]; simp))
      (fun id d n e => hne (id, d) (by rw [e]; simp [writes]))
    rw [writes_append, show ({} : St).run (ops ++ [op]) = (({} : St).run ops).step op by simp [St.run]]
    exact this

/-- C86: of writes that are not empty, on a transport that does not fail: bytes go down in the order they were
written, in non-empty pieces; writes end in order, successfully, each once, and only when all their bytes went
down; and when the transport has finished everything, all writes have ended. -/
theorem C86_fifo (ops : List Op) (hne : ∀ w ∈ writes ops, w.2 ≠ []) (hf : .fail ∉ ops) :
    ∃ k ≤ (writes ops).length,
      (({} : St).run ops).ended = ((writes ops).take k).map (fun w => (w.1, true)) ∧
      bytes ((writes ops).take k) <+: (({} : St).run ops).handed.flatten ∧
      (({} : St).run ops).handed.flatten <+: bytes (writes ops) ∧
      (∀ p ∈ (({} : St).run ops).handed, p ≠ []) ∧
      ((({} : St).run ops).out = [] →
        k = (writes ops).length ∧ (({} : St).run ops).handed.flatten = bytes (writes ops)) := by
  obtain ⟨A, B, C, part, h⟩ := run_inv ops hne hf
  have hl := h.all
  refine ⟨A.length, by rw [hl]; simp, ?_, ?_, ?_, h.piece, ?_⟩
  · rw [h.ended, hl]; simp
  · rw [h.handed, hl]
    simp only [List.append_assoc, List.take_left']
    exact ⟨_, rfl⟩
  · rw [h.handed, hl, bytes_append, bytes_append, ← h.rest]
    exact ⟨(({} : St).run ops).queue.flatMap (·.rest), by simp only [List.append_assoc]⟩
  · intro ho
    have h1 := h.out
    rw [ho] at h1
    have h2 := (List.append_eq_nil_iff.1 h1.symm)
    have hB : B = [] := by simpa using h2.1
    cases hq : (({} : St).run ops).queue with
    | cons r q => rw [hq] at h2; simp at h2
    | nil =>
      have hC : C = [] := by have := h.ids; rw [hq] at this; simpa using this.symm
      have hp := h.empty hq
      rw [h.handed, hl, hB, hC, hp]
      simp [bytes]

/-- C86: when the transport fails, every write it had and every one queued behind it fails, once, in order,
and nothing is left. -/
theorem C86_failure (ops : List Op) (hne : ∀ w ∈ writes ops, w.2 ≠ []) (hf : .fail ∉ ops) :
    ∃ k ≤ (writes ops).length,
      (({} : St).run (ops ++ [.fail])).ended =
        ((writes ops).take k).map (fun w => (w.1, true)) ++ ((writes ops).drop k).map (fun w => (w.1, false)) ∧
      (({} : St).run (ops ++ [.fail])).out = [] ∧ (({} : St).run (ops ++ [.fail])).queue = [] := by
  obtain ⟨A, B, C, part, h⟩ := run_inv ops hne hf
  have hl := h.all
  rw [show ({} : St).run (ops ++ [.fail]) = (({} : St).run ops).fail by simp [St.run, St.step]]
  refine ⟨A.length, by rw [hl]; simp, ?_⟩
  generalize ({} : St).run ops = s at *
  have ho := h.out
  have hi := h.ids
  have hdir : ((B.map fun w => (w.1, false)).filter fun w => !w.2) = B.map fun w => (w.1, false) := by
    rw [List.filter_eq_self]
    intro a ha
    obtain ⟨b, -, rfl⟩ := List.mem_map.1 ha
    rfl
  unfold St.fail
  cases hq : s.queue with
  | nil =>
    rw [hq] at ho hi
    have hC : C = [] := by simpa using hi.symm
    simp only [List.append_nil] at ho
    have hany : s.out.any (·.2) = false := by rw [ho]; simp
    simp only [hany, Bool.false_eq_true, if_false]
    refine ⟨?_, trivial, trivial⟩
    simp only [ho, hdir, h.ended, hl, hC]
    simp [Function.comp_def]
  | cons r q =>
    rw [hq] at ho hi
    simp only at ho
    have hany : s.out.any (·.2) = true := by rw [ho]; simp
    simp only [hany]
    refine ⟨?_, rfl, rfl⟩
    have e1 : ((r :: q).map fun r : Req => (r.id, false)) = C.map fun w => (w.1, false) := by
      have := congrArg (List.map fun n : Nat => (n, false)) hi
      simpa [Function.comp_def] using this
    simp only [if_true, ho, List.filter_append, hdir, h.ended, hl, e1]
    simp [Function.comp_def]

/-- C86 (what goes wrong): an empty write's callback is never called, … -/
theorem C86_empty_direct (s : St) (id : Nat) (hq : s.queue = []) : s.step (.write id [] false) = s := by
  simp [St.step, St.write, hq, St.hand]

/-- … and if it is queued on an idle queue, then however much the transport finishes, no byte written later is
ever handed down and no later write ever ends: the socket is stuck. -/
theorem C86_empty_stalls (s : St) (id : Nat) (hq : s.queue = []) (hr : ∀ w ∈ s.out, w.2 = false)
    (later : List Op) (hf : .fail ∉ later) :
    ((s.step (.write id [] true)).run later).handed = s.handed ∧
    ∃ n, ((s.step (.write id [] true)).run later).ended = s.ended ++ (s.out.take n).map (fun w => (w.1, true)) := by
  have h0 : s.step (.write id [] true) = { s with queue := [⟨id, []⟩] } := by
    simp [St.step, St.write, hq, St.start, St.hand]
  rw [h0]
  suffices H : ∀ (later : List Op), .fail ∉ later → ∃ q n,
      ({ s with queue := [⟨id, []⟩] } : St).run later =
        { s with queue := ⟨id, []⟩ :: q, out := s.out.drop n,
                 ended := s.ended ++ (s.out.take n).map (fun w => (w.1, true)) } by
    obtain ⟨q, n, e⟩ := H later hf
    rw [e]
    exact ⟨rfl, n, rfl⟩
  intro later
  induction later using snoc_rec with
  | nil => intro _; exact ⟨[], 0, by simp [St.run]⟩
  | snoc later op ih =>
    intro hf
    obtain ⟨q, n, e⟩ := ih (fun h => hf (List.mem_append_left _ h))
    rw [show ({ s with queue := [⟨id, []⟩] } : St).run (later ++ [op]) =
      (({ s with queue := [⟨id, []⟩] } : St).run later).step op by simp [St.run], e]
    cases op with
    | fail => exact (hf (by simp)).elim
    | write i d needs => exact ⟨q ++ [⟨i, d⟩], n, rfl⟩
    | done =>
      simp only [St.step, St.done]
      cases ho : s.out.drop n with
      | nil => exact ⟨q, n, by simp [ho]⟩
      | cons w o =>
        have hw : w ∈ s.out := List.mem_of_mem_drop (by rw [ho]; simp)
        obtain ⟨i, b⟩ := w
        have hb := hr _ hw
        simp only at hb
        subst hb
        have hlt : n < s.out.length := by
          rcases Nat.lt_or_ge n s.out.length with h | h
          · exact h
          · rw [List.drop_eq_nil_of_le h] at ho; cases ho
        have hg : s.out[n] = (i, false) ∧ s.out.drop (n + 1) = o := by
          rw [List.drop_eq_getElem_cons hlt] at ho
          exact ⟨(List.cons.inj ho).1, (List.cons.inj ho).2⟩
        refine ⟨q, n + 1, ?_⟩
        simp only [hg.2, List.take_succ_eq_append_getElem hlt, hg.1]
        simp

end Fizz.Ktls.Rx
