import Verif.Async.ErrorRun

/-!
# C72, C73: the transport wrapper

Everything here quantifies over `Run ops s`: any sequence of calls by the application, the derived
class and the transport that respects the contract spelled out in `allowed`, nested to any depth.
-/

namespace Fizz.Async

open Spec

/-- `getAppBytesBuffered()` without the transport's own share (`AsyncFizzBase.cpp:230-234`). -/
def St.appBytesBuffered (s : St) : Option Nat :=
  match s.tail with
  | none => some 0
  | some t => match s.heap t with
    | none => none
    | some q => if q.next.isSome then none else some q.entire

/-- C72: what the application sees of the incoming bytes is what the reference reader allows: every
call of a read callback goes to the callback installed at that moment, carries the next bytes of
the queue, an end of stream or error comes only when nothing is left to deliver (or while a read
callback is still running), and each callback is told at most once.  `getAppBytesReceived()` counts
what arrived. -/
theorem C72_follows {ops : List Op} {s : St} (h : Run ops s) :
    ∃ r, R.run {} s.log = some r ∧ r.cb = s.readCb ∧
      (s.outside = true → r.bytes = s.appReceived) := by
  obtain ⟨hS, r, hR⟩ := read_run h
  refine ⟨r, hR.run, hR.cb, fun ho => ?_⟩
  have := hR.bytes
  rw [coming_calm hS.stacked (calm_outside ho).tr] at this
  exact this

/-- C72: the bytes given to read callbacks, whichever and however often they are exchanged, are a
prefix of the decrypted stream: nothing is lost, repeated or reordered. -/
theorem C72_stream {ops : List Op} {s : St} (h : Run ops s) (hs : Smooth s.log) :
    given s.log <+: arrived s.log := by
  obtain ⟨_, r, hR⟩ := read_run h
  exact ⟨r.q, R.smooth _ r hR.run hs⟩

/-- C72: no lost wakeup.  Once all calls have returned, if a read callback is installed it has been
given everything that arrived. -/
theorem C72_drained {ops : List Op} {s : St} (h : Run ops s) (hs : Smooth s.log)
    (hk : s.stack = []) {c : Rcb} (hc : s.readCb = some c) : given s.log = arrived s.log := by
  obtain ⟨_, r, hR⟩ := read_run h
  have h1 := R.smooth _ r hR.run hs
  have h2 := hR.held
  rw [hk] at h2
  have h3 : s.appBuf = none := by
    cases hb : s.appBuf with
    | none => rfl
    | some b =>
      rcases hR.calm (by rw [hb]; simp) with h' | ⟨k', hk'⟩
      · rw [hc] at h'; cases h'
      · rw [hk] at hk'; cases hk'
  rw [h3] at h2
  have h2 : r.q = [] := h2
  rw [h2, List.append_nil] at h1
  exact h1

/-- C72: no error is forgotten.  If an error was reported, then once all calls have returned either
some read callback was told, or no read callback is installed and the error is kept for the next
one. -/
theorem C72_error {ops : List Op} {s : St} (h : Run ops s) (hk : s.stack = [])
    {ex : Ex} (he : .error ex ∈ s.log) :
    (∃ o ∈ s.log, Told o) ∨ (s.readCb = none ∧ s.pendingEx ≠ none) := by
  have hE := error_run h
  rcases hE.told ⟨_, he, .inl ⟨ex, rfl⟩⟩ with h1 | h1 | ⟨_, _, h1⟩
  · exact .inl h1
  · rcases hE.wait h1 with h2 | h2
    · exact .inr ⟨h2, h1⟩
    · rw [hk] at h2; cases h2
  · rw [hk] at h1; cases h1

/-- C72: back pressure.  When the transport reports that it read something, no read callback is
installed and a buffer has reached 64 KiB, the transport's read callback is removed; reading is
never stopped otherwise. -/
theorem C72_backpressure (s : St) :
    (step s .transportRead).reads = (s.reads && !(s.readCb.isNone &&
      (decide (65536 ≤ s.tbuf) || decide (65536 ≤ (s.appBuf.getD []).length)))) := by
  show s.checkBufLen.reads = _
  unfold St.checkBufLen
  rw [show maxBuf = 65536 from rfl]
  split
  · rename_i hc; rw [hc]; simp
  · rename_i hc
    rw [Bool.not_eq_true] at hc
    rw [hc]; simp

/-- C73: what the application and the derived class see of the writes is what the reference writer
allows: a FIFO whose first write is handed down piece by piece (at most 128 KiB each, `CORK`ed
unless last), each piece only after the one before was completed; a write succeeds only when its
last piece was completed; if one fails, everything behind it fails with the same error; a write not
yet started may be failed by an error of the connection. -/
theorem C73_follows {ops : List Op} {s : St} (h : Run ops s) :
    ∃ w, W.run {} s.log = some w ∧ w.bytes = s.appWritten := by
  obtain ⟨w, b, ch, hW⟩ := write_run h
  exact ⟨w, hW.run, hW.bytes⟩

/-- C73: no write request is used after it was freed, the object is not used after its destructor
ran, and no internal check fails — whatever the callbacks do, including destroying the socket. -/
theorem C73_safe {ops : List Op} {s : St} (h : Run ops s) : s.crash = false := by
  obtain ⟨w, b, ch, hW⟩ := write_run h
  exact hW.crash

theorem finished_all {ops : List Op} {s : St} (h : Run ops s) (hk : s.stack = [])
    (hf : s.flying = []) : (∀ i, s.heap i = none) ∧
      ∀ w, W.run {} s.log = some w → w.q = [] := by
  obtain ⟨w, b, ch, hW⟩ := write_run h
  have him : s.imm = none := by
    cases hi : s.imm with
    | none => rfl
    | some r =>
      obtain ⟨k1, k2, hk'⟩ := hW.immAt r hi
      rw [hk] at hk'
      simp at hk'
  have ho := hW.own
  unfold St.owners at ho
  rw [hk, hf, him] at ho
  have hch : ch = [] := by
    cases ch with
    | nil => rfl
    | cons a l => cases ho
  subst hch
  refine ⟨fun i => ?_, fun w' hw' => ?_⟩
  · cases hi : s.heap i with
    | none => rfl
    | some q => have := (hW.heap i q).1 hi; cases this
  · rw [hW.run] at hw'
    cases Option.some.inj hw'
    exact hW.q

/-- C73: writes are finished in the order they were made, each at most once; and once all calls have
returned and the derived class has completed what it was given, every write has been finished and no
request is left in memory. -/
theorem C73_fifo {ops : List Op} {s : St} (h : Run ops s) :
    (wroteIds s.log).Nodup ∧ finishedIds s.log <+: wroteIds s.log ∧
      (s.stack = [] → s.flying = [] →
        finishedIds s.log = wroteIds s.log ∧ ∀ i, s.heap i = none) := by
  obtain ⟨w, hr, _⟩ := C73_follows h
  have hg := WGood.of_run _ _ hr
  refine ⟨hg.inc.imp (fun hlt => Nat.ne_of_lt hlt), ⟨_, hg.fifo.symm⟩, fun hk hf => ?_⟩
  obtain ⟨h1, h2⟩ := finished_all h hk hf
  refine ⟨?_, h1⟩
  rw [hg.fifo, h2 w hr]; simp

/-- C73: when a write is reported successful, exactly its bytes were handed down, and its callback
was called if it has one. -/
theorem C73_success {ops : List Op} {s : St} (h : Run ops s) {i : Nat} {called : Bool}
    (ho : .wOk i called ∈ s.log) :
    downOf i s.log = dataOf i s.log ∧ called = hasCb i s.log := by
  obtain ⟨w, hr, _⟩ := C73_follows h
  exact (WGood.of_run _ _ hr).ok i called ho

/-- C73: when a write is reported failed after `n` bytes, `n` is the number of its bytes that were
handed down, and those are its first `n`. -/
theorem C73_failure {ops : List Op} {s : St} (h : Run ops s) {i n : Nat} {ex : Ex} {called : Bool}
    (ho : .wErr i n ex called ∈ s.log) :
    n = (downOf i s.log).length ∧ downOf i s.log <+: dataOf i s.log ∧
      called = hasCb i s.log := by
  obtain ⟨w, hr, _⟩ := C73_follows h
  exact (WGood.of_run _ _ hr).err i n ex called ho

theorem total_items : ∀ (b : Bool) (ch : List Cell),
    ((items b ch).map (·.rest.length)).sum = total ch
  | _, [] => rfl
  | b, p :: l => by
    have : ((l.map (item false)).map (·.rest.length)).sum = total l := by
      have := total_items false l
      rw [items_false] at this
      exact this
    show p.2.data.length + ((l.map (item false)).map (·.rest.length)).sum = _
    rw [this]; rfl

/-- C73: `getAppBytesBuffered()` is the number of bytes of queued writes that were not handed down
yet, unless a failure is being reported at that moment. -/
theorem C73_buffered {ops : List Op} {s : St} (h : Run ops s) (ha : s.alive = true) {w : W}
    (hw : W.run {} s.log = some w) (hp : ∀ ex, w.phase ≠ .failing ex) :
    s.appBytesBuffered = some ((w.q.map (·.rest.length)).sum) := by
  obtain ⟨w', b, ch, hW⟩ := write_run h
  rw [hW.run] at hw
  cases Option.some.inj hw
  rw [hW.q, total_items]
  unfold St.appBytesBuffered
  rw [hW.tail ha]
  cases hl : ch.getLast? with
  | none =>
    rw [List.getLast?_eq_none_iff.1 hl]; rfl
  | some p =>
    have hm : (p.1, p.2) ∈ ch := last_mem hl
    have hn : p.2.next = none := by
      obtain ⟨l, rfl⟩ := List.getLast?_eq_some_iff.1 hl
      have : ∀ l : List Cell, Linked (l ++ [p]) → p.2.next = none := by
        intro l
        induction l with
        | nil => intro hx; exact hx.1
        | cons a l ih => intro hx; exact ih hx.2
      exact this l hW.linked
    have he := hW.entire hp p hl
    dsimp only [Option.map]
    rw [(hW.heap _ _).2 hm]
    dsimp only
    rw [if_neg (by rw [hn]; simp), he]

end Fizz.Async
