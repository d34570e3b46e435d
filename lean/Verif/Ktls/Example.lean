import Verif.Ktls.Handover
import Verif.Ktls.Ticket
import Verif.Ktls.Write
import Verif.Aead.Example

/-! # Kernel TLS: concrete cases -/

namespace Fizz.Ktls.Example

open Fizz.Codec Fizz.Record Fizz.Crypto

/-! ## The handover -/

/-- A connection with TLS_AES_128_GCM_SHA256 after five records in one direction and three in the other. -/
def sock : FizzSock where
  good := true
  connecting := false
  hasSocket := true
  cipher := 0x1301
  read := ⟨some ⟨some (List.replicate 16 1), some (List.replicate 12 2)⟩, some 5⟩
  write := ⟨some ⟨some (List.replicate 16 3), some (List.replicate 12 4)⟩, some 3⟩
  readCB := some 7

/-- Its two directions. -/
def rx : Params := ⟨0x1301, ⟨some (List.replicate 16 1), some (List.replicate 12 2)⟩, 5⟩
@[inherit_doc rx] def tx : Params := ⟨0x1301, ⟨some (List.replicate 16 3), some (List.replicate 12 4)⟩, 3⟩

theorem rx_supported : Spec.Supported rx (List.replicate 16 1) (List.replicate 12 2) :=
  ⟨rfl, rfl, Or.inl ⟨rfl, rfl⟩⟩
theorem tx_supported : Spec.Supported tx (List.replicate 16 3) (List.replicate 12 4) :=
  ⟨rfl, rfl, Or.inl ⟨rfl, rfl⟩⟩

/-- The bytes given to the kernel. -/
theorem tx_bytes : toSockopt tx = .ok (some ([4, 3, 51, 0] ++ List.replicate 8 4 ++ List.replicate 16 3 ++
    List.replicate 4 4 ++ [0, 0, 0, 0, 0, 0, 0, 3])) := by decide +kernel

/-- All goes well: the conversion succeeds. -/
theorem converts : (convert ⟨true, true, true, true⟩ sock true false).toOption.map (fun x => x.2.1.length) =
    some 4 := by decide +kernel

/-- `C84_half_enabled` on this connection: the kernel refuses the sending side. -/
theorem half : ∃ r t, Spec.parse r ≠ none ∧ convert ⟨true, true, true, false⟩ sock true false =
    .ok (sock, [.ulp, .rx r, .tx t], .error "could not configure ktls tx") :=
  C84_half_enabled rfl rfl rfl (rx := rx) (tx := tx) rfl rfl rfl rfl rfl rfl ⟨_, _, rx_supported⟩ ⟨_, _, tx_supported⟩

/-- `C84_send` on this connection, with a cipher that meets its assumptions. -/
theorem send (i : Spec.Info) (hi : Spec.parse ([4, 3, 51, 0] ++ List.replicate 8 4 ++ List.replicate 16 3 ++
    List.replicate 4 4 ++ [0, 0, 0, 0, 0, 0, 0, 3]) = some i) (st : EncRd)
    (hst : st.aead = some (Spec.lib Fizz.Aead.Example.ideal (List.replicate 12 4))) (hseq : st.seq = 4)
    (had : st.useAD = true) :
    encRead st (i.record (fun _ => Fizz.Aead.Example.ideal) 1 23 [104, 105] ++ []) =
      .done ⟨23, [104, 105]⟩ { st with seq := st.seq + 1, skipFailed := false } [] :=
  C84_send tx_supported tx_bytes hi Fizz.Aead.Example.ideal_ok (by decide) 1 (by decide)
    (Or.inr (Or.inr rfl)) (by simp) (by decide) st hst (by rw [hseq]; rfl) had []

/-! ## Reading -/

/-- A ticket and its message. -/
def ticket : NewSessionTicket := ⟨60, 1, some [7], [9, 9], []⟩
@[inherit_doc ticket] def wire : Bytes := [4, 0, 0, 16, 0, 0, 0, 60, 0, 0, 0, 1, 1, 7, 0, 2, 9, 9, 0, 0]

theorem framed : Framed wire (.newSessionTicket ticket) :=
  ⟨4, 0, 0, 16, wire.drop 4, rfl, by decide +kernel, by decide +kernel⟩

/-- Data, a ticket in two pieces, data in two pieces. -/
def sent : List Spec.Sent := [.app [[1, 2]], .ticket ticket wire [wire.take 7, wire.drop 7], .app [[3], [4]]]

/-- A client that stores its tickets. -/
def state : ClientSM.St :=
  { ks := some {}, version := some 0x0304, cipher := some 0x1301, resumptionSecret := some (List.replicate 2 5),
    handshakeTime := some 17 }

/-- The hash used. -/
def hash : HashAlg := ⟨2, 4, [0, 1], fun m => [UInt8.ofNat m.length, 1]⟩

/-- What the handler keeps. -/
def kept : Kept := ⟨List.replicate 2 5, 0x0304, 0x1301, 17, state⟩

theorem keeps : keep state = .ok kept := rfl

/-- The handler accepts the ticket. -/
theorem accepts : Kept.callback (some kept) hash 20 21 ticket = none := by decide +kernel

/-- `C85_complete` on these: everything arrives. -/
theorem complete :
    ((start (some (Kept.callback (some kept) hash 20 21))).run (.wouldBlock :: sent.flatMap Spec.Sent.recvs)).app =
      [1, 2, 3, 4] ∧
    ((start (some (Kept.callback (some kept) hash 20 21))).run
      (.wouldBlock :: sent.flatMap Spec.Sent.recvs)).sock.tickets = [ticket] := by
  have h := C85_complete (Kept.callback (some kept) hash 20 21) sent
    (by
      intro x hx
      simp only [sent, List.mem_cons, List.not_mem_nil, or_false] at hx
      rcases hx with rfl | rfl | rfl
      · trivial
      · exact ⟨framed, by decide, by decide, by decide⟩
      · trivial)
    (by
      intro x hx t ht
      simp only [sent, List.mem_cons, List.not_mem_nil, or_false] at hx
      rcases hx with rfl | rfl | rfl
      · simp [Spec.Sent.tickets] at ht
      · simp only [Spec.Sent.tickets, List.mem_singleton] at ht
        rw [ht]
        exact accepts
      · simp [Spec.Sent.tickets] at ht)
    (.wouldBlock :: sent.flatMap Spec.Sent.recvs) rfl
  exact ⟨h.2.1, h.2.2.1⟩

/-- `C85_dropped`: of two tickets in one record the second is lost. -/
theorem two_tickets (h : Handler) :
    (start (some h)).step (.bytes (some (true, 22)) (wire ++ wire)) =
      (start (some h)).step (.bytes (some (true, 22)) wire) :=
  C85_dropped rfl rfl framed (by decide) rfl wire

/-- `C85_unsupported`: a KeyUpdate. -/
theorem key_update (h : Handler) : ∃ msg, ∀ later, ((start (some h)).run
    (.bytes (some (true, 22)) [24, 0, 0, 1, 0] :: later)).over = some (.error msg) := by
  obtain ⟨msg, hm⟩ := C85_unsupported (c := start (some h)) rfl (m := .keyUpdate ⟨0⟩) (wire := [24, 0, 0, 1, 0])
    (b := [24, 0, 0, 1, 0]) ⟨24, 0, 0, 1, [0], rfl, by decide +kernel, by decide +kernel⟩
    (by intro t; simp) (by decide) rfl
  exact ⟨msg, fun later => (hm later).1⟩

/-- `C85_no_splice`: data while half a ticket is there. -/
theorem splice (h : Handler) (d : Bytes) : ∃ msg, ∀ later,
    (((start (some h)).step (.bytes (some (true, 22)) (wire.take 7))).run
      (.bytes (some (true, 23)) d :: later)).over = some (.error msg) := by
  have hdec : decodeHandshakeMessage (wire.take 7) = .ok .none :=
    decode_prefix framed (by decide) (q := wire.drop 7) (by decide) (by decide)
  have hs : (start (some h)).step (.bytes (some (true, 22)) (wire.take 7)) =
      { sock := { callback := some h, unparsed := some (wire.take 7) } } := by
    rw [step_handshake rfl rfl]
    simp only [processHandshake, start, hdec, Conn.take]
  rw [hs]
  obtain ⟨msg, hm⟩ := C85_no_splice (c := { sock := { callback := some h, unparsed := some (wire.take 7) } }) rfl
    (by simp) 23 d (by decide)
  exact ⟨msg, fun later => (hm later).1⟩

/-- A ticket whose early_data extension is one byte long: the exception escapes. -/
def badTicket : NewSessionTicket := ⟨60, 1, some [7], [9, 9], [⟨42, [1]⟩]⟩
@[inherit_doc badTicket] def badWire : Bytes :=
  [4, 0, 0, 21, 0, 0, 0, 60, 0, 0, 0, 1, 1, 7, 0, 2, 9, 9, 0, 5, 0, 42, 0, 1, 1]

theorem throws : ∃ f, ((start (some (Kept.callback (some kept) hash 20 21))).step
    (.bytes (some (true, 22)) badWire)).over = some (.thrown f) := by
  have hf : ∃ f, kept.handle hash 20 21 badTicket = .error f := by
    cases h : kept.handle hash 20 21 badTicket with
    | error f => exact ⟨f, rfl⟩
    | ok p =>
      have : (kept.handle hash 20 21 badTicket).toOption.isSome = false := by decide +kernel
      rw [h] at this
      cases this
  obtain ⟨f, hf⟩ := hf
  exact ⟨f, C85_throws kept hash 20 21 badTicket f hf rfl rfl
    ⟨4, 0, 0, 21, badWire.drop 4, rfl, by decide +kernel, by decide +kernel⟩ (by decide) rfl⟩

/-! ## Writing -/

/-- Two writes, the first queued, both finished. -/
theorem writes_end : (({} : Rx.St).run [.write 1 [1, 2] true, .write 2 [3] false, .done, .done]).ended =
    [(1, true), (2, true)] ∧
    (({} : Rx.St).run [.write 1 [1, 2] true, .write 2 [3] false, .done, .done]).handed = [[1, 2], [3]] := by
  decide +kernel

/-- `C86_fifo` on it. -/
example := Rx.C86_fifo [.write 1 [1, 2] true, .write 2 [3] false, .done] (by decide) (by simp)

/-- An empty write queued while another is under way: the one after it never goes down. -/
theorem stuck : (({} : Rx.St).run [.write 1 [1] false, .write 2 [] true, .write 3 [4] false, .done, .done, .done]).ended =
    [(1, true)] := by decide +kernel

end Fizz.Ktls.Example
