import Verif.Channel.EarlyEnd
import Verif.Channel.Joint
import Verif.Agree.World

/-!
# C78 on a concrete connection

The two ends of `Agree/World.lean`, with the record layers of the model between them: every content one end writes is
sealed, the ciphertexts are handed to a read layer, and what comes out is what the other end receives.  The AEAD opens
only what was sealed.
-/

namespace Fizz.Channel.Example
open Fizz.Codec Fizz.Record Fizz.Agree.World
open Fizz.Server (Level)

/-- An AEAD that opens only what is on the list. -/
def listed (l : List (UInt64 × Bytes)) : Aead where
  overhead := 0
  encrypt := fun _ _ pt => .ok pt
  tryDecrypt := fun _ seq ct => .ok (if (seq, ct) ∈ l then some [ct] else none)

/-- Seal contents one after the other: the AEAD calls and the bytes on the wire. -/
def sealAll (a : Aead) (seq : UInt64) : List Item → Option (List SealCall × Bytes)
  | [] => some ([], [])
  | (t, chain) :: rest =>
    if t = 21 ∨ t = 22 ∨ t = 23 then
      match encWrite { aead := some a, seq := seq } t chain with
      | (w', calls, .ok out) => (sealAll a w'.seq rest).map fun r => (calls ++ r.1, out ++ r.2)
      | _ => none
    else none

theorem sealAll_sealed {a : Aead} : ∀ {cs seq r}, sealAll a seq cs = some r → Sealed a seq cs r.1 := by
  intro cs
  induction cs with
  | nil => intro seq r h; cases h; exact .nil
  | cons c cs ih =>
    obtain ⟨t, chain⟩ := c
    intro seq r h
    unfold sealAll at h
    split at h
    · rename_i ht
      split at h
      · rename_i w' calls out hw
        obtain ⟨r', h1, rfl⟩ := Option.map_eq_some_iff.1 h
        exact .write (w := { aead := some a, seq := seq }) rfl (show 0 < (0x4000 : UInt16).toNat by decide)
          (show (0x4000 : UInt16).toNat ≤ 2 ^ 14 by decide) ht hw (ih h1)
      · cases h
    · cases h

/-- Read until there is nothing more. -/
def readAll : Nat → Reader → Bytes → List Event
  | 0, _, _ => []
  | n + 1, r, buf =>
    match readEvent r buf with
    | .done e r' rest => e :: readAll n r' rest
    | _ => []

theorem readAll_reading {ok : Bytes → Prop} (h : ∀ b, ok b) : ∀ n r buf, Reading ok r (readAll n r buf) := by
  intro n
  induction n with
  | zero => exact fun r buf => .nil
  | succ n ih =>
    intro r buf
    unfold readAll
    split
    · rename_i e r' rest he
      exact .event (h buf) he (ih r' rest)
    · exact .nil

/-- The list of what is sealed. -/
def table (cs : List Item) : List (UInt64 × Bytes) :=
  ((sealAll (listed []) 0 cs).map fun r => r.1.map fun c => (c.seq, c.plaintext)).getD []

/-- The bytes on the wire. -/
def wire (cs : List Item) : Bytes := ((sealAll (listed []) 0 cs).map (·.2)).getD []

/-- The first `n` events read. -/
def heard (n : Nat) (cs : List Item) : List Event :=
  readAll n ⟨.enc { aead := some (listed (table cs)) }, []⟩ (wire cs)

theorem carries {cs : List Item} {es : List Event} {calls : List SealCall} {out : Bytes}
    (h : sealAll (listed (table cs)) 0 cs = some (calls, out))
    (hc : calls.map (fun c => (c.seq, c.plaintext)) = table cs) (he : heard es.length cs = es) :
    Carries (listed (table cs)) cs es := by
  refine ⟨_, sealAll_sealed h, { aead := some (listed (table cs)) }, rfl, rfl, ?_⟩
  rw [← he]
  refine readAll_reading ?_ _ _ _
  intro buf hd ct _ ad seq chain _ ht
  have ht : Except.ok (if (seq, ct) ∈ table cs then some [ct] else none) = Except.ok (some chain) := ht
  split at ht
  · rename_i hm
    simp only [Except.ok.injEq, Option.some.injEq] at ht
    subst ht
    rw [← hc] at hm
    obtain ⟨c, h1, h2⟩ := List.mem_map.1 hm
    cases h2
    exact ⟨c, h1, rfl, by simp⟩
  · cases ht

/-- The bytes on the wire do not depend on what can be opened. -/
def sound (cs : List Item) (es : List Event) : Bool :=
  match sealAll (listed (table cs)) 0 cs with
  | some (calls, _) => calls.map (fun c => (c.seq, c.plaintext)) = table cs ∧ heard es.length cs = es
  | none => false

theorem carries_of {cs es} (h : sound cs es = true) : Carries (listed (table cs)) cs es := by
  unfold sound at h
  split at h
  · rename_i hs
    simp only [decide_eq_true_eq] at h
    exact carries hs h.1 h.2
  · cases h

theorem link {kw kr : List Bytes} {sent : List (Bytes × Item)} {arrived : List (Bytes × Event)} (hw : kw.Nodup)
    (hr : kr.Nodup) (h : ∀ Z ∈ kr, sound (forKey Z sent) (forKey Z arrived) = true) :
    Link (fun Z => listed (table (forKey Z sent))) kw kr sent arrived :=
  ⟨fun _ => by simp [listed], hw, hr, fun Z hZ => carries_of (h Z hZ)⟩

instance (kw kr : List Bytes) : Decidable (SameStart kw kr) := by
  unfold SameStart
  cases h : kr[0]? with
  | none => exact .isTrue (by simp)
  | some Z =>
    cases h' : kw[0]? with
    | none => exact .isTrue (by simp)
    | some Y =>
      by_cases e : Z = Y
      · exact .isTrue (by rintro _ _ ⟨⟩ ⟨⟩; exact e)
      · exact .isFalse fun h => e (h Z Y rfl rfl)

/-- The whole connection `full`: two generations of keys in both directions, and an orderly end. -/
abbrev w := play setup full

theorem hashOk : (∀ c a, setup.cfgC.hashOf c = .ok a → a.Ok) ∧ (∀ c a, setup.cfgS.hashOf c = .ok a → a.Ok) :=
  ⟨fun _ _ h => by cases h; exact Crypto.toyHash_ok, fun _ _ h => by cases h; exact Crypto.toyHash_ok⟩

theorem sameHash : SameHash (ClientSM.hashUsed setup.cfgC w.sC) (Server.hashUsed setup.cfgS w.sS) := by
  have h1 : w.sC.cipher = w.sS.cipher := by decide +kernel
  intro x y hx hy
  unfold ClientSM.hashUsed at hx
  unfold Server.hashUsed at hy
  rw [h1] at hx
  cases hc : w.sS.cipher with
  | none => rw [hc] at hx; cases hx
  | some c =>
    rw [hc] at hx hy
    exact (Option.some.inj hx).symm.trans (Option.some.inj hy)

theorem start_server :
    SameStart (ClientSM.Hist.keys .clientAppTraffic w.hC) (Server.Hist.keys .clientAppTraffic w.hS) := by
  decide +kernel

theorem start_client :
    SameStart (Server.Hist.keys .serverAppTraffic w.hS) (ClientSM.Hist.keys .serverAppTraffic w.hC) := by
  decide +kernel

theorem link_server : Link (fun Z => listed (table (forKey Z (ClientSM.Hist.sent .appTraffic w.hC))))
    (ClientSM.Hist.keys .clientAppTraffic w.hC) (Server.Hist.keys .clientAppTraffic w.hS)
    (ClientSM.Hist.sent .appTraffic w.hC) (Server.Hist.arrived .appTraffic w.hS) :=
  link (by decide +kernel) (by decide +kernel) (by decide +kernel)

theorem link_client : Link (fun Z => listed (table (forKey Z (Server.Hist.sent .appTraffic w.hS))))
    (Server.Hist.keys .serverAppTraffic w.hS) (ClientSM.Hist.keys .serverAppTraffic w.hC)
    (Server.Hist.sent .appTraffic w.hS) (ClientSM.Hist.arrived .appTraffic w.hC) :=
  link (by decide +kernel) (by decide +kernel) (by decide +kernel)

instance (L : Level) (h : List Server.Step) : Decidable (Server.Hist.ended L h) :=
  decidable_of_iff (∃ x ∈ h, RLayer.key L x.pre.read ≠ none ∧
      x.acts.any (fun | .endOfData _ => true | _ => false) = true) <| by
    unfold Server.Hist.ended
    refine ⟨?_, ?_⟩
    · rintro ⟨x, hx, h1, h2⟩
      obtain ⟨a, ha, h3⟩ := List.any_eq_true.1 h2
      cases a <;> first | exact ⟨x, hx, h1, _, ha⟩ | cases h3
    · rintro ⟨x, hx, h1, b, h2⟩
      exact ⟨x, hx, h1, List.any_eq_true.2 ⟨_, h2, rfl⟩⟩

instance (L : Level) (h : List ClientSM.Step) : Decidable (ClientSM.Hist.ended L h) :=
  decidable_of_iff (∃ x ∈ h, RLayer.key L x.pre.read ≠ none ∧
      x.acts.any (fun | .endOfData _ => true | _ => false) = true) <| by
    unfold ClientSM.Hist.ended
    refine ⟨?_, ?_⟩
    · rintro ⟨x, hx, h1, h2⟩
      obtain ⟨a, ha, h3⟩ := List.any_eq_true.1 h2
      cases a <;> first | exact ⟨x, hx, h1, _, ha⟩ | cases h3
    · rintro ⟨x, hx, h1, b, h2⟩
      exact ⟨x, hx, h1, List.any_eq_true.2 ⟨_, h2, rfl⟩⟩

/-- The theorems apply to this connection, and say something about it: both ends closed it in order, two bytes went in
each direction, under two keys each. -/
theorem applies :
    (Server.Hist.delivered .appTraffic w.hS = ClientSM.Hist.wrote .appTraffic w.hC ∧
      Server.Hist.delivered .appTraffic w.hS = [33, 34]) ∧
    (ClientSM.Hist.delivered .appTraffic w.hC = Server.Hist.wrote .appTraffic w.hS ∧
      ClientSM.Hist.delivered .appTraffic w.hC = [44, 45]) ∧
    (Server.Hist.keys .clientAppTraffic w.hS).length = 2 ∧ (ClientSM.Hist.keys .serverAppTraffic w.hC).length = 2 := by
  have ok := play_ok setup full
  refine ⟨⟨(C78_complete_server hashOk.1 ok.1 hashOk.2 ok.2 sameHash start_server link_server ?_).1, ?_⟩,
    ⟨(C78_complete_client hashOk.1 ok.1 hashOk.2 ok.2 sameHash start_client link_client ?_).1, ?_⟩, ?_, ?_⟩ <;>
    decide +kernel

theorem success_step {h : List ClientSM.Step}
    (hs : h.any (fun x => x.acts.any fun | .reportHandshakeSuccess _ => true | _ => false) = true) :
    ∃ newer y older b, h = newer ++ y :: older ∧ .reportHandshakeSuccess b ∈ y.acts := by
  obtain ⟨y, hy, h2⟩ := List.any_eq_true.1 hs
  obtain ⟨newer, older, rfl⟩ := List.append_of_mem hy
  obtain ⟨a, ha, h3⟩ := List.any_eq_true.1 h2
  cases a with
  | reportHandshakeSuccess b => exact ⟨newer, y, older, b, rfl, ha⟩
  | _ => cases h3

theorem fixed_step {cfg : Server.Cfg} (hok : ∀ c a, cfg.hashOf c = .ok a → a.Ok) {h s} (hr : Server.Run cfg h s)
    (ha : h.any (fun x => !(Server.Spec.announced x).isEmpty) = true) : ∃ g, Server.Spec.Fixed cfg h g := by
  obtain ⟨y, hy, h2⟩ := List.any_eq_true.1 ha
  obtain ⟨newer, older, rfl⟩ := List.append_of_mem hy
  have h3 : Server.Spec.announced y ≠ [] := by
    intro h; rw [h] at h2; cases h2
  rcases Server.C50_announced hok hr h3 with ⟨g, hg⟩ | ⟨g, ⟨n, x, o, rfl, hn⟩, -⟩
  · exact ⟨g, newer, y, older, rfl, hg⟩
  · exact ⟨g, newer ++ y :: n, x, o, by simp, hn⟩

/-- The connection `full` meets the hypotheses of `C78_connected`: the client has reported success, the server has sent
its flight.  (For the hash: `Agree.World.noClash`; for the network: `link_server` and `link_client` above.) -/
theorem applies_connected :
    ∃ newer y older b, w.hC = newer ++ y :: older ∧ .reportHandshakeSuccess b ∈ y.acts ∧
      ClientSM.Run setup.cfgC (newer ++ y :: older) w.sC ∧ Server.Run setup.cfgS w.hS w.sS ∧
      ∃ g, Server.Spec.Fixed setup.cfgS w.hS g := by
  have ok := play_ok setup full
  obtain ⟨newer, y, older, b, h1, h2⟩ := success_step (h := w.hC) (by decide +kernel)
  exact ⟨newer, y, older, b, h1, h2, h1 ▸ ok.1, ok.2, fixed_step hashOk.2 ok.2 (by decide +kernel)⟩

/-- The server so far has read the first content only. -/
abbrev w' := play setup (full.take 16)

theorem sameHash' : SameHash (ClientSM.hashUsed setup.cfgC w.sC) (Server.hashUsed setup.cfgS w'.sS) := by
  have h1 : w.sC.cipher = w'.sS.cipher := by decide +kernel
  intro x y hx hy
  unfold ClientSM.hashUsed at hx
  unfold Server.hashUsed at hy
  rw [h1] at hx
  cases hc : w'.sS.cipher with
  | none => rw [hc] at hx; cases hx
  | some c =>
    rw [hc] at hx hy
    exact (Option.some.inj hx).symm.trans (Option.some.inj hy)

/-- A proper prefix: the rest has not arrived. -/
theorem applies_prefix :
    Server.Hist.delivered .appTraffic w'.hS <+: ClientSM.Hist.wrote .appTraffic w.hC ∧
    Server.Hist.delivered .appTraffic w'.hS = [33] ∧ ClientSM.Hist.wrote .appTraffic w.hC = [33, 34] := by
  refine ⟨C78_to_server hashOk.1 (play_ok setup full).1 hashOk.2 (play_ok setup (full.take 16)).2 sameHash' ?_
    (link (by decide +kernel) (by decide +kernel) (by decide +kernel)), ?_, ?_⟩ <;> decide +kernel

/-- The connection `early`. -/
abbrev v := play (setup2 true) early

theorem hashOk2 : (∀ c a, (setup2 true).cfgC.hashOf c = .ok a → a.Ok) ∧
    (∀ c a, (setup2 true).cfgS.hashOf c = .ok a → a.Ok) :=
  ⟨fun _ _ h => by cases h; exact Crypto.toyHash_ok, fun _ _ h => by cases h; exact Crypto.toyHash_ok⟩

theorem link_early : Link (fun Z => listed (table (forKey Z (ClientSM.Hist.sent .earlyData v.hC))))
    (ClientSM.Hist.keys .clientEarlyTraffic v.hC) (Server.Hist.keys .clientEarlyTraffic v.hS)
    (ClientSM.Hist.sent .earlyData v.hC) (Server.Hist.arrived .earlyData v.hS) :=
  link (by decide +kernel) (by decide +kernel) (by decide +kernel)

/-- Early data arrives, all of it. -/
theorem applies_early : Server.Hist.delivered .earlyData v.hS = ClientSM.Hist.wrote .earlyData v.hC ∧
    Server.Hist.delivered .earlyData v.hS = [55] := by
  have ok := play_ok (setup2 true) early
  have hk : ClientSM.Hist.keys .clientEarlyTraffic v.hC = Server.Hist.keys .clientEarlyTraffic v.hS := by
    decide +kernel
  have hm : ∀ {a : Server.Action} {l : List Server.Action} (f : Server.Action → Bool), (∀ b, f b = true → b = a) →
      l.any f = true → a ∈ l := by
    intro a l f hf h
    obtain ⟨b, hb, hfb⟩ := List.any_eq_true.1 h
    rw [← hf b hfb]; exact hb
  refine ⟨C78_early_complete hashOk2.1 ok.1 hashOk2.2 ok.2 ?_ link_early rfl
    (hm (fun | .reportEarlyHandshakeSuccess => true | _ => false) (by intro b hb; cases b <;> simp_all)
      (by decide +kernel))
    (hm (fun | .reportHandshakeSuccess => true | _ => false) (by intro b hb; cases b <;> simp_all)
      (by decide +kernel)), by decide +kernel⟩
  intro i Z Y h1 h2
  rw [hk, h1] at h2
  exact Option.some.inj h2

end Fizz.Channel.Example
