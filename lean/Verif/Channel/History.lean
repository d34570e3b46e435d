import Verif.Channel.Spec
import Verif.Server.Spec
import Verif.ClientSM.Spec

/-!
# What a history says about one kind of traffic (specification side of C78)

For a level of protection (early data, application traffic): the keys announced, the contents written under them, the
messages that arrived under them, what the application wrote and what it was given.  Histories have the most recent
step first; everything here is in chronological order.
-/

namespace Fizz.Channel
open Fizz.Codec Fizz.Record
open Fizz.Server (Level RLayer WLayer Content SecretKind SockIn)
open Fizz.Conn (Trig)

/-- The secret of a read layer, if it has the level. -/
def RLayer.key (L : Level) : Option RLayer → Option Bytes
  | some r => if r.level = L then some r.secret else none
  | none => none

/-- The secret of a write layer, if it has the level. -/
def WLayer.key (L : Level) : Option WLayer → Option Bytes
  | some w => if w.level = L then some w.secret else none
  | none => none

/-- A content, if it is written at the level: the secret, and what is written. -/
def atLevel (L : Level) (c : Content) : List (Bytes × Item) :=
  if c.layer.level = L then [(c.layer.secret, (c.type, c.data))] else []

/-- The message a step deals with: only a step triggered by the socket does, and only when it does anything. -/
def message (t : Trig) (sock : SockIn) (idle : Bool) : List Event :=
  match t, sock with
  | .sock, .event e _ => if idle then [] else [e]
  | _, _ => []

/-- Messages, with the key they arrived under. -/
def under (k : Option Bytes) (es : List Event) : List (Bytes × Event) :=
  match k with
  | some Z => es.map fun e => (Z, e)
  | none => []

/-- The keys of a kind. -/
def ofKind (kind : SecretKind) (l : List (SecretKind × Bytes)) : List Bytes :=
  (l.filter (·.1 = kind)).map (·.2)

/-- The application data in an application's request to write. -/
def requested : Trig → Bytes
  | .app (.appWrite _ d _) => d
  | .app (.earlyAppWrite _ d _) => d
  | _ => []

end Fizz.Channel

namespace Fizz.Server.Hist
open Fizz.Channel Fizz.Codec Fizz.Record

/-- The keys of a kind the server announced. -/
def keys (kind : SecretKind) (h : List Step) : List Bytes :=
  h.reverse.flatMap fun x => ofKind kind (Spec.announced x)

/-- What the server wrote at a level. -/
def sent (L : Level) (h : List Step) : List (Bytes × Item) :=
  h.reverse.flatMap fun x => (Spec.contents x).flatMap (atLevel L)

/-- What reached the server at a level. -/
def arrived (L : Level) (h : List Step) : List (Bytes × Event) :=
  h.reverse.flatMap fun x => under (RLayer.key L x.pre.read) (message x.trig x.env.sock x.acts.isEmpty)

/-- What the server gave to its application of what arrived at a level. -/
def delivered (L : Level) (h : List Step) : Bytes :=
  h.reverse.flatMap fun x => if RLayer.key L x.pre.read = none then [] else (Spec.delivered x).flatten

/-- What the server's application asked to write, and the server wrote at the level. -/
def wrote (L : Level) (h : List Step) : Bytes :=
  h.reverse.flatMap fun x => if ∃ c ∈ Spec.contents x, c.type = 23 ∧ c.layer.level = L then requested x.trig else []

/-- The server told its application, on account of what it received at this level, that the client will send nothing
more. -/
def ended (L : Level) (h : List Step) : Prop :=
  ∃ x ∈ h, RLayer.key L x.pre.read ≠ none ∧ ∃ b, .endOfData b ∈ x.acts

end Fizz.Server.Hist

namespace Fizz.ClientSM.Hist
open Fizz.Channel Fizz.Codec Fizz.Record
open Fizz.Server (Level RLayer WLayer Content SockIn)

/-- The keys of a kind the client announced. -/
def keys (kind : SecretKind) (h : List Step) : List Bytes :=
  h.reverse.flatMap fun x => ((Spec.announced x).filter (·.1 = kind)).map (·.2)

/-- What the client wrote at a level. -/
def sent (L : Level) (h : List Step) : List (Bytes × Item) :=
  h.reverse.flatMap fun x => (Spec.contents x).flatMap (atLevel L)

/-- What reached the client at a level. -/
def arrived (L : Level) (h : List Step) : List (Bytes × Event) :=
  h.reverse.flatMap fun x => under (RLayer.key L x.pre.read) (message x.trig x.env.sock x.acts.isEmpty)

/-- What the client gave to its application of what arrived at a level. -/
def delivered (L : Level) (h : List Step) : Bytes :=
  h.reverse.flatMap fun x => if RLayer.key L x.pre.read = none then [] else (Spec.delivered x).flatten

/-- What the client's application asked to write, and the client wrote at the level. -/
def wrote (L : Level) (h : List Step) : Bytes :=
  h.reverse.flatMap fun x => if ∃ c ∈ Spec.contents x, c.type = 23 ∧ c.layer.level = L then requested x.trig else []

/-- The client told its application, on account of what it received at this level, that the server will send nothing
more. -/
def ended (L : Level) (h : List Step) : Prop :=
  ∃ x ∈ h, RLayer.key L x.pre.read ≠ none ∧ ∃ b, .endOfData b ∈ x.acts

end Fizz.ClientSM.Hist
