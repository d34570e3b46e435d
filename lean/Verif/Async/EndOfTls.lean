import Verif.Record.ReadSpec

/-!
# The end of TLS

Model of `AsyncFizzBase::endOfTLS` (`fizz/protocol/AsyncFizzBase.cpp:510-531`) and of a transport that goes on after TLS: an
application that stops TLS (close_notify) and goes on in plaintext on the same transport is given, by its end-of-TLS callback,
the bytes that had been read behind the close_notify, and reads what follows from the transport itself.
-/

namespace Fizz.Async.EndOfTls
open Fizz.Record Fizz.Codec

/-- What `endOfTLS` does: it calls the end-of-TLS callback with the bytes, or ends the connection with an error
(`transportError`). -/
inductive Did where
  | callback (postTlsData : Bytes)
  | invalidState
  | eof
  deriving DecidableEq, Repr

/-- `AsyncFizzBase::endOfTLS` (`fizz/protocol/AsyncFizzBase.cpp:510-531`). -/
def endOfTLS (connecting hasCallback : Bool) (endOfData : Bytes) : Did :=
  if connecting then .invalidState
  else if hasCallback then .callback endOfData
  else .eof

/-- An endpoint on a transport, and what the application has been given of the bytes that are not TLS: by the end-of-TLS
callback, and by reading the transport afterwards. -/
structure Tap where
  tls : Session
  raw : Bytes := []

/-- The transport delivers bytes, or the endpoint looks for an event (`Session.step`, which is `readEvent` in a loop,
`fizz/protocol/FizzBase-inl.h:174-180`).  The bytes that come with the close_notify (`CloseNotify(socketBuf.move())`,
`fizz/record/RecordLayer.cpp:60`) go to the callback, `fizz/server/ServerProtocol.cpp:3069`,
`fizz/client/ClientProtocol.cpp:3201`; what arrives later is read from the transport by the application. -/
def Tap.step (react : React) (t : Tap) (op : Op) : Tap :=
  match t.tls, op with
  | .dead evs none, .feed d => ⟨.dead evs none, t.raw ++ d⟩
  | .live r buf evs, .poll =>
    match readEvent r buf with
    | .done (.closeNotify post) _ _ =>
      match endOfTLS false true post with
      | .callback got => ⟨.dead (evs ++ [.closeNotify post]) none, got⟩
      | _ => ⟨.dead (evs ++ [.closeNotify post]) none, []⟩
    | _ => ⟨(Session.live r buf evs).step react .poll, t.raw⟩
  | s, op => ⟨s.step react op, t.raw⟩

/-- A schedule. -/
def Tap.exec (react : React) (t : Tap) (ops : List Op) : Tap := ops.foldl (Tap.step react) t

end Fizz.Async.EndOfTls
