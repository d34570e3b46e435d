import Verif.Codec.Extensions
import Verif.Codec.Messages

/-!
# C94: extensions of the application

Model of `fizz/client/MultiClientExtensions.cpp`, `fizz/server/MultiServerExtensions.cpp` and
`fizz/extensions/clientpadding`.  An extension object is a value of a type `σ`; its methods are
parameters.
-/

namespace Fizz.Multi
open Fizz Fizz.Codec

/-- `ClientExtensions` (`fizz/client/ClientExtensions.h:22-49`): `getClientHelloExtensions` is `const`,
`onEncryptedExtensions` may change the object. -/
structure ClientExt (σ : Type) where
  getClientHelloExtensions : σ → Res (List Extension)
  onEncryptedExtensions : σ → List Extension → Res Unit × σ

/-- The loop of `MultiClientExtensions::getClientHelloExtensions`
(`fizz/client/MultiClientExtensions.cpp:19-33`): the result so far is `ret`. -/
def getLoop {σ} (m : ClientExt σ) (ret : List Extension) : List σ → Res (List Extension)
  | [] => .ok ret
  | x :: xs =>
    match m.getClientHelloExtensions x with
    | .error f => .error f
    | .ok tmp => getLoop m (ret ++ tmp) xs

/-- `MultiClientExtensions::getClientHelloExtensions`. -/
def getClientHelloExtensions {σ} (m : ClientExt σ) (exts : List σ) : Res (List Extension) :=
  getLoop m [] exts

/-- `MultiClientExtensions::onEncryptedExtensions` (`fizz/client/MultiClientExtensions.cpp:35-42`): the
answer and the objects after it. -/
def onEncryptedExtensions {σ} (m : ClientExt σ) : List σ → List Extension → Res Unit × List σ
  | [], _ => (.ok (), [])
  | x :: xs, e =>
    match m.onEncryptedExtensions x e with
    | (.error f, x') => (.error f, x' :: xs)
    | (.ok _, x') =>
      let (r, xs') := onEncryptedExtensions m xs e
      (r, x' :: xs')

/-- `ServerExtensions::getExtensions` (`fizz/server/ServerExtensions.h:21-34`), not `const`. -/
structure ServerExt (σ : Type) where
  getExtensions : σ → ClientHello → Res (List Extension) × σ

/-- The loop of `MultiServerExtensions::getExtensions` (`fizz/server/MultiServerExtensions.cpp:17-31`). -/
def serverLoop {σ} (m : ServerExt σ) (chlo : ClientHello) (ret : List Extension) :
    List σ → Res (List Extension) × List σ
  | [] => (.ok ret, [])
  | x :: xs =>
    match m.getExtensions x chlo with
    | (.error f, x') => (.error f, x' :: xs)
    | (.ok next, x') =>
      let (r, xs') := serverLoop m chlo (ret ++ next) xs
      (r, x' :: xs')

/-- `MultiServerExtensions::getExtensions`. -/
def getExtensions {σ} (m : ServerExt σ) (exts : List σ) (chlo : ClientHello) :
    Res (List Extension) × List σ := serverLoop m chlo [] exts

/-- `encodeExtension(Padding)` (`fizz/extensions/clientpadding/Types.cpp:14-32`): two bytes of the type
and two of the length are part of the total. -/
def encodePadding (totalBytes : UInt16) : Extension :=
  ⟨21, List.replicate (if totalBytes.toNat < 2 + 2 then 0 else totalBytes.toNat - (2 + 2)) 0⟩

/-- `PaddingClientExtension::getClientHelloExtensions`
(`fizz/extensions/clientpadding/PaddingClientExtension.cpp:18-30`). -/
def paddingExtensions (totalBytes : UInt16) : Res (List Extension) := .ok [encodePadding totalBytes]

end Fizz.Multi
