import Verif.Ech.Types
import Verif.Codec.Spec

/-!
# Specification: ECH wire formats (draft-ietf-tls-esni section 4 and 5)
-/

namespace Fizz.Ech.Spec
open Fizz Fizz.Codec Fizz.Codec.Spec

def suite (s : Suite) : Bytes := u16 s.kdf ++ u16 s.aead

def keyConfig (k : KeyConfig) : Bytes :=
  u8 k.configId ++ u16 k.kemId ++ vec .u16 k.publicKey ++ vec .u16 (k.suites.flatMap suite)
def KeyConfigFits (k : KeyConfig) : Prop := k.publicKey.length < 65536 ∧ 4 * k.suites.length < 65536

def configContent (c : ConfigContent) : Bytes :=
  keyConfig c.key ++ u8 c.maxNameLen ++ vec .u8 c.publicName ++ Spec.extensions c.extensions
def ConfigContentFits (c : ConfigContent) : Prop :=
  KeyConfigFits c.key ∧ c.publicName.length < 256 ∧ ExtensionsFit c.extensions

def config (c : Config) : Bytes := u16 c.version ++ vec .u16 c.content
def ConfigFits (c : Config) : Prop := c.content.length < 65536
def ConfigsFit (l : List Config) : Prop := (∀ c ∈ l, ConfigFits c) ∧ (l.flatMap config).length < 65536

def outerEchWire (e : OuterEch) : Extension :=
  ⟨0xfe0d, [0] ++ suite e.suite ++ u8 e.configId ++ vec .u16 e.enc ++ vec .u16 e.payload⟩
def OuterEchFits (e : OuterEch) : Prop := e.enc.length < 65536 ∧ e.payload.length < 65536

def innerEchWire (_ : Unit) : Extension := ⟨0xfe0d, [1]⟩
def echEeWire (l : List Config) : Extension := ⟨0xfe0d, vec .u16 (l.flatMap config)⟩
def outerExtensionsWire (l : List UInt16) : Extension := ⟨0xfd00, vec .u8 (l.flatMap u16)⟩
def OuterExtensionsFits (l : List UInt16) : Prop := 2 * l.length < 256
def echHrrWire (c : Confirmation) : Extension := ⟨0xfe0d, c.val⟩

end Fizz.Ech.Spec
