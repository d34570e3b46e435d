import Verif.Aead.Helper

/-! Where results may be put, in terms of the buffers and the options only (specification). -/

namespace Fizz.Aead

/-- Not in place is allowed only with a new buffer; in place means the chain may be overwritten. -/
def InPlace (c : List Buf) (o : AeadOptions) : Prop :=
  isShared c = false ∨ o.bufferOpt ≠ .respectSharedPolicy

/-- The tag goes into the tailroom of the last buffer: there is room, and growing is permitted. -/
def TagFits (c : List Buf) (o : AeadOptions) (tagLen : Nat) : Prop :=
  InPlace c o → tagLen ≤ lastTailroom c ∧
    (isShared c = false ∨ o.bufferOpt = .allowFullModification)

end Fizz.Aead
