import Verif.Codec.Prim

/-! # Specification vocabulary: the TLS presentation language on bytes -/

namespace Fizz.Codec

/-- A variable-length vector with a length prefix of the given width (RFC 8446 section 3.4). -/
def vec (w : Width) (body : Bytes) : Bytes := beEnc w.bytes body.length ++ body

end Fizz.Codec
