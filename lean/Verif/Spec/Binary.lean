import Verif.Model.Binary
/-! # Bytes written and asked for by calls of a stream -/

namespace Verif

/-- the bytes of a call -/
def OutBuf.Op.bytes : OutBuf.Op → List UInt8
  | .put c => [c]
  | .write l => l

/-- how many bytes a call takes out of the stream; `peek` takes none -/
def InBuf.Op.asked : InBuf.Op → Nat
  | .peek => 0
  | .get => 1
  | .read n => n

end Verif
