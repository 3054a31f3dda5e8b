import Verif.Model.Archive
import Verif.Model.Binary
/-!
# Items as binary blobs and loading with a type (src/serialization/Serialization.hpp, Serialization.cpp)

How Boost's binary archive turns a token into bytes is a parameter (`Codec`); the laws that are assumed of it are in
`Codec.Lawful`.  The archive has a header that its constructor writes and the constructor of the input archive checks.
Simplification: both archives are of the same version of Boost on the same kind of machine, so that there is one header.
-/

namespace Verif

/-- the byte format of a binary archive: the header, and how a token is written and read -/
structure Codec (D E : Type) where
  header : List UInt8
  enc : Tok D E → List UInt8
  dec : List UInt8 → Option (Tok D E × List UInt8)

/-- What is assumed of the format: a token takes at least one byte, is read back whatever comes after it, and a token that is cut
off is not read. -/
structure Codec.Lawful {D E : Type} (C : Codec D E) : Prop where
  pos : ∀ t, C.enc t ≠ []
  back : ∀ t r, C.dec (C.enc t ++ r) = some (t, r)
  cut : ∀ t p q, C.enc t = p ++ q → q ≠ [] → C.dec p = none

namespace Blob
variable {D E : Type}

/-- the tokens in a byte sequence, up to the end or to something that is no token; a token takes at least one byte, so the number
of bytes is enough fuel -/
def tokens (C : Codec D E) : Nat → List UInt8 → List (Tok D E)
  | 0, _ => []
  | n + 1, l =>
    match C.dec l with
    | none => []
    | some (t, r) => t :: tokens C n r

/-- `Serialization::saveToBinary` (Serialization.cpp:41-48).  `old` is what the vector contains when the function is called;
`reserve` does not change the content.  The item is dereferenced in `isSerializable` (Serialization.cpp:61). -/
def saveToBinary (C : Codec D E) (R : Registry) (heap : ItemId → SObj D) (item : Option ItemId) (old : List UInt8) :
    Res (List UInt8) Bool :=
  match item with
  | none => .ub "null item dereferenced"
  | some i =>
    let r := (OArchive.new : OArchive D E).save R heap i
    .ok r.1 (OutBuf.run (.write C.header :: r.2.out.map (fun t => .write (C.enc t))) (OutBuf.new old)).vec

/-- constructor of `boost::archive::binary_iarchive`: checks the header -/
def openArchive (C : Codec D E) (bytes : List UInt8) : Res (List UInt8) (IArchive D E) :=
  let r := InBuf.exec (.read C.header.length) (InBuf.new bytes)
  if r.1 = C.header then
    let rest := (InBuf.exec (.read bytes.length) r.2).1
    .ok (IArchive.new (tokens C rest.length rest)) bytes
  else .throw (.runtimeError "archive_exception: input stream error or invalid signature") bytes

/-- `Serialization::loadFromBinary` (Serialization.cpp:50-56): the result, and what the variable `item` points to afterwards.  An
exception of the archive is no `std::runtime_error` and is not caught in `Serialization::load`. -/
def loadFromBinary (C : Codec D E) (H : String → Bool) (bytes : List UInt8) (item : Option (SObj D)) :
    Res (List UInt8) (Bool × Option (SObj D)) :=
  match openArchive C bytes with
  | .ok a _ =>
    match a.load H with
    | .ok (some i) a' => .ok (true, a'.objs[i]?) bytes
    | .ok none _ => .ok (false, item) bytes
    | .throw x _ => .throw x bytes
    | .ub m => .ub m
  | .throw x _ => .throw x bytes
  | .ub m => .ub m

/-- `Serialization::load<Archive, T>` (Serialization.hpp:143-150): the result, and the item (`none` = null pointer).  `T` tells
which classes are `T` or derived from it. -/
def loadAs (T : TypeIdx → Bool) (H : String → Bool) (a : IArchive D E) : Res (IArchive D E) (Bool × Option ItemId) :=
  IArchive.bind (a.load H) fun i a => .ok (i.isSome, i.filter fun k => (a.typeOf k).any T) a

/-- a list of items is saved to an archive, one `Serialization::save` after the other; the results of the calls -/
def saveAll (R : Registry) (heap : ItemId → SObj D) : List ItemId → OArchive D E → List Bool × OArchive D E
  | [], w => ([], w)
  | i :: l, w =>
    let r := w.save R heap i
    let rs := saveAll R heap l r.2
    (r.1 :: rs.1, rs.2)

/-- and read again, each with its type -/
def loadAllAs (H : String → Bool) : List (TypeIdx → Bool) → IArchive D E → Res (IArchive D E) (List (Bool × Option ItemId))
  | [], a => .ok [] a
  | T :: Ts, a => IArchive.bind (loadAs T H a) fun x a => IArchive.bind (loadAllAs H Ts a) fun xs a => .ok (x :: xs) a

end Blob
end Verif
