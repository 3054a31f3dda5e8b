/-!
# Binary buffers (src/serialization/BinaryBufferHelper.hpp)

Pointers into the vector are offsets.  The functions of `std::streambuf` that the two classes inherit are those of libstdc++
(bits/streambuf.tcc); they are part of the trusted base.
-/

namespace Verif

/-- `BinaryOutputBuffer` (BinaryBufferHelper.hpp:55-78): the vector, put pointer and end of the put area -/
structure OutBuf where
  vec : List UInt8
  pptr : Nat
  epptr : Nat
  deriving DecidableEq, Repr

namespace OutBuf

/-- constructor (BinaryBufferHelper.hpp:58-61); the put area is the content of the vector -/
def new (vec : List UInt8) : OutBuf := ⟨vec, 0, vec.length⟩

/-- `*pptr() = c; pbump(1)` -/
def store (c : UInt8) (b : OutBuf) : OutBuf := { b with vec := b.vec.set b.pptr c, pptr := b.pptr + 1 }

/-- `overflow` (BinaryBufferHelper.hpp:66-74).  The `sputc` at the end finds room for one byte.  Returns the byte written. -/
def overflow (c : UInt8) (b : OutBuf) : UInt8 × OutBuf :=
  let vec := b.vec ++ [0]
  (c, store c ⟨vec, vec.length - 1, vec.length⟩)

/-- `std::streambuf::sputc` -/
def sputc (c : UInt8) (b : OutBuf) : UInt8 × OutBuf :=
  if b.pptr < b.epptr then (c, store c b) else overflow c b

/-- The copy of `l` to the put area in `std::streambuf::xsputn` -/
def copyIn : List UInt8 → OutBuf → OutBuf
  | [], b => b
  | c :: l, b => copyIn l (store c b)

/-- `std::streambuf::xsputn`: fill the put area, then `overflow` with the next byte, and so on.  Returns the number of bytes
written.  Each round takes at least one byte, so the length of the list is enough fuel. -/
def xsputn : Nat → List UInt8 → OutBuf → Nat × OutBuf
  | 0, _, b => (0, b)
  | n + 1, l, b =>
    let len := min (b.epptr - b.pptr) l.length
    let b1 := copyIn (l.take len) b
    match l.drop len with
    | [] => (len, b1)
    | c :: l' =>
      let r := xsputn n l' (overflow c b1).2
      (len + 1 + r.1, r.2)

/-- calls of the stream -/
inductive Op
  | put (c : UInt8)
  | write (l : List UInt8)
  deriving DecidableEq, Repr

/-- one call: the number of bytes reported as written and the new buffer -/
def exec : Op → OutBuf → Nat × OutBuf
  | .put c, b => (1, (sputc c b).2)
  | .write l, b => xsputn (l.length + 1) l b

/-- calls in order -/
def run : List Op → OutBuf → OutBuf
  | [], b => b
  | o :: os, b => run os (exec o b).2

end OutBuf

/-- `BinaryInputBuffer` (BinaryBufferHelper.hpp:40-49): the bytes and the get pointer -/
structure InBuf where
  data : List UInt8
  gptr : Nat
  deriving DecidableEq, Repr

namespace InBuf

/-- constructor (BinaryBufferHelper.hpp:43-48) -/
def new (data : List UInt8) : InBuf := ⟨data, 0⟩

/-- `std::streambuf::sgetc`; `underflow` is not overridden and returns end of file (`none`) -/
def sgetc (b : InBuf) : Option UInt8 := if b.gptr < b.data.length then b.data[b.gptr]? else none

/-- `std::streambuf::sbumpc`; `uflow` calls `underflow` -/
def sbumpc (b : InBuf) : Option UInt8 × InBuf :=
  if b.gptr < b.data.length then (b.data[b.gptr]?, { b with gptr := b.gptr + 1 }) else (none, b)

/-- `std::streambuf::xsgetn`: copy what is there; the `uflow` after that returns end of file -/
def xsgetn (n : Nat) (b : InBuf) : List UInt8 × InBuf :=
  let len := min (b.data.length - b.gptr) n
  ((b.data.drop b.gptr).take len, { b with gptr := b.gptr + len })

/-- calls of the stream -/
inductive Op
  | peek
  | get
  | read (n : Nat)
  deriving DecidableEq, Repr

/-- One call: the bytes it returns.  `peek` and `get` return no byte at the end of file. -/
def exec : Op → InBuf → List UInt8 × InBuf
  | .peek, b => ((sgetc b).toList, b)
  | .get, b => ((sbumpc b).1.toList, (sbumpc b).2)
  | .read n, b => xsgetn n b

/-- calls in order; the results of the calls -/
def run : List Op → InBuf → List (List UInt8) × InBuf
  | [], b => ([], b)
  | o :: os, b =>
    let r := exec o b
    let rs := run os r.2
    (r.1 :: rs.1, rs.2)

end InBuf
end Verif
