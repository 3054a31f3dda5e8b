import Verif.Model.Blob
import Verif.Model.LoadInto
import Verif.Model.Drawing
/-!
# Files (src/graph/EnvireGraph.cpp:313-332, src/graph/GraphDrawing.hpp:197-215)

A file is a sequence of bytes.  Streams (trusted): opening a file for writing truncates it; bytes that do not fit on the disk are lost, and
the stream reports that on the write or at the latest on `close`; a stream object that goes out of scope writes what it still has buffered.

Trusted, as in `LoadInto`: the load function of boost_serialization follows the one of Boost for adjacency lists (it adds a vertex and reads its
property, adds an edge and reads its property).  Simplifications: an exception while a frame is read leaves this frame with the name that was
read, if any, and without items; item objects that were read before the exception are not followed.
-/

namespace Verif
variable {D E : Type}

/-- the file system: content of the files, which names can be opened for reading and writing, and how many bytes a file may have -/
structure Disk where
  files : AMap String (List UInt8)
  canRead : String → Bool
  canWrite : String → Bool
  room : Nat

namespace Disk

/-- write a file as far as there is room -/
def put (path : String) (b : List UInt8) (d : Disk) : Disk := { d with files := d.files.set path (b.take d.room) }

/-- `EnvireGraph::saveToFile` (EnvireGraph.cpp:313-322) -/
def saveToFile (C : Codec D E) (R : Registry) (heap : ItemId → SObj D) (g : G EFrame E) (path : String) (d : Disk) : Res Disk Unit :=
  if d.canWrite path then
    match OArchive.saveGraph R heap g OArchive.new with
    | .ok _ w =>
      let b := C.header ++ w.out.flatMap C.enc
      if b.length ≤ d.room then .ok () (d.put path b) else .throw (.runtimeError "archive_exception or ios_base::failure") (d.put path b)
    | .throw x w => .throw x (d.put path (C.header ++ w.out.flatMap C.enc))
    | .ub m => .ub m
  else .throw (.runtimeError "ios_base::failure") d

/-- `GraphDrawing::write(graph, filename)` (GraphDrawing.hpp:197-215); the result is what is printed to the standard output.  `text` is what
`write(graph, out)` writes.  Neither `of` nor `out` is asked whether something went wrong. -/
def writeDrawing (bytes : List Char → List UInt8) (text : List Char) (path : String) (d : Disk) : Res Disk (List Char) :=
  if path = "" then .ok text d
  else if d.canWrite path then .ok [] (d.put path (bytes text))
  else .ok [] d

end Disk

/-- `add_vertex` of the directed graph, below the labels -/
def G.push (fr : EFrame) (g : G EFrame E) : G EFrame E :=
  { g with verts := g.verts ++ [⟨g.nextV, g.nextIdx, fr⟩], nextV := g.nextV + 1, nextIdx := g.nextIdx + 1 }

namespace IArchive

/-- a frame that was not read to its end -/
def unfinished (a : IArchive D E) : EFrame :=
  match a.read str? with
  | .ok f _ => ⟨f, []⟩
  | _ => ⟨"", []⟩

/-- the vertices, as `loadFramesInto`; after an exception the graph has what was added so far -/
def loadFramesT (H : String → Bool) (off : Nat) : Nat → G EFrame E → IArchive D E → Res (G EFrame E) (IArchive D E)
  | 0, g, a => .ok a g
  | n + 1, g, a =>
    match loadFrame H a with
    | .ok fr a => loadFramesT H off n (g.push (fr.shift off)) a
    | .throw x _ => .throw x (g.push a.unfinished)
    | .ub m => .ub m

/-- the edges, as `loadEdges`; `dflt` is the property of an edge before it is read -/
def loadEdgesT (dflt : E) (vs : List VId) : Nat → G EFrame E → IArchive D E → Res (G EFrame E) (IArchive D E)
  | 0, g, a => .ok a g
  | n + 1, g, a =>
    match a.read size? with
    | .throw x _ => .throw x g
    | .ub m => .ub m
    | .ok u a =>
      match a.read size? with
      | .throw x _ => .throw x g
      | .ub m => .ub m
      | .ok v a =>
        match vs[u]?, vs[v]? with
        | some u, some v =>
          match a.read edge? with
          | .ok p a => loadEdgesT dflt vs n (g.addEdge u v p).1 a
          | .throw x _ => .throw x (g.addEdge u v dflt).1
          | .ub m => .ub m
        | _, _ => .ub "archive out of step"

/-- `Graph::load` (Graph.hpp:991-999) into the graph `g`, with the graph that is left after an exception -/
def loadGraphT (H : String → Bool) (off : Nat) (dflt : E) (g : G EFrame E) (a : IArchive D E) : Res (G EFrame E) (IArchive D E) :=
  match a.read size? with
  | .throw x _ => .throw x g
  | .ub m => .ub m
  | .ok n a =>
    match a.read size? with
    | .throw x _ => .throw x g
    | .ub m => .ub m
    | .ok k a =>
      match loadFramesT H off n g a with
      | .throw x g => .throw x g
      | .ub m => .ub m
      | .ok a g1 =>
        match loadEdgesT dflt ((g1.verts.drop g.verts.length).map VRec.id) k g1 a with
        | .throw x g => .throw x g
        | .ub m => .ub m
        | .ok a g2 => .ok a g2.regenerateLabelMap

end IArchive

/-- `EnvireGraph::loadFromFile` (EnvireGraph.cpp:324-332), from opening the file to the state of the graph -/
def EG.loadFile (C : Codec D E) (H : String → Bool) (off : Nat) (dflt : E) (path : String) (d : Disk) (s : EG E) : Res (EG E) Unit :=
  match d.canRead path, d.files.get path with
  | true, some b =>
    match Blob.openArchive C b with
    | .throw x _ => .throw x s
    | .ub m => .ub m
    | .ok a _ =>
      match IArchive.loadGraphT H off dflt s.gs.g a with
      | .throw x g => .throw x ⟨{ s.gs with g := g }, s.heap⟩
      | .ub m => .ub m
      | .ok a g => .ok () ⟨{ s.gs with g := g }, heapAfter off s.heap a.objs⟩
  | _, _ => .throw (.runtimeError "ios_base::failure") s

end Verif
