import Verif.Model.EnvireGraph
/-!
# Handlers of item events that call the graph (src/graph/EnvireGraph.cpp, src/graph/EnvireGraph.hpp:370-410)

`Model/Reenter.lean` is about the events of frames and edges.  Here the handlers react to the item events.  The functions are those of
`Model/EnvireGraph.lean` with the call of `notify` as a parameter; `clearFrame` and `removeItemFromFrame(frame, iterator)` go on using
iterators and references after `notify`.

Simplifications: events about frames and edges have no reaction here (C92).  If a handler changes the items of the frame whose list is
being used, the outcome is counted as undefined, although some of the iterators would stay valid (a `push_back` that does not
reallocate, an erasure further back).
-/

namespace Verif
namespace EG
variable {E : Type} [EdgeProp E]

/-- a call of `notify`: the handlers may change everything and may throw -/
abbrev INotify (E : Type) := Event → EG E → Res (EG E) Unit

/-- the event tells that the items of the frame, or the frame, were changed -/
def touches (f : FrameId) : Event → Bool
  | .itemAdded f' _ => f' = f
  | .itemRemoved f' _ => f' = f
  | .frameRemoved f' => f' = f
  | _ => false

/-- did something happen to the items of the frame between the two states -/
def touched (f : FrameId) (s s' : EG E) : Bool := (s'.gs.trace.drop s.gs.trace.length).any (fun x => touches f x.1)

/-- the item map of the vertex -/
def itemsAt (v : VId) (s : EG E) : Option (AMap TypeIdx (List ItemId)) := (s.gs.g.findV v).map (fun r => r.prop.items)

/-- `notify` while iterators into the items of frame `f` (vertex `v`) are in use.  An empty list can be erased from the map without an
event, therefore the map is compared as well. -/
def notifyUsing (nt : INotify E) (ev : Event) (f : FrameId) (v : VId) (s : EG E) : Res (EG E) Unit :=
  match nt ev s with
  | .ok _ s1 => if touched f (notify ev s) s1 ∨ itemsAt v s1 ≠ itemsAt v s then .ub "invalidated iterator" else .ok () s1
  | .throw x s1 => .throw x s1
  | .ub r => .ub r

/-- `EnvireGraph::addItemToFrame` (EnvireGraph.cpp:118-125) -/
def addItemToFrameH (nt : INotify E) (f : FrameId) (i : ItemId) (s : EG E) : Res (EG E) Unit :=
  match s.gs.g.vertexOf f with
  | none => .throw (.unknownFrame f) s
  | some v => nt (.itemAdded f i) (setItemFrame i f (modFrame v (EFrame.push (s.heap i).type i) s))

/-- inner loop of `clearFrame` (EnvireGraph.cpp:135-140) -/
def clearListH (nt : INotify E) (f : FrameId) (v : VId) (t : TypeIdx) : List ItemId → EG E → Res (EG E) Unit
  | [], s => .ok () s
  | i :: l, s =>
    match notifyUsing nt (.itemRemoved f i) f v (modFrame v (EFrame.setList t l) s) with
    | .ok _ s1 => clearListH nt f v t l s1
    | .throw x s1 => .throw x s1
    | .ub r => .ub r

/-- outer loop of `clearFrame` (EnvireGraph.cpp:132-142) -/
def clearTypesH (nt : INotify E) (f : FrameId) (v : VId) : AMap TypeIdx (List ItemId) → EG E → Res (EG E) Unit
  | [], s => .ok () s
  | (t, l) :: m, s =>
    match clearListH nt f v t l s with
    | .ok _ s1 => clearTypesH nt f v m (modFrame v (EFrame.eraseType t) s1)
    | .throw x s1 => .throw x s1
    | .ub r => .ub r

/-- `EnvireGraph::clearFrame` (EnvireGraph.cpp:127-143) -/
def clearFrameH (nt : INotify E) (f : FrameId) (s : EG E) : Res (EG E) Unit :=
  match s.gs.g.vertexOf f with
  | none => .throw (.unknownFrame f) s
  | some v =>
    match s.gs.g.findV v with
    | none => .ub "operator[]: dangling descriptor"
    | some r => clearTypesH nt f v r.prop.items s

/-- `EnvireGraph::removeFrame` (EnvireGraph.cpp:209-214) -/
def removeFrameH (nt : INotify E) (f : FrameId) (s : EG E) : Res (EG E) Unit :=
  match clearFrameH nt f s with
  | .ok _ s' => base s'.heap (GS.removeFrame f s'.gs)
  | .throw x s' => .throw x s'
  | .ub r => .ub r

/-- `EnvireGraph::clear` (EnvireGraph.cpp:216-241): the names are collected first -/
def clearH (nt : INotify E) (s : EG E) : Res (EG E) Unit :=
  let frames := s.gs.g.verts.map (fun r => FrameProp.getId r.prop)
  match forFrames (fun f s => base s.heap (GS.disconnectFrame f s.gs)) frames s with
  | .ok _ s' => forFrames (removeFrameH nt) frames s'
  | .throw x s' => .throw x s'
  | .ub r => .ub r

/-- `EnvireGraph::removeItemFromFrame(ItemBase::Ptr)` (EnvireGraph.cpp:244-271): publishes last -/
def removeItemH (nt : INotify E) (i : ItemId) (s : EG E) : Res (EG E) Unit :=
  let f := (s.heap i).frame
  let t := (s.heap i).type
  match s.gs.g.vertexOf f with
  | none => .throw (.unknownFrame f) s
  | some v =>
    match s.gs.g.findV v with
    | none => .ub "operator[]: dangling descriptor"
    | some r =>
      match r.prop.items.get t with
      | none => .throw (.noItemsOfType f) s
      | some l =>
        if i ∈ l then
          let s1 := setItemFrame i "" (modFrame v (EFrame.setList t (l.erase i)) s)
          let s2 := if (l.erase i).length = 0 then modFrame v (EFrame.eraseType t) s1 else s1
          nt (.itemRemoved f i) s2
        else .throw .unknownItem s

/-- `EnvireGraph::removeItemFromFrame<T>(FrameId, ItemIterator<T>)` (EnvireGraph.hpp:370-410): publishes before it compares the iterators
and erases the empty entry. -/
def removeItemAtH (nt : INotify E) (f : FrameId) (it : ItemIt) (s : EG E) : Res (EG E) (List ItemId) :=
  match s.gs.g.vertexOf f with
  | none => .throw (.unknownFrame f) s
  | some v =>
    match (listOf it.frame it.type s).bind (fun l => l[it.pos]?) with
    | none => .ub "removeItemFromFrame: invalid iterator"
    | some i =>
      if (s.heap i).frame ≠ f then .ub "removeItemFromFrame: assert"
      else
        match listOf f it.type s with
        | none => .throw (.noItemsOfType f) s
        | some l =>
          if it.frame ≠ f then .ub "removeItemFromFrame: iterators of different lists"
          else
            let l' := l.eraseIdx it.pos
            let s1 := setItemFrame i "" (modFrame v (EFrame.setList it.type l') s)
            match notifyUsing nt (.itemRemoved f i) f v s1 with
            | .ok _ s2 =>
              let rest := l'.drop it.pos
              let s3 := if rest = [] then modFrame v (EFrame.eraseType it.type) s2 else s2
              .ok rest s3
            | .throw x s2 => .throw x s2
            | .ub r => .ub r

/-- one public call with handlers -/
def execH (nt : INotify E) : Cmd E → EG E → Res (EG E) Unit
  | .graph (.removeFrame f), s => removeFrameH nt f s
  | .graph c, s => base s.heap (GS.exec c s.gs)
  | .addItem i, s => addItemToFrameH nt (s.heap i).frame i s
  | .addItemToFrame f i, s => addItemToFrameH nt f i s
  | .removeItem i, s => removeItemH nt i s
  | .removeItemAt f it, s => GS.discard (removeItemAtH nt f it s)
  | .clearFrame f, s => clearFrameH nt f s
  | .clear, s => clearH nt s
  | .setItemFrame i f, s => .ok () (setItemFrame i f s)

/-- What a handler of item events does next. -/
inductive IAct (E : Type)
  /-- call the graph; `caught`: an exception of the call is caught by the handler -/
  | call (c : Cmd E) (caught : Bool)
  /-- throw an exception of its own -/
  | fail
  /-- return -/
  | done

/-- A handler decides from the event, the number of calls it has already made and the present state what to do next. -/
abbrev IHandler (E : Type) := Event → Nat → EG E → IAct E

/-- the body of the handler; as `GS.handleLoop` -/
def handleLoop (hd : IHandler E) (call : Cmd E → EG E → Res (EG E) Unit) (ev : Event) : Nat → Nat → EG E → Res (EG E) Unit
  | n, k, s =>
    match hd ev k s with
    | .done => .ok () s
    | .fail => .throw (.runtimeError "thrown by the handler") s
    | .call c caught =>
      match n with
      | 0 => .ub "handler: no end"
      | n + 1 =>
        match call c s with
        | .ok _ s1 => handleLoop hd call ev n (k + 1) s1
        | .throw x s1 => if caught then handleLoop hd call ev n (k + 1) s1 else .throw x s1
        | .ub r => .ub r

/-- A public call of an `EnvireGraph` whose subscribers behave like `hd`; the number bounds the recursion. -/
def hexec (hd : IHandler E) : Nat → Cmd E → EG E → Res (EG E) Unit
  | 0, _, _ => .ub "handler: no end"
  | n + 1, c, s => execH (fun ev s => handleLoop hd (hexec hd n) ev n 0 (notify ev s)) c s

/-- A history of calls from outside; exceptions are caught. -/
def hrun (hd : IHandler E) (n : Nat) : List (Cmd E) → EG E → Option (EG E)
  | [], s => some s
  | c :: cs, s =>
    match hexec hd n c s with
    | .ok _ s' => hrun hd n cs s'
    | .throw _ s' => hrun hd n cs s'
    | .ub _ => none

end EG
end Verif
