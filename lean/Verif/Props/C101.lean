import Verif.Lemmas.OpaqueQueries
import Verif.Lemmas.Shape
import Verif.Spec.Demo
import Verif.Spec.DemoPose
/-! # C101: what the graph does depends on names and connections only

`Graph<F,E>` is a template that may ask a frame property for its name and an edge property for its inverse, and nothing else
(src/graph/Graph.hpp:44-60).  So the content of frames and connections has no influence on which calls succeed, which exceptions are
thrown, which events are published and what the tree views look like; and a translation of the content may as well be made
before a history of calls as after it. -/

namespace Verif
open GS
variable {F F' E E' : Type} [FrameProp F] [FrameProp F'] [EdgeProp E] [EdgeProp E']

/-- **Every call commutes with every translation of the properties**, in every state. -/
theorem C101_calls (m : PropMap F F' E E') (c : Cmd F E) (s : GS F E) : exec (c.trans m) (s.trans m) = (exec c s).trans m id :=
  exec_trans m c s

/-- **Every history commutes with every translation**, and so does its outcome: undefined behaviour or a final state. -/
theorem C101_histories (m : PropMap F F' E E') (cs : List (Cmd F E)) : run (cs.map (Cmd.trans m)) init = (run cs init).map (GS.trans m) :=
  run_trans m cs init

/-- **Content has no influence**: two histories of calls that differ only in the content of frames and connections, which may even be of
different types, both have undefined behaviour or both end with the same frames, connections, views and events. -/
theorem C101_no_influence (cs : List (Cmd F E)) (cs' : List (Cmd F' E')) (h : List.Forall₂ Cmd.SameShape cs cs') :
    (run cs init = none ∧ run cs' init = none) ∨
    ∃ s s', run cs init = some s ∧ run cs' init = some s' ∧ s.SameShape s' := by
  obtain ⟨h1, h2⟩ := runs_shape h
  cases hx : run cs init with
  | none => exact Or.inl ⟨rfl, h1.1 hx⟩
  | some s =>
    obtain ⟨s', hs'⟩ : ∃ s', run cs' init = some s' := by
      cases hy : run cs' init with
      | none => rw [h1.2 hy] at hx; cases hx
      | some s' => exact ⟨s', rfl⟩
    exact Or.inr ⟨s, s', rfl, hs', h2 s s' hx hs'⟩

/-- the same for one call in states that differ only in the content: same exception or none, and states that again differ only in the
content -/
theorem C101_no_influence_call (c : Cmd F E) (c' : Cmd F' E') (h : c.SameShape c') (cs : List (Cmd F E)) (cs' : List (Cmd F' E'))
    (hcs : List.Forall₂ Cmd.SameShape cs cs') (s : GS F E) (s' : GS F' E') (hs : run cs init = some s) (hs' : run cs' init = some s') :
    SameShapeO (exec c s) (exec c' s') :=
  exec_shape h hcs hs hs'

/-- **Questions** commute with translations: paths, edges, frames and the events for a new subscriber. -/
theorem C101_questions (m : PropMap F F' E E') (s : GS F E) (o t : FrameId) :
    getFrames o t (s.trans m) = (getFrames o t s).trans m id ∧
    containsEdge o t (s.trans m) = (containsEdge o t s).trans m id ∧
    getEdgeProperty o t (s.trans m) = (getEdgeProperty o t s).trans m m.edge ∧
    getFrameProperty o (s.trans m) = (getFrameProperty o s).trans m m.frame ∧
    publishCurrentState (s.trans m) = publishCurrentState s ∧ unpublishCurrentState (s.trans m) = unpublishCurrentState s ∧
    GS.copy (s.trans m) = (GS.copy s).map (GS.trans m) :=
  ⟨getFrames_trans m o t s, containsEdge_trans m o t s, getEdgeProperty_trans m o t s, getFrameProperty_trans m o s,
    publishCurrentState_trans m s, unpublishCurrentState_trans m s, copy_trans m s⟩

/-- **Transforms**: for every homomorphism `h` of poses (for example the one to the rotation) the three `getTransform` functions give `h` of the
result for the graph in which all transforms were replaced by their images.  So the rotation of a result depends on the rotations only. -/
theorem C101_transforms {T T' : Type} [Group T] [Group T'] (h : T →* T') (s : GS F (Tf T)) (o t : FrameId) (w : TreeView) (p : Path) :
    getTransform o t (s.trans (PropMap.poses h)) = (getTransform o t s).trans (PropMap.poses h) (Tf.via h) ∧
    getTransformView o t w (s.trans (PropMap.poses h)) = (getTransformView o t w s).trans (PropMap.poses h) (Tf.via h) ∧
    getTransformPath p (s.trans (PropMap.poses h)) = viaPath h (getTransformPath p s) :=
  ⟨getTransform_trans h o t s, getTransformView_trans h o t w s, getTransformPath_trans h p s⟩

namespace C101

/-- frames a, b, c in a row, with a view, a removal and a new value -/
def demo : List (Cmd DemoFrame (Tf DemoPose)) :=
  [.emplaceFrame "a" ⟨"x", 7⟩, .addEdge "a" "b" ⟨5, tn 2⟩, .addEdge "b" "c" ⟨6, sh 3⟩, .getTree "a" true 0, .addEdge "c" "d" ⟨1, sh 1⟩,
    .setEdge "b" "a" ⟨9, tn 4⟩, .removeEdge "c" "d", .removeFrame "c"]

/-- the same calls with numbers on the connections and other data in the frames -/
def demo' : List (Cmd DemoFrame Int) :=
  [.emplaceFrame "a" ⟨"y", 0⟩, .addEdge "a" "b" 10, .addEdge "b" "c" 20, .getTree "a" true 0, .addEdge "c" "d" 30, .setEdge "b" "a" 40,
    .removeEdge "c" "d", .removeFrame "c"]

/-- the turn of a pose, without the shift -/
def direction : DemoPose →* DemoPose where
  toFun p := ⟨p.turn, 0⟩
  map_one' := rfl
  map_mul' a b := by
    show (⟨(DemoPose.mul a b).turn, 0⟩ : DemoPose) = DemoPose.mul ⟨a.turn, 0⟩ ⟨b.turn, 0⟩
    simp [DemoPose.mul]

example : List.Forall₂ Cmd.SameShape demo demo' := by
  unfold demo demo'
  repeat' constructor

/-- both histories end with the same frames, connections, view and events, and the last call throws in both -/
example :
    (run demo init).map (fun s => (s.g.verts.map (fun r => (r.id, r.prop.id)), s.g.edges.map (fun e => (e.src, e.tgt)), (s.views 0).tree.map (fun p => (p.1, p.2.parent, p.2.children)),
        s.trace.map Prod.fst)) =
      (run demo' init).map (fun s => (s.g.verts.map (fun r => (r.id, r.prop.id)), s.g.edges.map (fun e => (e.src, e.tgt)), (s.views 0).tree.map (fun p => (p.1, p.2.parent, p.2.children)),
        s.trace.map Prod.fst)) ∧
    ((run demo.dropLast init).bind fun s => (exec (.removeFrame "c") s).exn?) = some (.frameStillConnected "c") ∧
    ((run demo'.dropLast init).bind fun s => (exec (.removeFrame "c") s).exn?) = some (.frameStillConnected "c") := by
  refine ⟨by rfl, by decide +kernel, by decide +kernel⟩

/-- the direction of the transform from a to c, from the transforms and from their directions -/
example : (run demo init).map (fun s => ((getTransform "a" "c" s).val?.map (fun t => direction t.pose),
      (getTransform "a" "c" (s.trans (PropMap.poses direction))).val?.map (fun t => t.pose))) = some (some ⟨true, 0⟩, some ⟨true, 0⟩) := by decide +kernel

/-- a translation that changes the data of the frames and the unit of the connections -/
def scaled : PropMap DemoFrame DemoFrame Int Int where
  frame p := ⟨p.id, 2 * p.data⟩
  edge x := 1000 * x
  getId _ := rfl
  setId _ _ := rfl
  dflt _ := rfl
  inverse p := by
    show 1000 * -p = -(1000 * p)
    omega

/-- translated before or after the calls -/
example : (run (demo'.map (Cmd.trans scaled)) init).map (fun s => (s.g.verts.map (·.prop), s.g.edges.map (·.prop))) =
      some ([⟨"a", 0⟩, ⟨"b", 0⟩, ⟨"c", 0⟩, ⟨"d", 0⟩], [-40000, 40000, 20000, -20000]) ∧
    (run demo' init).map (fun s => (s.g.verts.map (·.prop), s.g.edges.map (·.prop))) =
      some ([⟨"a", 0⟩, ⟨"b", 0⟩, ⟨"c", 0⟩, ⟨"d", 0⟩], [-40, 40, 20, -20]) := by decide +kernel

end C101

end Verif
