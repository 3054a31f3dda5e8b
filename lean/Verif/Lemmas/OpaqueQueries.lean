import Verif.Lemmas.Opaque
import Verif.Model.Transform
import Mathlib.Algebra.Group.Hom.Defs
set_option linter.unusedSectionVars false
/-! Questions, copies and transforms commute with translations of the properties. -/

namespace Verif
variable {F F' E E' : Type} [FrameProp F] [FrameProp F'] [EdgeProp E] [EdgeProp E'] (m : PropMap F F' E E')

namespace GS

theorem getEdge_trans (o t : FrameId) (s : GS F E) : getEdge o t (s.trans m) = (getEdge o t s).trans m (ERec.trans m) := by
  unfold getEdge
  have h1 : (s.trans m).g = s.g.trans m := rfl
  rw [h1, G.vertexOf_trans, G.vertexOf_trans]
  cases s.g.vertexOf o with
  | none => rfl
  | some vo =>
    cases s.g.vertexOf t with
    | none => rfl
    | some vt =>
      simp only [G.edge_trans]
      cases s.g.edge vo vt <;> rfl

theorem getEdgeProperty_trans (o t : FrameId) (s : GS F E) : getEdgeProperty o t (s.trans m) = (getEdgeProperty o t s).trans m m.edge := by
  unfold getEdgeProperty
  rw [getEdge_trans]
  cases getEdge o t s <;> rfl

theorem getFrameProperty_trans (f : FrameId) (s : GS F E) : getFrameProperty f (s.trans m) = (getFrameProperty f s).trans m m.frame := by
  unfold getFrameProperty
  have h1 : (s.trans m).g = s.g.trans m := rfl
  rw [h1, G.vertexOf_trans]
  cases s.g.vertexOf f with
  | none => rfl
  | some v =>
    simp only [G.findV_trans]
    cases s.g.findV v <;> rfl

theorem containsEdge_trans (o t : FrameId) (s : GS F E) : containsEdge o t (s.trans m) = (containsEdge o t s).trans m id := by
  unfold containsEdge
  have h1 : (s.trans m).g = s.g.trans m := rfl
  rw [h1, G.vertexOf_trans, G.vertexOf_trans]
  cases s.g.vertexOf o with
  | none => rfl
  | some vo =>
    cases s.g.vertexOf t with
    | none => rfl
    | some vt => simp [G.edge_trans, Res.trans]

theorem names_trans (g : G F E) (l : List VId) : l.mapM (fun v => ((g.trans m).findV v).map (fun r => FrameProp.getId r.prop)) =
    l.mapM (fun v => (g.findV v).map (fun r => FrameProp.getId r.prop)) := by
  congr 1
  funext v
  rw [G.findV_trans]
  cases g.findV v <;> simp [m.getId]

theorem getFrames_trans (o t : FrameId) (s : GS F E) : getFrames o t (s.trans m) = (getFrames o t s).trans m id := by
  unfold getFrames
  have h1 : (s.trans m).g = s.g.trans m := rfl
  rw [h1, G.vertexOf_trans, G.vertexOf_trans]
  cases s.g.vertexOf o with
  | none => rfl
  | some vo =>
    cases s.g.vertexOf t with
    | none => rfl
    | some vt =>
      simp only [searchEvents_trans]
      cases searchEvents s.g vo with
      | none => rfl
      | some evs =>
        simp only
        cases searchVisitor vt [] evs with
        | none => rfl
        | some x =>
          cases x with
          | none => rfl
          | some tree =>
            simp only [names_trans]
            cases tree.dropLast.mapM (fun v => (s.g.findV v).map (fun r => FrameProp.getId r.prop)) <;> rfl

theorem publishEdge_trans (g : G F E) (mk : FrameId → FrameId → EId → Event) (st : List EId × List Event) (e : ERec E) :
    publishEdge (g.trans m) mk st (e.trans m) = publishEdge g mk st e := by
  unfold publishEdge
  rw [G.findV_trans, G.findV_trans, G.edge_trans]
  cases g.findV e.src <;> cases g.findV e.tgt <;> cases g.edge e.tgt e.src <;> simp [m.getId]

theorem publishCurrentState_trans (s : GS F E) : publishCurrentState (s.trans m) = publishCurrentState s := by
  unfold publishCurrentState
  have h1 : (s.trans m).g = s.g.trans m := rfl
  have h2 : (s.g.trans m).verts.map (fun r => Event.frameAdded (FrameProp.getId r.prop)) =
      s.g.verts.map (fun r => Event.frameAdded (FrameProp.getId r.prop)) := by simp [G.trans, List.map_map, Function.comp_def, m.getId]
  have h3 : ∀ mk st, (s.g.trans m).edges.foldlM (publishEdge (s.g.trans m) mk) st = s.g.edges.foldlM (publishEdge s.g mk) st := by
    intro mk st
    have : (s.g.trans m).edges = s.g.edges.map (ERec.trans m) := rfl
    rw [this, List.foldlM_map]
    simp only [publishEdge_trans]
  rw [h1, h2, h3]

theorem unpublishCurrentState_trans (s : GS F E) : unpublishCurrentState (s.trans m) = unpublishCurrentState s := by
  unfold unpublishCurrentState
  have h1 : (s.trans m).g = s.g.trans m := rfl
  have h2 : (s.g.trans m).verts.map (fun r => Event.frameRemoved (FrameProp.getId r.prop)) =
      s.g.verts.map (fun r => Event.frameRemoved (FrameProp.getId r.prop)) := by simp [G.trans, List.map_map, Function.comp_def, m.getId]
  have h3 : ∀ mk st, (s.g.trans m).edges.foldlM (publishEdge (s.g.trans m) mk) st = s.g.edges.foldlM (publishEdge s.g mk) st := by
    intro mk st
    have : (s.g.trans m).edges = s.g.edges.map (ERec.trans m) := rfl
    rw [this, List.foldlM_map]
    simp only [publishEdge_trans]
  rw [h1, h2, h3]

end GS

/-! ### Copies -/

namespace G

theorem copyVert_trans (n : Nat) (st : G F E × AMap Nat VId) (r : VRec F) :
    copyVert n (st.1.trans m, st.2) (r.trans m) = (copyVert n st r).map (fun x => (x.1.trans m, x.2)) := by
  unfold copyVert
  simp only
  split <;> simp [trans]

theorem copyVerts_trans (n : Nat) (rs : List (VRec F)) : ∀ st : G F E × AMap Nat VId,
    (rs.map (VRec.trans m)).foldlM (copyVert n) (st.1.trans m, st.2) = (rs.foldlM (copyVert n) st).map (fun x => (x.1.trans m, x.2)) := by
  induction rs with
  | nil => intro st; rfl
  | cons r rs ih =>
    intro st
    rw [List.map_cons, List.foldlM_cons, List.foldlM_cons, copyVert_trans]
    cases copyVert n st r with
    | none => rfl
    | some st' => exact ih st'

theorem copyEdge_trans (g h : G F E) (mp : AMap Nat VId) (e : ERec E) :
    copyEdge (g.trans m) mp (h.trans m) (e.trans m) = (copyEdge g mp h e).map (G.trans m) := by
  unfold copyEdge
  rw [findV_trans, findV_trans]
  cases g.findV e.src with
  | none => rfl
  | some rs =>
    cases g.findV e.tgt with
    | none => rfl
    | some rt =>
      simp only [Option.map_some]
      cases mp.get rs.idx with
      | none => rfl
      | some u =>
        cases mp.get rt.idx with
        | none => rfl
        | some v => simp [addEdge_trans]

theorem copyEdges_trans (g : G F E) (mp : AMap Nat VId) (es : List (ERec E)) : ∀ h : G F E,
    (es.map (ERec.trans m)).foldlM (copyEdge (g.trans m) mp) (h.trans m) = (es.foldlM (copyEdge g mp) h).map (G.trans m) := by
  induction es with
  | nil => intro h; rfl
  | cons e es ih =>
    intro h
    rw [List.map_cons, List.foldlM_cons, List.foldlM_cons, copyEdge_trans]
    cases copyEdge g mp h e with
    | none => rfl
    | some h' => exact ih h'

theorem copyGraph_trans (g : G F E) : (g.trans m).copyGraph = g.copyGraph.map (G.trans m) := by
  unfold copyGraph
  have h1 : (g.trans m).verts = g.verts.map (VRec.trans m) := rfl
  have h2 : (g.trans m).edges = g.edges.map (ERec.trans m) := rfl
  by_cases h : g.verts = []
  · rw [if_pos h, if_pos (by rw [h1, h]; rfl)]
    rfl
  · rw [if_neg h, if_neg (by rw [h1]; simpa using h)]
    have := copyVerts_trans m g.verts.length g.verts ((G.empty, []) : G F E × AMap Nat VId)
    rw [h1, List.length_map]
    have he : ((G.empty : G F E).trans m) = G.empty := rfl
    rw [he] at this
    rw [this]
    cases g.verts.foldlM (copyVert g.verts.length) ((G.empty, []) : G F E × AMap Nat VId) with
    | none => rfl
    | some st => simp only [Option.map_some]; rw [h2]; exact copyEdges_trans m g st.2 g.edges st.1

theorem regenerateLabelMap_trans (g : G F E) : (g.trans m).regenerateLabelMap = g.regenerateLabelMap.trans m := by
  unfold regenerateLabelMap
  simp [trans, List.foldl_map, m.getId]

end G

theorem GS.copy_trans (s : GS F E) : GS.copy (s.trans m) = (GS.copy s).map (GS.trans m) := by
  unfold GS.copy
  have h1 : (s.trans m).g = s.g.trans m := rfl
  rw [h1, G.copyGraph_trans]
  cases s.g.copyGraph with
  | none => rfl
  | some g => simp [G.regenerateLabelMap_trans, GS.trans]

/-! ### Transforms -/

variable {T T' : Type} [Group T] [Group T']

/-- translation of transforms by a homomorphism, for example to the rotation -/
def Tf.via (h : T →* T') (a : Tf T) : Tf T' := ⟨a.time, h a.pose⟩

/-- translate only the transforms -/
def PropMap.poses (h : T →* T') : PropMap F F (Tf T) (Tf T') where
  frame := id
  edge := Tf.via h
  getId _ := rfl
  setId _ _ := rfl
  dflt _ := rfl
  inverse p := by
    show Tf.via h (Tf.inverse p) = Tf.inverse (Tf.via h p)
    simp [Tf.via, Tf.inverse]

namespace GS
variable (h : T →* T')

theorem mulPath_trans (g : G F (Tf T)) (l : List VId) : ∀ acc : T,
    mulPath (g.trans (PropMap.poses h)) (h acc) l = (mulPath g acc l).map h := by
  induction l with
  | nil => intro acc; rfl
  | cons u l ih =>
    intro acc
    cases l with
    | nil => rfl
    | cons v l =>
      simp only [mulPath, G.edge_trans]
      cases g.edge u v with
      | none => rfl
      | some e =>
        have := ih (acc * e.prop.pose)
        rw [map_mul] at this
        exact this

theorem unknownTransform_trans {α β : Type} (k : α → β) (u v : VId) (s : GS F (Tf T)) :
    unknownTransform u v (s.trans (PropMap.poses h)) = (unknownTransform u v s).trans (PropMap.poses h) k := by
  unfold unknownTransform
  have h1 : (s.trans (PropMap.poses h)).g = s.g.trans (PropMap.poses h) := rfl
  rw [h1, G.findV_trans, G.findV_trans]
  cases s.g.findV u <;> cases s.g.findV v <;> rfl

theorem getTransformV_trans (u v : VId) (s : GS F (Tf T)) :
    getTransformV u v (s.trans (PropMap.poses h)) = (getTransformV u v s).trans (PropMap.poses h) (Tf.via h) := by
  unfold getTransformV
  have h1 : (s.trans (PropMap.poses h)).g = s.g.trans (PropMap.poses h) := rfl
  have h2 : (s.g.trans (PropMap.poses h)).edges.length = s.g.edges.length := by simp [G.trans]
  rw [h1, h2, G.edge_trans, searchEvents_trans, unknownTransform_trans h (Tf.via h)]
  split
  · rfl
  · cases s.g.edge u v with
    | some e => rfl
    | none =>
      simp only [Option.map_none]
      cases searchEvents s.g u with
      | none => rfl
      | some evs =>
        simp only
        cases searchVisitor v [] evs with
        | none => rfl
        | some x =>
          cases x with
          | none => rfl
          | some tree =>
            have := mulPath_trans h s.g tree 1
            rw [map_one] at this
            simp only [this]
            cases mulPath s.g 1 tree <;> rfl

theorem getTransform_trans (o t : FrameId) (s : GS F (Tf T)) :
    getTransform o t (s.trans (PropMap.poses h)) = (getTransform o t s).trans (PropMap.poses h) (Tf.via h) := by
  unfold getTransform
  have h1 : (s.trans (PropMap.poses h)).g = s.g.trans (PropMap.poses h) := rfl
  rw [h1, G.vertexOf_trans, G.vertexOf_trans]
  cases s.g.vertexOf o with
  | none => rfl
  | some u =>
    cases s.g.vertexOf t with
    | none => rfl
    | some v => exact getTransformV_trans h u v s

theorem tfToRoot_trans (w : TreeView) (s : GS F (Tf T)) (n : Nat) : ∀ (od : Option VId) (acc : T),
    tfToRoot w (s.trans (PropMap.poses h)) n od (h acc) = (tfToRoot w s n od acc).trans (PropMap.poses h) h := by
  have h1 : (s.trans (PropMap.poses h)).g = s.g.trans (PropMap.poses h) := rfl
  induction n with
  | zero =>
    intro od acc
    rw [tfToRoot.eq_def, tfToRoot.eq_def]
    simp only
    split
    · rfl
    · cases w.getParent od <;> rfl
  | succ n ih =>
    intro od acc
    rw [tfToRoot.eq_def, tfToRoot.eq_def]
    simp only
    split
    · rfl
    · cases w.getParent od with
      | throw x s' => rfl
      | ub r => rfl
      | ok p s' =>
        simp only [h1]
        cases od with
        | none => rfl
        | some d =>
          simp only [Option.bind_some, G.findV_trans]
          cases s.g.findV d with
          | none => rfl
          | some r =>
            simp only [Option.map_some]
            cases p with
            | none => exact ih _ _
            | some p =>
              simp only [Option.bind_some, G.edge_trans]
              cases s.g.edge r.id p with
              | none => exact ih _ _
              | some e =>
                have := ih (some p) (acc * e.prop.pose)
                rw [map_mul] at this
                exact this

theorem getTransformView_trans (o t : FrameId) (w : TreeView) (s : GS F (Tf T)) :
    getTransformView o t w (s.trans (PropMap.poses h)) = (getTransformView o t w s).trans (PropMap.poses h) (Tf.via h) := by
  unfold getTransformView
  have h1 : (s.trans (PropMap.poses h)).g = s.g.trans (PropMap.poses h) := rfl
  rw [h1, G.vertexOf_trans, G.vertexOf_trans]
  cases s.g.vertexOf o with
  | none => rfl
  | some u =>
    cases s.g.vertexOf t with
    | none => rfl
    | some v =>
      simp only
      unfold getTransformViewV
      split
      · simp [Res.trans, Tf.ident, Tf.via]
      · have e1 := tfToRoot_trans h w s (w.tree.length + 1) (some u) 1
        have e2 := tfToRoot_trans h w s (w.tree.length + 1) (some v) 1
        rw [map_one] at e1 e2
        rw [e1, e2]
        cases tfToRoot w s (w.tree.length + 1) (some u) 1 with
        | throw x s' => rfl
        | ub r => rfl
        | ok a s' =>
          simp only [Res.trans]
          cases tfToRoot w s (w.tree.length + 1) (some v) 1 with
          | throw x s' => rfl
          | ub r => rfl
          | ok b s' => simp [Res.trans, Tf.via]

/-- a result on a path -/
def viaPath (h : T →* T') : Res Path (Tf T) → Res Path (Tf T')
  | .ok a p => .ok (a.via h) p
  | .throw x p => .throw x p
  | .ub r => .ub r

theorem mulSteps_trans (s : GS F (Tf T)) (l : List FrameId) : ∀ (acc : Tf T) (f : FrameId),
    mulSteps (s.trans (PropMap.poses h)) (acc.via h) f l = (mulSteps s acc f l).trans (PropMap.poses h) (Tf.via h) := by
  induction l with
  | nil => intro acc f; rfl
  | cons f' l ih =>
    intro acc f
    simp only [mulSteps, getTransform_trans]
    cases getTransform f f' s with
    | throw x s' => rfl
    | ub r => rfl
    | ok t s' =>
      have := ih { acc with pose := acc.pose * t.pose } f'
      simp only [Tf.via, map_mul] at this
      exact this

theorem pathProduct_trans (p : Path) (s : GS F (Tf T)) : pathProduct p (s.trans (PropMap.poses h)) = viaPath h (pathProduct p s) := by
  unfold pathProduct
  cases p.frames with
  | nil => rfl
  | cons f0 l =>
    cases l with
    | nil => rfl
    | cons f1 l =>
      simp only [getTransform_trans]
      cases getTransform f0 f1 s with
      | throw x s' => rfl
      | ub r => rfl
      | ok t s' =>
        simp only [Res.trans, mulSteps_trans]
        cases mulSteps s t f1 l <;> rfl

theorem getTransformPath_trans (p : Path) (s : GS F (Tf T)) :
    getTransformPath p (s.trans (PropMap.poses h)) = viaPath h (getTransformPath p s) := by
  unfold getTransformPath
  split
  · simp [viaPath, Tf.ident, Tf.via]
  · split
    · cases p.getOrigin with
      | throw x _ => rfl
      | ub r => rfl
      | ok o _ =>
        cases p.getTarget with
        | throw x _ => rfl
        | ub r => rfl
        | ok t _ =>
          simp only [getFrames_trans]
          cases getFrames o t s with
          | throw x _ => rfl
          | ub r => rfl
          | ok l _ =>
            simp only [Res.trans, id]
            split
            · rfl
            · exact pathProduct_trans h _ s
    · exact pathProduct_trans h p s

end GS
end Verif
