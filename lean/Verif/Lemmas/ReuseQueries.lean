import Verif.Lemmas.ReuseRun
import Verif.Model.Transform

set_option linter.unusedSectionVars false
/-! Queries by frame names do not depend on addresses. -/

namespace Verif
open Equiv
variable {π : Perm VId} {ρ : Perm EId}

/-- maps between vertices -/
def parentRen (π : Perm VId) (m : AMap VId VId) : AMap VId VId := m.map fun p => (π p.1, π p.2)

theorem get_parentRen (m : AMap VId VId) (v : VId) : AMap.get (parentRen π m) (π v) = (AMap.get m v).map π := by
  induction m with
  | nil => rfl
  | cons x m ih =>
    obtain ⟨k, b⟩ := x
    simp only [parentRen, List.map_cons] at ih ⊢
    simp only [AMap.get_cons, ih, EmbeddingLike.apply_eq_iff_eq]
    split <;> rfl

theorem insertNew_parentRen (m : AMap VId VId) (a b : VId) :
    AMap.insertNew (parentRen π m) (π a) (π b) = parentRen π (AMap.insertNew m a b) := by
  unfold AMap.insertNew
  rw [get_parentRen]
  cases AMap.get m a with
  | none => simp [parentRen]
  | some _ => simp

theorem walkParents_ren (m : AMap VId VId) (n : Nat) : ∀ (v : VId) (l : List VId),
    walkParents (parentRen π m) n (π v) (l.map π) = (walkParents m n v l).map (List.map π) := by
  induction n with
  | zero => intro v l; rfl
  | succ n ih =>
    intro v l
    simp only [walkParents, get_parentRen]
    cases AMap.get m v with
    | none => rfl
    | some p => exact ih p (v :: l)

theorem searchVisitor_ren (t : VId) (evs : List BfsEv) : ∀ m : AMap VId VId,
    searchVisitor (π t) (parentRen π m) (evs.map (BfsEv.ren π ρ)) = (searchVisitor t m evs).map (Option.map (List.map π)) := by
  induction evs with
  | nil => intro m; rfl
  | cons e evs ih =>
    intro m
    cases e with
    | discover v =>
      simp only [List.map_cons, BfsEv.ren, searchVisitor, EmbeddingLike.apply_eq_iff_eq]
      split
      · have hl : (parentRen π m).length = m.length := by simp [parentRen]
        rw [hl, Option.map_some, ← walkParents_ren]
        rfl
      · exact ih m
    | treeEdge a =>
      simp only [List.map_cons, BfsEv.ren, searchVisitor, G.arcRen, insertNew_parentRen]
      exact ih _
    | grayTarget a => exact ih m
    | blackTarget a => exact ih m

namespace GS
variable {F E T : Type} [FrameProp F] [EdgeProp E] [Group T] {K : Nat → Prop}

theorem name_ren (g : G F E) (v : VId) :
    ((g.ren π ρ).findV (π v)).map (fun r => FrameProp.getId r.prop) = (g.findV v).map (fun r => FrameProp.getId r.prop) := by
  rw [G.findV_ren]
  cases g.findV v <;> rfl

theorem mapM_names_ren (g : G F E) (l : List VId) :
    (l.map π).mapM (fun v => ((g.ren π ρ).findV v).map (fun r => FrameProp.getId r.prop)) =
      l.mapM (fun v => (g.findV v).map (fun r => FrameProp.getId r.prop)) := by
  induction l with
  | nil => rfl
  | cons v l ih => simp only [List.map_cons, List.mapM_cons, ih, name_ren]

theorem containsFrame_ren {s s' : GS F E} (h : Alike K π ρ s s') (f : FrameId) : containsFrame f s' = containsFrame f s := by
  simp only [containsFrame, h.g, G.vertexOf_ren, Option.isSome_map]

theorem getFrameProperty_ren {s s' : GS F E} (h : Alike K π ρ s s') (f : FrameId) :
    SameAnswer (getFrameProperty f s) (getFrameProperty f s') := by
  simp only [getFrameProperty, h.g, G.vertexOf_ren]
  cases s.g.vertexOf f with
  | none => exact .throw ..
  | some v =>
    simp only [Option.map_some, G.findV_ren]
    cases s.g.findV v with
    | none => exact .ub _
    | some r => exact .ok ..

theorem getEdgeProperty_ren {s s' : GS F E} (h : Alike K π ρ s s') (o t : FrameId) :
    SameAnswer (getEdgeProperty o t s) (getEdgeProperty o t s') := by
  simp only [getEdgeProperty, getEdge, h.g, G.vertexOf_ren]
  cases s.g.vertexOf o with
  | none => exact .throw ..
  | some u =>
    simp only [Option.map_some]
    cases s.g.vertexOf t with
    | none => exact .throw ..
    | some v =>
      simp only [Option.map_some, G.edge_ren]
      cases s.g.edge u v with
      | none => exact .throw ..
      | some e => exact .ok ..

theorem containsEdge_ren {s s' : GS F E} (h : Alike K π ρ s s') (o t : FrameId) :
    SameAnswer (containsEdge o t s) (containsEdge o t s') := by
  simp only [containsEdge, h.g, G.vertexOf_ren]
  cases s.g.vertexOf o with
  | none => exact .throw ..
  | some u =>
    simp only [Option.map_some]
    cases s.g.vertexOf t with
    | none => exact .throw ..
    | some v =>
      simp only [Option.map_some, G.edge_ren, Option.isSome_map]
      exact .ok ..

theorem getFrames_ren {s s' : GS F E} (h : Alike K π ρ s s') (o t : FrameId) : SameAnswer (getFrames o t s) (getFrames o t s') := by
  simp only [getFrames, h.g, G.vertexOf_ren]
  cases s.g.vertexOf o with
  | none => exact .throw ..
  | some u =>
    simp only [Option.map_some]
    cases s.g.vertexOf t with
    | none => exact .throw ..
    | some v =>
      simp only [Option.map_some, searchEvents_ren]
      cases searchEvents s.g u with
      | none => exact .ub _
      | some evs =>
        have hs := searchVisitor_ren (π := π) (ρ := ρ) v evs []
        simp only [parentRen, List.map_nil] at hs
        simp only [Option.map_some, hs]
        cases searchVisitor v [] evs with
        | none => exact .ok ..
        | some r =>
          cases r with
          | none => exact .ub _
          | some tree =>
            simp only [Option.map_some, ← List.map_dropLast, mapM_names_ren]
            cases tree.dropLast.mapM (fun v => (s.g.findV v).map (fun r => FrameProp.getId r.prop)) with
            | none => exact .ub _
            | some path => exact .ok ..

theorem mulPath_ren (g : G F (Tf T)) : ∀ (l : List VId) (acc : T), mulPath (g.ren π ρ) acc (l.map π) = mulPath g acc l
  | [], _ => rfl
  | [_], _ => rfl
  | u :: v :: l, acc => by
    simp only [List.map_cons, mulPath, G.edge_ren]
    cases g.edge u v with
    | none => rfl
    | some e => exact mulPath_ren g (v :: l) _

theorem unknownTransform_ren {α : Type} {s s' : GS F (Tf T)} (h : Alike K π ρ s s') (u v : VId) :
    SameAnswer (unknownTransform (α := α) u v s) (unknownTransform (π u) (π v) s') := by
  simp only [unknownTransform, h.g, G.findV_ren]
  cases s.g.findV u with
  | none => exact .ub _
  | some a =>
    cases s.g.findV v with
    | none => exact .ub _
    | some b => exact .throw ..

theorem getTransform_ren {s s' : GS F (Tf T)} (h : Alike K π ρ s s') (o t : FrameId) :
    SameAnswer (getTransform o t s) (getTransform o t s') := by
  have hg := h.g
  have hl : s'.g.edges.length = s.g.edges.length := by rw [hg]; simp [G.ren]
  unfold getTransform
  rw [hg]
  simp only [G.vertexOf_ren]
  cases s.g.vertexOf o with
  | none => exact .throw ..
  | some u =>
    simp only [Option.map_some]
    cases s.g.vertexOf t with
    | none => exact .throw ..
    | some v =>
      simp only [Option.map_some, getTransformV, hl]
      split
      · exact unknownTransform_ren h u v
      · rw [hg]
        simp only [G.edge_ren]
        cases s.g.edge u v with
        | some e => exact .ok ..
        | none =>
          simp only [Option.map_none, searchEvents_ren]
          cases searchEvents s.g u with
          | none => exact .ub _
          | some evs =>
            have hs := searchVisitor_ren (π := π) (ρ := ρ) v evs []
            simp only [parentRen, List.map_nil] at hs
            simp only [Option.map_some, hs]
            cases searchVisitor v [] evs with
            | none => exact unknownTransform_ren h u v
            | some r =>
              cases r with
              | none => exact .ub _
              | some tree =>
                simp only [Option.map_some, mulPath_ren]
                cases mulPath s.g 1 tree with
                | none => exact .ub _
                | some x => exact .ok ..

theorem publishEdge_ren (g : G F E) (mk mk' : FrameId → FrameId → EId → Event) (hmk : ∀ o t e, mk' o t (ρ e) = (mk o t e).ren ρ)
    (es : List (ERec E)) : ∀ st : List EId × List Event,
    (es.map (ERec.ren π ρ)).foldlM (publishEdge (g.ren π ρ) mk') (st.1.map ρ, st.2.map (Event.ren ρ)) =
      (es.foldlM (publishEdge g mk) st).map fun st => (st.1.map ρ, st.2.map (Event.ren ρ)) := by
  induction es with
  | nil => intro st; rfl
  | cons e es ih =>
    intro st
    have h1 : publishEdge (g.ren π ρ) mk' (st.1.map ρ, st.2.map (Event.ren ρ)) (e.ren π ρ) =
        (publishEdge g mk st e).map fun st => (st.1.map ρ, st.2.map (Event.ren ρ)) := by
      unfold publishEdge
      have hm : ρ e.id ∈ st.1.map ρ ↔ e.id ∈ st.1 := by simp
      simp only [ERec.ren, hm, G.findV_ren, G.edge_ren]
      split
      · rfl
      · cases g.findV e.src with
        | none => rfl
        | some a =>
          cases g.findV e.tgt with
          | none => rfl
          | some b =>
            cases g.edge e.tgt e.src with
            | none => rfl
            | some c => simp [hmk, VRec.ren, ERec.ren]
    simp only [List.map_cons, List.foldlM_cons, h1]
    cases publishEdge g mk st e with
    | none => rfl
    | some st1 => exact ih st1

theorem publishCurrentState_ren {s s' : GS F E} (h : Alike K π ρ s s') :
    publishCurrentState s' = (publishCurrentState s).map (List.map (Event.ren ρ)) := by
  have := publishEdge_ren (π := π) (ρ := ρ) s.g (fun o t e => Event.edgeAdded o t e) (fun o t e => .edgeAdded o t e) (fun _ _ _ => rfl) s.g.edges ([], [])
  simp only [List.map_nil] at this
  simp only [publishCurrentState, h.g]
  have e : (s.g.ren π ρ).edges = s.g.edges.map (ERec.ren π ρ) := rfl
  rw [e, this]
  cases s.g.edges.foldlM (publishEdge s.g fun o t e => .edgeAdded o t e) ([], []) with
  | none => rfl
  | some st => simp [G.ren, VRec.ren, Event.ren, Function.comp_def]

theorem unpublishCurrentState_ren {s s' : GS F E} (h : Alike K π ρ s s') :
    unpublishCurrentState s' = (unpublishCurrentState s).map (List.map (Event.ren ρ)) := by
  have := publishEdge_ren (π := π) (ρ := ρ) s.g (fun o t _ => Event.edgeRemoved o t) (fun o t _ => .edgeRemoved o t) (fun _ _ _ => rfl) s.g.edges ([], [])
  simp only [List.map_nil] at this
  simp only [unpublishCurrentState, h.g]
  have e : (s.g.ren π ρ).edges = s.g.edges.map (ERec.ren π ρ) := rfl
  rw [e, this]
  cases s.g.edges.foldlM (publishEdge s.g fun o t _ => .edgeRemoved o t) ([], []) with
  | none => rfl
  | some st => simp [G.ren, VRec.ren, Event.ren, Function.comp_def]

end GS
end Verif
