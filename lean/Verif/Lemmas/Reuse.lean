import Verif.Spec.Reuse
import Verif.Lemmas.Steps
set_option linter.unusedSectionVars false
/-! All functions of the graph that create nothing give the same results up to the addresses. -/

namespace Verif
open Equiv
variable {F E : Type}

theorem decide_perm (π : Perm VId) (a b : VId) : decide (π a = π b) = decide (a = b) := by simp

namespace AMap

theorem get_labelsRen (π : Perm VId) (m : AMap FrameId VId) (f : FrameId) : AMap.get (m.map fun p => (p.1, π p.2)) f = (m.get f).map π := by
  induction m with
  | nil => rfl
  | cons x m ih => obtain ⟨k, v⟩ := x; simp only [List.map_cons, get]; split <;> simp [ih]

theorem erase_labelsRen (π : Perm VId) (m : AMap FrameId VId) (f : FrameId) :
    AMap.erase (m.map fun p => (p.1, π p.2)) f = (m.erase f).map fun p => (p.1, π p.2) := by
  simp [erase, List.filter_map, Function.comp_def]

theorem get_treeRen (π : Perm VId) (m : AMap VId VRel) (v : VId) : AMap.get (treeRen π m) (π v) = (m.get v).map (VRel.ren π) := by
  unfold treeRen
  induction m with
  | nil => rfl
  | cons x m ih =>
    obtain ⟨k, r⟩ := x
    simp only [List.map_cons, get, EmbeddingLike.apply_eq_iff_eq]
    split <;> simp [ih]

theorem set_treeRen (π : Perm VId) (m : AMap VId VRel) (v : VId) (r : VRel) :
    AMap.set (treeRen π m) (π v) (r.ren π) = treeRen π (m.set v r) := by
  unfold treeRen
  induction m with
  | nil => rfl
  | cons x m ih =>
    obtain ⟨k, q⟩ := x
    simp only [List.map_cons, set, EmbeddingLike.apply_eq_iff_eq]
    split
    · simp
    · simp only [ih, List.map_cons]

theorem erase_treeRen (π : Perm VId) (m : AMap VId VRel) (v : VId) : AMap.erase (treeRen π m) (π v) = treeRen π (m.erase v) := by
  simp [erase, treeRen, List.filter_map, Function.comp_def]

end AMap

/-! ### The Boost graph -/

namespace G
variable (π : Perm VId) (ρ : Perm EId)

theorem vertexOf_ren (g : G F E) (f : FrameId) : (g.ren π ρ).vertexOf f = (g.vertexOf f).map π := AMap.get_labelsRen π _ f

theorem findV_ren (g : G F E) (v : VId) : (g.ren π ρ).findV (π v) = (g.findV v).map (VRec.ren π) := by
  simp only [findV, ren, List.find?_map, Function.comp_def, VRec.ren, EmbeddingLike.apply_eq_iff_eq]

theorem outEdges_ren (g : G F E) (u : VId) : (g.ren π ρ).outEdges (π u) = (g.outEdges u).map (ERec.ren π ρ) := by
  simp only [outEdges, ren, List.filter_map, Function.comp_def, ERec.ren, EmbeddingLike.apply_eq_iff_eq]

theorem edge_ren (g : G F E) (u v : VId) : (g.ren π ρ).edge (π u) (π v) = (g.edge u v).map (ERec.ren π ρ) := by
  simp only [edge, outEdges_ren, List.find?_map, Function.comp_def]
  simp only [ERec.ren, EmbeddingLike.apply_eq_iff_eq]

theorem degree_ren (g : G F E) (v : VId) : (g.ren π ρ).degree (π v) = g.degree v := by
  simp [degree, ren, List.filter_map, Function.comp_def, ERec.ren]

theorem removeEdge_ren (g : G F E) (e : EId) : (g.ren π ρ).removeEdge (ρ e) = (g.removeEdge e).map (G.ren π ρ) := by
  unfold removeEdge
  have : (g.ren π ρ).edges.any (fun r => decide (r.id = ρ e)) = g.edges.any (fun r => decide (r.id = e)) := by
    simp [ren, ERec.ren, List.any_map, Function.comp_def]
  rw [this]
  split
  · simp only [Option.map_some, ren, List.filter_map, Function.comp_def]
    congr 3
    refine List.filter_congr (fun r _ => ?_)
    simp [ERec.ren]
  · rfl

theorem setProp_ren (g : G F E) (e : EId) (p : E) : (g.ren π ρ).setProp (ρ e) p = (g.setProp e p).ren π ρ := by
  simp only [setProp, ren, List.map_map, Function.comp_def]
  congr 1
  refine List.map_congr_left (fun r _ => ?_)
  by_cases h : r.id = e
  · simp [ERec.ren, h]
  · simp [ERec.ren, h]

theorem removeVertex_ren (g : G F E) (v : VId) (f : FrameId) : (g.ren π ρ).removeVertex (π v) f = (g.removeVertex v f).ren π ρ := by
  simp only [removeVertex, ren, List.filter_map, Function.comp_def, AMap.erase_labelsRen]
  congr 2
  refine List.filter_congr (fun r _ => ?_)
  simp [VRec.ren]

/-- arcs -/
def arcRen (a : Arc) : Arc := ⟨ρ a.id, π a.src, π a.tgt⟩

theorem outArcs_ren (g : G F E) (u : VId) : (g.ren π ρ).outArcs (π u) = (g.outArcs u).map (arcRen π ρ) := by
  simp [outArcs, outEdges_ren, List.map_map, Function.comp_def, ERec.arc, ERec.ren, arcRen]

end G

/-! ### The search -/

section search
variable (π : Perm VId) (ρ : Perm EId)

/-- callbacks -/
def BfsEv.ren : BfsEv → BfsEv
  | .discover v => .discover (π v)
  | .treeEdge a => .treeEdge (G.arcRen π ρ a)
  | .grayTarget a => .grayTarget (G.arcRen π ρ a)
  | .blackTarget a => .blackTarget (G.arcRen π ρ a)

/-- state of the search -/
def BfsSt.ren (s : BfsSt) : BfsSt := ⟨fun x => s.color (π.symm x), s.queue.map π, s.evs.map (BfsEv.ren π ρ)⟩

theorem bfsArc_ren (s : BfsSt) (a : Arc) : bfsArc (s.ren π ρ) (G.arcRen π ρ a) = (bfsArc s a).ren π ρ := by
  have hc : (s.ren π ρ).color (G.arcRen π ρ a).tgt = s.color a.tgt := by simp [BfsSt.ren, G.arcRen]
  unfold bfsArc
  rw [hc]
  cases s.color a.tgt with
  | white =>
    simp only [BfsSt.ren, G.arcRen, List.map_append, List.map_cons, List.map_nil, BfsEv.ren]
    congr 1
    funext x
    by_cases h : x = π a.tgt
    · simp [h]
    · have : ¬ π.symm x = a.tgt := fun e => h (by rw [← e]; simp)
      simp [h, this]
  | gray => simp [BfsSt.ren, BfsEv.ren]
  | black => simp [BfsSt.ren, BfsEv.ren]

theorem bfsScan_ren (as : List Arc) : ∀ s : BfsSt, bfsScan (s.ren π ρ) (as.map (G.arcRen π ρ)) = (bfsScan s as).ren π ρ := by
  induction as with
  | nil => intro s; rfl
  | cons a as ih =>
    intro s
    simp only [bfsScan, List.map_cons, List.foldl_cons, bfsArc_ren]
    exact ih _

theorem bfsLoop_ren {out out' : VId → List Arc} (h : ∀ u, out' (π u) = (out u).map (G.arcRen π ρ)) (n : Nat) :
    ∀ s : BfsSt, bfsLoop out' n (s.ren π ρ) = (bfsLoop out n s).map (BfsSt.ren π ρ) := by
  induction n with
  | zero =>
    intro s
    rw [bfsLoop.eq_def, bfsLoop.eq_def]
    cases hq : s.queue <;> simp [BfsSt.ren, hq]
  | succ n ih =>
    intro s
    rw [bfsLoop.eq_def, bfsLoop.eq_def]
    cases hq : s.queue with
    | nil => simp [BfsSt.ren, hq]
    | cons u q =>
      have hq' : (s.ren π ρ).queue = π u :: q.map π := by simp [BfsSt.ren, hq]
      simp only [hq', hq]
      have h1 : ({ s.ren π ρ with queue := q.map π } : BfsSt) = ({ s with queue := q } : BfsSt).ren π ρ := rfl
      rw [h1, h u, bfsScan_ren]
      rw [← ih]
      congr 1
      simp only [BfsSt.ren]
      congr 1
      funext x
      by_cases hx : x = π u
      · simp [hx]
      · have : ¬ π.symm x = u := fun e => hx (by rw [← e]; simp)
        simp [hx, this]

theorem bfs_ren {out out' : VId → List Arc} (h : ∀ u, out' (π u) = (out u).map (G.arcRen π ρ)) (n : Nat) (r : VId) :
    bfs out' n (π r) = (bfs out n r).map (List.map (BfsEv.ren π ρ)) := by
  have : bfsInit (π r) = (bfsInit r).ren π ρ := by
    simp only [bfsInit, BfsSt.ren, List.map_cons, List.map_nil, BfsEv.ren]
    congr 1
    funext x
    by_cases hx : x = π r
    · simp [hx]
    · have : ¬ π.symm x = r := fun e => hx (by rw [← e]; simp)
      simp [hx, this]
  unfold bfs
  rw [this, bfsLoop_ren π ρ h]
  simp [Option.map_map, Function.comp_def, BfsSt.ren]

theorem searchEvents_ren (g : G F E) (r : VId) :
    GS.searchEvents (g.ren π ρ) (π r) = (GS.searchEvents g r).map (List.map (BfsEv.ren π ρ)) := by
  unfold GS.searchEvents
  have : (g.ren π ρ).verts.length = g.verts.length := by simp [G.ren]
  rw [this]
  exact bfs_ren π ρ (G.outArcs_ren π ρ g) _ r

theorem searchEventsFiltered_ren (g : G F E) (e1 e2 : EId) (r : VId) :
    GS.searchEventsFiltered (g.ren π ρ) (ρ e1) (ρ e2) (π r) = (GS.searchEventsFiltered g e1 e2 r).map (List.map (BfsEv.ren π ρ)) := by
  unfold GS.searchEventsFiltered
  have : (g.ren π ρ).verts.length = g.verts.length := by simp [G.ren]
  rw [this]
  refine bfs_ren π ρ (fun u => ?_) _ r
  rw [G.outArcs_ren, List.filter_map]
  congr 1
  refine List.filter_congr (fun a _ => ?_)
  simp [G.arcRen]

end search

/-! ### Tree views -/

namespace TreeView
variable {π : Perm VId} {ρ : Perm EId}

theorem Alike.relOf {w w' : TreeView} (h : Alike π ρ w w') (v : VId) : w'.relOf (π v) = (w.relOf v).ren π := by
  unfold TreeView.relOf
  rw [h.tree, AMap.get_treeRen]
  cases w.tree.get v <;> rfl

theorem setInsert_ren (l : List VId) (v : VId) : setInsert (l.map π) (π v) = (setInsert l v).map π := by
  unfold setInsert
  by_cases h : v ∈ l
  · simp [h]
  · simp [h]

theorem Alike.vertexExists {w w' : TreeView} (h : Alike π ρ w w') (v : VId) : w'.vertexExists (π v) = w.vertexExists v := by
  simp [TreeView.vertexExists, h.tree, AMap.get_treeRen]

theorem parent_ren (r : VRel) (b : VId) : (r.ren π).parent = some (π b) ↔ r.parent = some b := by
  cases hp : r.parent <;> simp [VRel.ren, hp]

theorem Alike.edgeExists {w w' : TreeView} (h : Alike π ρ w w') (a b : VId) : w'.edgeExists (π a) (π b) = w.edgeExists a b := by
  unfold TreeView.edgeExists
  rw [h.tree, AMap.get_treeRen, AMap.get_treeRen]
  cases w.tree.get a with
  | none => cases w.tree.get b <;> rfl
  | some ra =>
    cases w.tree.get b with
    | none => rfl
    | some rb =>
      have m1 : ∀ x (l : List VId), π x ∈ l.map π ↔ x ∈ l := by intro x l; simp
      simp only [Option.map_some, parent_ren]
      simp only [VRel.ren, m1]

theorem Alike.addCrossEdge {w w' : TreeView} (h : Alike π ρ w w') (o t : VId) (e : EId) :
    Alike π ρ (w.addCrossEdge o t e) (w'.addCrossEdge (π o) (π t) (ρ e)) := by
  refine ⟨h.tree, ?_, h.root, h.publisher, ?_⟩
  · simp [TreeView.addCrossEdge, h.cross, CrossEdge.ren]
  · simp [TreeView.addCrossEdge, h.signals, ViewSignal.kind]

theorem Alike.setTree {w w' : TreeView} (h : Alike π ρ w w') (v : VId) {r r' : VRel} (hr : r' = r.ren π) :
    Alike π ρ { w with tree := w.tree.set v r } { w' with tree := w'.tree.set (π v) r' } := by
  refine ⟨?_, h.cross, h.root, h.publisher, h.signals⟩
  simp only [h.tree]
  rw [← AMap.set_treeRen, hr]

theorem Alike.addEdge {w w' : TreeView} (h : Alike π ρ w w') (o t : VId) : Alike π ρ (w.addEdge o t) (w'.addEdge (π o) (π t)) := by
  have h1 := h.setTree o (r := { w.relOf o with children := setInsert (w.relOf o).children t })
    (r' := { w'.relOf (π o) with children := setInsert (w'.relOf (π o)).children (π t) })
    (by simp only [h.relOf, VRel.ren, setInsert_ren])
  unfold TreeView.addEdge
  generalize hw1 : ({ w with tree := w.tree.set o { w.relOf o with children := setInsert (w.relOf o).children t } } : TreeView) = w1 at h1
  generalize hw2 : ({ w' with tree := w'.tree.set (π o) { w'.relOf (π o) with children := setInsert (w'.relOf (π o)).children (π t) } } : TreeView)
    = w2 at h1
  have h2 := h1.setTree t (r := { w1.relOf t with parent := some o }) (r' := { w2.relOf (π t) with parent := some (π o) })
    (by simp only [h1.relOf, VRel.ren, Option.map_some])
  exact ⟨h2.tree, h2.cross, h2.root, h2.publisher, by simp [h2.signals, ViewSignal.kind]⟩

theorem Alike.addRoot {w w' : TreeView} (h : Alike π ρ w w') (r : VId) : Alike π ρ (w.addRoot r) (w'.addRoot (π r)) := by
  refine ⟨?_, h.cross, rfl, h.publisher, h.signals⟩
  simp only [TreeView.addRoot, h.relOf, h.tree]
  rw [← AMap.set_treeRen]
  congr 1

theorem Alike.build (evs : List BfsEv) : ∀ {w w' : TreeView}, Alike π ρ w w' →
    Alike π ρ (w.build evs) (w'.build (evs.map (BfsEv.ren π ρ))) := by
  induction evs with
  | nil => intro w w' h; exact h
  | cons ev evs ih =>
    intro w w' h
    simp only [TreeView.build, List.map_cons, List.foldl_cons]
    refine ih ?_
    cases ev with
    | discover v => exact h
    | treeEdge a => exact h.addEdge _ _
    | grayTarget a => exact h.addCrossEdge _ _ _
    | blackTarget a => exact h

theorem visitBfs_ren {w w' : TreeView} (h : Alike π ρ w w') (n : Nat) : ∀ q : List VId,
    (∃ l, w.visitBfs n q = .ok l w ∧ w'.visitBfs n (q.map π) = .ok (l.map fun x => (π x.1, x.2.map π)) w') ∨
    (∃ x, w.visitBfs n q = .throw x w ∧ w'.visitBfs n (q.map π) = .throw x w') ∨
    ∃ m, w.visitBfs n q = .ub m ∧ w'.visitBfs n (q.map π) = .ub m := by
  induction n with
  | zero =>
    intro q
    cases q with
    | nil => exact Or.inl ⟨[], by simp [visitBfs], by simp [visitBfs]⟩
    | cons v q => exact Or.inr (Or.inr ⟨"visitBfs: endless loop", by simp only [visitBfs], by simp only [List.map_cons, visitBfs]⟩)
  | succ n ih =>
    intro q
    cases q with
    | nil => exact Or.inl ⟨[], by simp [visitBfs], by simp [visitBfs]⟩
    | cons v q =>
      simp only [List.map_cons, visitBfs, h.tree, AMap.get_treeRen]
      cases hv : w.tree.get v with
      | none => exact Or.inr (Or.inl ⟨_, rfl, rfl⟩)
      | some r =>
        simp only [Option.map_some]
        have := ih (q ++ r.children)
        simp only [List.map_append] at this
        have e : (r.ren π).children = r.children.map π := rfl
        rw [e]
        rcases this with ⟨l, h1, h2⟩ | ⟨x, h1, h2⟩ | ⟨m, h1, h2⟩
        · rw [h1, h2]; exact Or.inl ⟨_, rfl, rfl⟩
        · rw [h1, h2]; exact Or.inr (Or.inl ⟨_, rfl, rfl⟩)
        · rw [h1, h2]; exact Or.inr (Or.inr ⟨_, rfl, rfl⟩)

theorem incident_ren (ces : List (Nat × CrossEdge)) (v : VId) :
    incident (ces.map fun p => (p.1, p.2.ren π ρ)) (π v) = incident ces v := by
  unfold incident
  induction ces with
  | nil => rfl
  | cons x ces ih =>
    simp only [List.map_cons, List.flatMap_cons, ih]
    simp only [CrossEdge.ren, EmbeddingLike.apply_eq_iff_eq]

/-- bookkeeping -/
def RmSt.ren (π : Perm VId) (ρ : Perm EId) (st : RmSt) : RmSt := { st with cur := st.cur.map fun p => (p.1, p.2.ren π ρ) }

theorem rmCross_ren (st : RmSt) (i : Nat) : rmCross (st.ren π ρ) i = (rmCross st i).map (RmSt.ren π ρ) := by
  unfold rmCross
  have hv : ∀ j, (st.ren π ρ).valid j = st.valid j := fun j => rfl
  have hv' : (st.ren π ρ).valid = st.valid := rfl
  have hS : (st.ren π ρ).S = st.S := rfl
  rw [hv', hS]
  split
  · split
    · simp only [Option.map_some, RmSt.ren, List.filter_map, Function.comp_def]
    · rfl
  · rfl

theorem foldlM_rmCross_ren (l : List Nat) : ∀ st : RmSt, l.foldlM rmCross (st.ren π ρ) = (l.foldlM rmCross st).map (RmSt.ren π ρ) := by
  induction l with
  | nil => intro st; rfl
  | cons i l ih =>
    intro st
    simp only [List.foldlM_cons, rmCross_ren]
    cases rmCross st i with
    | none => rfl
    | some st' => exact ih st'

theorem rmVisit_ren (ces : List (Nat × CrossEdge)) (vs : List VId) : ∀ st : RmSt,
    rmVisit (ces.map fun p => (p.1, p.2.ren π ρ)) (st.ren π ρ) (vs.map π) = (rmVisit ces st vs).map (RmSt.ren π ρ) := by
  induction vs with
  | nil => intro st; rfl
  | cons v vs ih =>
    intro st
    simp only [List.map_cons, rmVisit, incident_ren, foldlM_rmCross_ren]
    cases (incident ces v).foldlM rmCross st with
    | none => rfl
    | some st' => exact ih st'

/-- outcomes on views -/
inductive AlikeR (π : Perm VId) (ρ : Perm EId) : Res TreeView Unit → Res TreeView Unit → Prop
  | ok {w w'} : Alike π ρ w w' → AlikeR π ρ (.ok () w) (.ok () w')
  | throw {x w w'} : Alike π ρ w w' → AlikeR π ρ (.throw x w) (.throw x w')
  | ub {m} : AlikeR π ρ (.ub m) (.ub m)

theorem rmVerts_ren (vs : List VId) : ∀ {w w' : TreeView}, Alike π ρ w w' → AlikeR π ρ (w.rmVerts vs) (w'.rmVerts (vs.map π)) := by
  induction vs with
  | nil => intro w w' h; exact .ok h
  | cons v vs ih =>
    intro w w' h
    simp only [List.map_cons, rmVerts, h.relOf]
    cases hp : (w.relOf v).parent with
    | none => simp only [VRel.ren, hp, Option.map_none]; exact .ub
    | some p =>
      have e : ((w.relOf v).ren π).parent = some (π p) := by simp [VRel.ren, hp]
      simp only [e]
      have h1 : Alike π ρ { w with tree := w.tree.set p { w.relOf p with children := (w.relOf p).children.filter (· ≠ v) } }
          { w' with tree := w'.tree.set (π p) { w'.relOf (π p) with children := (w'.relOf (π p)).children.filter (· ≠ π v) } } := by
        refine ⟨?_, h.cross, h.root, h.publisher, h.signals⟩
        simp only [h.relOf, h.tree]
        rw [← AMap.set_treeRen]
        congr 1
        simp only [VRel.ren, List.filter_map, Function.comp_def]
        congr 2
        refine List.filter_congr (fun r _ => ?_)
        simp
      have h2 := h1.relOf v
      have h3 := h1.tree
      simp only [h.relOf] at h1 h2 h3 ⊢
      rw [h2]
      simp only [VRel.ren, List.map_eq_nil_iff] at h1 h3 ⊢
      split
      · refine ih ⟨?_, h.cross, h.root, h.publisher, ?_⟩
        · simp only [h3, AMap.erase_treeRen]
        · simp [h.signals, ViewSignal.kind]
      · exact .ub

theorem number_map {α β : Type} (f : α → β) (l : List α) : ∀ n, number n (l.map f) = (number n l).map fun p => (p.1, f p.2) := by
  induction l with
  | nil => intro n; rfl
  | cons a l ih => intro n; simp [number, ih]

theorem bfsCalls_ren {w w' : TreeView} (h : Alike π ρ w w') : ∀ (n : Nat) (q : List VId),
    w'.bfsCalls n (q.map π) = (w.bfsCalls n q).map π := by
  intro n
  induction n with
  | zero => intro q; cases q <;> rfl
  | succ n ih =>
    intro q
    cases q with
    | nil => rfl
    | cons v q =>
      simp only [List.map_cons, bfsCalls, h.tree, AMap.get_treeRen]
      cases w.tree.get v with
      | none => rfl
      | some r =>
        simp only [Option.map_some, List.map_cons, List.cons.injEq, true_and]
        rw [← ih]; simp [VRel.ren]

theorem removeEdge_ren {w w' : TreeView} (h : Alike π ρ w w') (o t : VId) : AlikeR π ρ (w.removeEdge o t) (w'.removeEdge (π o) (π t)) := by
  unfold removeEdge
  simp only [h.relOf, parent_ren]
  have key : ∀ rt : Option VId, AlikeR π ρ
      (match rt with
        | none => .ub "removeEdge: assert(false)"
        | some rt =>
          match w.visitBfs (w.tree.length + 1) [rt] with
          | .ub m => .ub m
          | .throw e _ =>
            let ces := number 0 w.crossEdges
            match rmVisit ces ⟨ces, none, []⟩ (w.bfsCalls (w.tree.length + 1) [rt]) with
            | none => .ub "removeEdge: use of an invalidated iterator"
            | some st => .throw e { w with crossEdges := st.cur.map (·.2) }
          | .ok calls _ =>
            let ces := number 0 w.crossEdges
            match rmVisit ces ⟨ces, none, []⟩ (calls.map (·.1)) with
            | none => .ub "removeEdge: use of an invalidated iterator"
            | some st =>
              match rmVerts { w with crossEdges := st.cur.map (·.2) } (calls.map (·.1)).reverse with
              | .ub m => .ub m
              | .throw e s => .throw e s
              | .ok _ w' => if st.S = [] then .ok () w' else .throw (.runtimeError "NOT IMPLEMENTED") w')
      (match rt.map π with
        | none => .ub "removeEdge: assert(false)"
        | some rt =>
          match w'.visitBfs (w'.tree.length + 1) [rt] with
          | .ub m => .ub m
          | .throw e _ =>
            let ces := number 0 w'.crossEdges
            match rmVisit ces ⟨ces, none, []⟩ (w'.bfsCalls (w'.tree.length + 1) [rt]) with
            | none => .ub "removeEdge: use of an invalidated iterator"
            | some st => .throw e { w' with crossEdges := st.cur.map (·.2) }
          | .ok calls _ =>
            let ces := number 0 w'.crossEdges
            match rmVisit ces ⟨ces, none, []⟩ (calls.map (·.1)) with
            | none => .ub "removeEdge: use of an invalidated iterator"
            | some st =>
              match rmVerts { w' with crossEdges := st.cur.map (·.2) } (calls.map (·.1)).reverse with
              | .ub m => .ub m
              | .throw e s => .throw e s
              | .ok _ w' => if st.S = [] then .ok () w' else .throw (.runtimeError "NOT IMPLEMENTED") w') := by
    intro rt
    cases rt with
    | none => exact .ub
    | some rt =>
      simp only [Option.map_some]
      have hl : w'.tree.length = w.tree.length := by rw [h.tree]; simp [treeRen]
      rw [hl]
      rcases visitBfs_ren h (w.tree.length + 1) [rt] with ⟨l, h1, h2⟩ | ⟨x, h1, h2⟩ | ⟨m, h1, h2⟩
      · simp only [List.map_cons, List.map_nil] at h2
        rw [h1, h2]
        simp only
        have e1 : (l.map fun x => (π x.1, x.2.map π)).map (·.1) = (l.map (·.1)).map π := by simp [List.map_map, Function.comp_def]
        have e2 : number 0 w'.crossEdges = (number 0 w.crossEdges).map fun p => (p.1, p.2.ren π ρ) := by rw [h.cross, number_map]
        rw [e1, e2]
        have e3 := rmVisit_ren (π := π) (ρ := ρ) (number 0 w.crossEdges) (l.map (·.1)) ⟨number 0 w.crossEdges, none, []⟩
        have e4 : RmSt.ren π ρ ⟨number 0 w.crossEdges, none, []⟩ = ⟨(number 0 w.crossEdges).map fun p => (p.1, p.2.ren π ρ), none, []⟩ := rfl
        rw [e4] at e3
        rw [e3]
        cases hst : rmVisit (number 0 w.crossEdges) ⟨number 0 w.crossEdges, none, []⟩ (l.map (·.1)) with
        | none => exact .ub
        | some st =>
          simp only [Option.map_some]
          have h5 : Alike π ρ { w with crossEdges := st.cur.map (·.2) } { w' with crossEdges := (st.ren π ρ).cur.map (·.2) } := by
            refine ⟨h.tree, ?_, h.root, h.publisher, h.signals⟩
            simp [RmSt.ren, List.map_map, Function.comp_def]
          have h6 := rmVerts_ren (l.map (·.1)).reverse h5
          rw [List.map_reverse] at h6
          have hS : (st.ren π ρ).S = st.S := rfl
          rw [hS]
          generalize rmVerts { w with crossEdges := st.cur.map (·.2) } (l.map (·.1)).reverse = r1 at h6
          generalize rmVerts { w' with crossEdges := (st.ren π ρ).cur.map (·.2) } ((l.map (·.1)).map π).reverse = r2 at h6
          cases h6 with
          | ok h7 =>
            simp only
            split
            · exact .ok h7
            · exact .throw h7
          | throw h7 => exact .throw h7
          | ub => exact .ub
      · simp only [List.map_cons, List.map_nil] at h2
        rw [h1, h2]
        simp only
        have e1 := bfsCalls_ren h (w.tree.length + 1) [rt]
        simp only [List.map_cons, List.map_nil] at e1
        have e2 : number 0 w'.crossEdges = (number 0 w.crossEdges).map fun p => (p.1, p.2.ren π ρ) := by rw [h.cross, number_map]
        rw [e1, e2]
        have e3 := rmVisit_ren (π := π) (ρ := ρ) (number 0 w.crossEdges) (w.bfsCalls (w.tree.length + 1) [rt]) ⟨number 0 w.crossEdges, none, []⟩
        have e4 : RmSt.ren π ρ ⟨number 0 w.crossEdges, none, []⟩ = ⟨(number 0 w.crossEdges).map fun p => (p.1, p.2.ren π ρ), none, []⟩ := rfl
        rw [e4] at e3
        rw [e3]
        cases hst : rmVisit (number 0 w.crossEdges) ⟨number 0 w.crossEdges, none, []⟩ (w.bfsCalls (w.tree.length + 1) [rt]) with
        | none => exact .ub
        | some st =>
          simp only [Option.map_some]
          refine .throw ⟨h.tree, ?_, h.root, h.publisher, h.signals⟩
          simp [RmSt.ren, List.map_map, Function.comp_def]
      · simp only [List.map_cons, List.map_nil] at h2
        rw [h1, h2]; exact .ub
  have := key (if (w.relOf t).parent = some o then some t else if (w.relOf o).parent = some t then some o else none)
  have e : (if (w.relOf t).parent = some o then some t else if (w.relOf o).parent = some t then some o else none : Option VId).map π =
      (if (w.relOf t).parent = some o then some (π t) else if (w.relOf o).parent = some t then some (π o) else none) := by
    split
    · rfl
    · split <;> rfl
  rw [e] at this
  exact this

end TreeView
end Verif
