import Verif.Lemmas.Viz
import Verif.Lemmas.ViewSelf
import Verif.Lemmas.PublishSelf
import Verif.Spec.VizSelf
set_option linter.unusedSectionVars false
set_option linter.unusedSimpArgs false
/-! # Lemmas: the scene of the structure visualization for graphs with self edges -/

namespace Verif

/-! ## the first callbacks of a search -/

theorem bfsArc_prefix (s : BfsSt) (a : Arc) : s.evs <+: (bfsArc s a).evs := by
  unfold bfsArc
  cases s.color a.tgt <;> exact List.prefix_append _ _

theorem bfsScan_prefix : ∀ (as : List Arc) (s : BfsSt), s.evs <+: (bfsScan s as).evs := by
  intro as
  induction as with
  | nil => intro s; exact List.prefix_rfl
  | cons a as ih => intro s; exact (bfsArc_prefix s a).trans (ih _)

theorem bfsLoop_prefix {out : VId → List Arc} : ∀ (n : Nat) (s s' : BfsSt), bfsLoop out n s = some s' → s.evs <+: s'.evs := by
  intro n
  induction n with
  | zero =>
    intro s s' h
    rw [bfsLoop.eq_def] at h
    cases hq : s.queue <;> simp [hq] at h
    rw [h]
  | succ n ih =>
    intro s s' h
    rw [bfsLoop.eq_def] at h
    cases hq : s.queue with
    | nil => simp [hq] at h; rw [h]
    | cons u q =>
      simp only [hq] at h
      have h1 := ih _ _ h
      have h2 := bfsScan_prefix (out u) { s with queue := q }
      exact h2.trans h1

/-- what the search reports for the first edge of the root -/
theorem bfs_first {out : VId → List Arc} {n : Nat} {root : VId} {evs : List BfsEv} (h : bfs out (n + 1) root = some evs) {a : Arc} {as : List Arc}
    (ho : out root = a :: as) : (bfsArc { bfsInit root with queue := [] } a).evs <+: evs := by
  unfold bfs at h
  cases hl : bfsLoop out (n + 1) (bfsInit root) with
  | none => simp [hl] at h
  | some s' =>
    simp only [hl, Option.map_some, Option.some.injEq] at h
    subst h
    rw [bfsLoop.eq_def] at hl
    simp only [bfsInit, ho] at hl
    have h1 := bfsLoop_prefix _ _ _ hl
    exact (bfsScan_prefix as _).trans h1

/-- there is a tree edge before each gray one -/
def GrayLate (l : List BfsEv) : Prop := ∀ pre a post, l = pre ++ .grayTarget a :: post → treeArcs pre ≠ []

theorem GrayLate.left {l m : List BfsEv} (h : GrayLate (l ++ m)) : GrayLate l := by
  intro pre a post hl
  exact h pre a (post ++ m) (by rw [hl]; simp)

theorem GrayLate.of_prefix {l : List BfsEv} {v : VId} {a : Arc} {es : List BfsEv} (h : .discover v :: .treeEdge a :: es <+: l) : GrayLate l := by
  obtain ⟨m, rfl⟩ := h
  intro pre b post hl
  match pre, hl with
  | [], hl => simp at hl
  | [x], hl => simp at hl
  | x :: y :: pre, hl =>
    simp only [List.cons_append, List.cons.injEq] at hl
    obtain ⟨-, rfl, -⟩ := hl
    intro hh
    have : a ∈ treeArcs (x :: BfsEv.treeEdge a :: pre) := mem_treeArcs.2 (by simp)
    rw [hh] at this; cases this

namespace Viz
open GS
variable {F T : Type} [FrameProp F] [Group T]

theorem slots_sigs_ns {s : GS F (Tf T)} (hw : WF s.g) {root : VId} (hr : Live s.g root) {lvl : VId → Nat} {l : List BfsEv}
    (h : Good root lvl l) : (∀ a ∈ arcsOf l, a ∈ s.g.outArcs a.src) → (∀ x ∈ discovered l, Live s.g x) → GraySeen l → GrayLate l →
    slots s (sigs l) {} = .ok (sceneOf s.g l) s := by
  have inj : ∀ {x y : VId}, Live s.g x → Live s.g y → nameOf s.g x = nameOf s.g y → x = y := by
    intro x y hx hy he
    have h1 := vertexOf_nameOf hw hx
    rw [he, vertexOf_nameOf hw hy] at h1
    exact (Option.some.inj h1).symm
  have fv : ∀ {x : VId}, Live s.g x → ∃ r, s.g.findV x = some r ∧ FrameProp.getId r.prop = nameOf s.g x := by
    intro x ⟨r, hr, hx⟩
    have := hw.findV_iff.2 ⟨hr, hx⟩
    exact ⟨r, this, by simp [nameOf, this]⟩
  induction h with
  | init => intro _ _ _ _; rfl
  | @tree l a h h1 h2 h3 ih =>
    intro ha hx hg hla
    have ih' := ih (fun b hb => ha b (by simp [hb])) (fun x hx' => hx x (by simp [hx'])) hg.left hla.left
    have hout := ha a (by simp [arcsOf])
    have hne : a.src ≠ a.tgt := fun hh => h2 (hh ▸ h1)
    have ls : Live s.g a.src := hx _ (by simp [h1])
    have lt : Live s.g a.tgt := hx _ (by simp [discovered])
    obtain ⟨e, he⟩ := Option.isSome_iff_exists.1 (arcs_iff_edge.1 ⟨a, hout, rfl⟩)
    have h0 : ¬ s.g.edges.length = 0 := by
      intro hh
      have := (G.edge_some he).1
      rw [List.length_eq_zero_iff.1 hh] at this; cases this
    obtain ⟨ro, fo, no⟩ := fv ls
    obtain ⟨rt, ft, nt⟩ := fv lt
    have e1 : sigs [.treeEdge a, .discover a.tgt] = [.edgeAdded a.src a.tgt] := rfl
    rw [sigs_append, slots_append, ih', e1]
    simp only [slots, onEdge, getTransformV, h0, if_false, he, fo, ft, no, nt]
    -- the frames
    have hf : ((sceneOf s.g l).need (nameOf s.g a.src)).need (nameOf s.g a.tgt) =
        { sceneOf s.g l with frames := (discovered l ++ [a.tgt]).map (nameOf s.g) } := by
      by_cases hT : treeArcs l = []
      · have hd : discovered l = [root] := by rw [h.tgts, hT]; rfl
        rw [hd] at h1
        obtain rfl : a.src = root := by simpa using h1
        have hnn : nameOf s.g a.tgt ≠ nameOf s.g a.src := fun hh => hne (inj lt ls hh).symm
        simp [Scene.need, sceneOf, hT, hd, hnn]
      · have m1 : nameOf s.g a.src ∈ (sceneOf s.g l).frames := by
          simp only [sceneOf, hT, if_false]
          exact List.mem_map_of_mem h1
        have m2 : nameOf s.g a.tgt ∉ (sceneOf s.g l).frames := by
          simp only [sceneOf, hT, if_false]
          intro hm
          obtain ⟨y, hy, hyn⟩ := List.mem_map.1 hm
          have := inj (hx y (by simp [hy])) lt hyn
          exact h2 (this ▸ hy)
        simp only [Scene.need, m1, if_true, m2, if_false]
        simp [sceneOf, hT]
    rw [hf]
    have e2 : treeArcs [BfsEv.treeEdge a, .discover a.tgt] = [a] := rfl
    have e3 : discovered [BfsEv.treeEdge a, .discover a.tgt] = [a.tgt] := rfl
    have e4 : grayArcs [BfsEv.treeEdge a, .discover a.tgt] = [] := rfl
    simp [sceneOf, e2, e3, e4, arcPose, he]
  | @gray l a h ih =>
    intro ha hx hg hla
    have e0 : discovered [BfsEv.grayTarget a] = [] := rfl
    have e1 : sigs [.grayTarget a] = [.crossEdgeAdded ⟨a.src, a.tgt, a.id⟩] := rfl
    have ih' := ih (fun b hb => ha b (by simp [hb])) (fun x hx' => hx x (by simp [hx'])) hg.left hla.left
    obtain ⟨m1, m2⟩ := hg l a [] rfl
    have ls : Live s.g a.src := hx _ (by simp [m1])
    have lt : Live s.g a.tgt := hx _ (by simp [m2])
    obtain ⟨ro, fo, no⟩ := fv ls
    obtain ⟨rt, ft, nt⟩ := fv lt
    have hT : treeArcs l ≠ [] := hla l a [] rfl
    rw [sigs_append, slots_append, ih', e1]
    have f1 : nameOf s.g a.src ∈ (sceneOf s.g l).frames := by
      simp only [sceneOf, hT, if_false]; exact List.mem_map_of_mem m1
    have f2 : nameOf s.g a.tgt ∈ (sceneOf s.g l).frames := by
      simp only [sceneOf, hT, if_false]; exact List.mem_map_of_mem m2
    simp only [slots, onCross, fo, ft, no, nt, f1, f2, and_self, if_true]
    have e2 : treeArcs [BfsEv.grayTarget a] = [] := rfl
    have e3 : grayArcs [BfsEv.grayTarget a] = [a] := rfl
    simp [sceneOf, e0, e2, e3]
  | @black l a h ih =>
    intro ha hx hg hla
    have ih' := ih (fun b hb => ha b (by simp [hb])) (fun x hx' => hx x (by simp [hx'])) hg.left hla.left
    have e1 : sigs [.blackTarget a] = [] := rfl
    rw [sigs_append, slots_append, ih', e1]
    have e0 : discovered [BfsEv.blackTarget a] = [] := rfl
    have e2 : treeArcs [BfsEv.blackTarget a] = [] := rfl
    have e3 : grayArcs [BfsEv.blackTarget a] = [] := rfl
    simp [slots, sceneOf, e0, e2, e3]

/-- the drawing of a root whose first edge is no self edge -/
theorem draw_eq_ns {s : GS F (Tf T)} (hw : WF s.g) {r : FrameId} {u : VId} (hr : s.g.vertexOf r = some u)
    {evs : List BfsEv} {lvl : VId → Nat} (he : searchEvents s.g u = some evs) (hd : BfsDone s.g.outArcs u evs lvl) (hg : GrayLate evs) :
    drawGraphStructure r s = .ok { sceneOf s.g evs with top := some r } s := by
  have hl := hw.live hr
  have h0 : ¬ s.g.verts.length = 0 := by
    obtain ⟨x, hx, -⟩ := hl
    intro hh
    rw [List.length_eq_zero_iff.1 hh] at hx; cases hx
  have hs := slots_sigs_ns (s := s) hw hl hd.good (fun a ha => (hd.tree_out outArcs_src ha).2)
    (fun x hx => hd.live hw hl hx) (searchEvents_graySeen he) hg
  simp only [drawGraphStructure, h0, if_false, getTreeFresh, hr, getTreeInto, he, build_signals]
  have e : (TreeView.empty.addRoot u).signals = [] := rfl
  rw [e, List.nil_append, hs]

theorem draw_self_ub {s : GS F (Tf T)} (hw : WF s.g) {r : FrameId} {u : VId} (hr : s.g.vertexOf r = some u)
    {evs : List BfsEv} (he : searchEvents s.g u = some evs) {a : Arc} {as : List Arc} (ha : s.g.outArcs u = a :: as) (hs : a.tgt = u) :
    drawGraphStructure r s = .ub "drawGraphStructure: assert(srcNode), assert(tarNode)" := by
  have hl := hw.live hr
  have h0 : ¬ s.g.verts.length = 0 := by
    obtain ⟨x, hx, -⟩ := hl
    intro hh
    rw [List.length_eq_zero_iff.1 hh] at hx; cases hx
  have hsrc : a.src = u := outArcs_src u a (by rw [ha]; simp)
  obtain ⟨m, rfl⟩ := bfs_first he ha
  obtain ⟨x, hx, hxu⟩ := hl
  have hf := hw.findV_iff.2 ⟨hx, hxu⟩
  simp only [drawGraphStructure, h0, if_false, getTreeFresh, hr, getTreeInto, he, build_signals]
  have e : (TreeView.empty.addRoot u).signals = [] := rfl
  rw [e, List.nil_append]
  simp [bfsArc, bfsInit, hs, sigs, slots, onCross, hsrc, hf]

end Viz
end Verif
