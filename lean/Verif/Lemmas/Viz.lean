import Verif.Lemmas.PathLemmas
import Verif.Lemmas.ViewBuild
import Verif.Spec.Viz

set_option linter.unusedSectionVars false
set_option linter.unusedSimpArgs false
/-! The scene of the structure visualization. -/

namespace Verif

/-! ## an edge to a gray vertex is met after both its ends were discovered -/

/-- both ends of each gray edge are discovered before the edge is met -/
def GraySeen (l : List BfsEv) : Prop :=
  ∀ pre a post, l = pre ++ .grayTarget a :: post → a.src ∈ discovered pre ∧ a.tgt ∈ discovered pre

theorem GraySeen.snoc {l : List BfsEv} (h : GraySeen l) {e : BfsEv}
    (he : ∀ a, e = .grayTarget a → a.src ∈ discovered l ∧ a.tgt ∈ discovered l) : GraySeen (l ++ [e]) := by
  intro pre a post hl
  rcases List.eq_nil_or_concat post with rfl | ⟨post', x, rfl⟩
  · obtain ⟨rfl, h2⟩ := List.append_inj' hl rfl
    exact he a (by simpa using h2)
  · have : l ++ [e] = (pre ++ .grayTarget a :: post') ++ [x] := by simpa using hl
    obtain ⟨rfl, -⟩ := List.append_inj' this rfl
    exact h pre a post' rfl

theorem GraySeen.left {l m : List BfsEv} (h : GraySeen (l ++ m)) : GraySeen l := by
  intro pre a post hl
  exact h pre a (post ++ m) (by rw [hl]; simp)

theorem Scan.graySeen {out : VId → List Arc} {root : VId} {dn : List VId} {u : VId} {as : List Arc} {s : BfsSt} {lvl : VId → Nat}
    (h : Scan out root dn u as s lvl) {a : Arc} (ha : a.src = u) (hg : GraySeen s.evs) : GraySeen (bfsArc s a).evs := by
  unfold bfsArc
  cases hc : s.color a.tgt with
  | white =>
    have := (hg.snoc (e := .treeEdge a) (by intro b hb; cases hb)).snoc (e := .discover a.tgt) (by intro b hb; cases hb)
    simpa using this
  | gray =>
    refine hg.snoc ?_
    intro b hb
    injection hb with hb
    subst hb
    rw [h.disc, ha]
    have := (h.cg _).1 hc
    simp only [List.mem_append, List.mem_cons]
    exact ⟨by simp, Or.inr this⟩
  | black => exact hg.snoc (by intro b hb; cases hb)

theorem Scan.graySeen_scan {out : VId → List Arc} {root : VId} {dn : List VId} {u : VId} : ∀ (bs : List Arc) {as : List Arc} {s : BfsSt}
    {lvl : VId → Nat}, Scan out root dn u as s lvl → (∀ a ∈ bs, a.src = u) → GraySeen s.evs → GraySeen (bfsScan s bs).evs := by
  intro bs
  induction bs with
  | nil => intro as s lvl _ _ hg; exact hg
  | cons a bs ih =>
    intro as s lvl h hs hg
    obtain ⟨l1, h1⟩ := h.arc (hs a (by simp))
    exact ih h1 (fun b hb => hs b (by simp [hb])) (h.graySeen (hs a (by simp)) hg)

theorem Rest.scan0 {out : VId → List Arc} {root : VId} {dn : List VId} {s : BfsSt} {lvl : VId → Nat} (h : Rest out root dn s lvl)
    {u : VId} {q : List VId} (hq : s.queue = u :: q) : Scan out root dn u [] { s with queue := q } lvl := by
  have nd := h.nd
  have disc := h.disc
  have closed := h.closed
  have sorted := h.sorted
  have black := h.black
  have other := h.other
  rw [hq] at nd disc closed sorted black other
  refine ⟨h.cb, ?_, nd, h.good, disc, ?_, closed, by simp, sorted, h.near u q hq, black, other⟩
  · intro x
    rw [h.cg, hq]; simp
  · rw [h.arcs]; simp

theorem bfsLoop_graySeen {out : VId → List Arc} (hout : ∀ u, ∀ a ∈ out u, a.src = u) {root : VId} : ∀ (fuel : Nat) (dn : List VId)
    (s s' : BfsSt) (lvl : VId → Nat), Rest out root dn s lvl → GraySeen s.evs → bfsLoop out fuel s = some s' → GraySeen s'.evs := by
  intro fuel
  induction fuel with
  | zero =>
    intro dn s s' lvl h hg he
    rw [bfsLoop.eq_def] at he
    cases hq : s.queue <;> simp [hq] at he
    exact he ▸ hg
  | succ n ih =>
    intro dn s s' lvl h hg he
    rw [bfsLoop.eq_def] at he
    cases hq : s.queue with
    | nil => simp [hq] at he; exact he ▸ hg
    | cons u q =>
      simp only [hq] at he
      obtain ⟨l', h'⟩ := h.step hout hq
      exact ih _ _ _ l' h' (Scan.graySeen_scan (out u) (h.scan0 hq) (hout u) hg) he

theorem searchEvents_graySeen {F E : Type} [FrameProp F] [EdgeProp E] {g : G F E} {v : VId} {evs : List BfsEv} (h : GS.searchEvents g v = some evs) :
    GraySeen evs := by
  unfold GS.searchEvents bfs at h
  cases hl : bfsLoop g.outArcs (g.verts.length + 1) (bfsInit v) with
  | none => simp [hl] at h
  | some s' =>
    simp [hl] at h
    subst h
    refine bfsLoop_graySeen outArcs_src _ _ _ _ _ (Rest.init _ _) ?_ hl
    intro pre a post hp
    cases pre with
    | nil => simp [bfsInit] at hp
    | cons x pre => cases pre <;> simp [bfsInit] at hp

/-! ## the signals of a new view -/

/-- the signals that the callbacks of a search cause -/
def sigs (l : List BfsEv) : List ViewSignal :=
  l.filterMap (fun | .treeEdge a => some (.edgeAdded a.src a.tgt) | .grayTarget a => some (.crossEdgeAdded ⟨a.src, a.tgt, a.id⟩) | _ => none)

theorem sigs_append (l m : List BfsEv) : sigs (l ++ m) = sigs l ++ sigs m := List.filterMap_append

theorem build_signals : ∀ (evs : List BfsEv) (w : TreeView), (w.build evs).signals = w.signals ++ sigs evs := by
  intro evs
  induction evs with
  | nil => intro w; simp [TreeView.build, sigs]
  | cons e evs ih =>
    intro w
    have : w.build (e :: evs) = (w.buildStep e).build evs := rfl
    rw [this, ih]
    cases e <;> simp [TreeView.buildStep, TreeView.addEdge, TreeView.addCrossEdge, sigs]

namespace Viz
open GS
variable {F T : Type} [FrameProp F] [Group T]

theorem slots_append (s : GS F (Tf T)) : ∀ (l m : List ViewSignal) (sc : Scene T), slots s (l ++ m) sc =
    match slots s l sc with
    | .ok sc' _ => slots s m sc'
    | .throw x s' => .throw x s'
    | .ub r => .ub r := by
  intro l
  induction l with
  | nil => intro m sc; rfl
  | cons e l ih =>
    intro m sc
    cases e with
    | edgeAdded o t =>
      simp only [List.cons_append, slots]
      cases onEdge s o t sc <;> simp [ih]
    | edgeRemoved p n => simp only [List.cons_append, slots]; exact ih m sc
    | crossEdgeAdded c =>
      simp only [List.cons_append, slots]
      cases onCross s c sc <;> simp [ih]

/-- pose of the edge of an arc -/
def arcPose (g : G F (Tf T)) (a : Arc) : T := ((g.edge a.src a.tgt).map (fun e => e.prop.pose)).getD 1

/-- the scene for the callbacks of a search -/
def sceneOf (g : G F (Tf T)) (l : List BfsEv) : Scene T where
  frames := if treeArcs l = [] then [] else (discovered l).map (nameOf g)
  tfs := (treeArcs l).map (fun a => (nameOf g a.src, nameOf g a.tgt, arcPose g a))
  links := (grayArcs l).map (fun a => (nameOf g a.src, nameOf g a.tgt))
  top := none

theorem slots_sigs {s : GS F (Tf T)} (hw : WF s.g) {root : VId} (hr : Live s.g root) {lvl : VId → Nat} {l : List BfsEv}
    (h : Good root lvl l) : (∀ a ∈ arcsOf l, a ∈ s.g.outArcs a.src ∧ a.src ≠ a.tgt) → (∀ x ∈ discovered l, Live s.g x) → GraySeen l →
    slots s (sigs l) {} = .ok (sceneOf s.g l) s := by
  have inj : ∀ {x y : VId}, Live s.g x → Live s.g y → nameOf s.g x = nameOf s.g y → x = y := by
    intro x y hx hy he
    have h1 := vertexOf_nameOf hw hx
    rw [he, vertexOf_nameOf hw hy] at h1
    exact (Option.some.inj h1).symm
  have fv : ∀ {x : VId}, Live s.g x → ∃ r, s.g.findV x = some r ∧ FrameProp.getId r.prop = nameOf s.g x := by
    intro x ⟨r, hr, hx⟩
    have := hw.findV_iff.2 ⟨hr, hx⟩
    exact ⟨r, this, by simp [nameOf, this]⟩
  induction h with
  | init => intro _ _ _; rfl
  | @tree l a h h1 h2 h3 ih =>
    intro ha hx hg
    have ih' := ih (fun b hb => ha b (by simp [hb])) (fun x hx' => hx x (by simp [hx'])) hg.left
    obtain ⟨hout, hne⟩ := ha a (by simp [arcsOf])
    have ls : Live s.g a.src := hx _ (by simp [h1])
    have lt : Live s.g a.tgt := hx _ (by simp [discovered])
    obtain ⟨e, he⟩ := Option.isSome_iff_exists.1 (arcs_iff_edge.1 ⟨a, hout, rfl⟩)
    have h0 : ¬ s.g.edges.length = 0 := by
      intro hh
      have := (G.edge_some he).1
      rw [List.length_eq_zero_iff.1 hh] at this; cases this
    obtain ⟨ro, fo, no⟩ := fv ls
    obtain ⟨rt, ft, nt⟩ := fv lt
    have e1 : sigs [.treeEdge a, .discover a.tgt] = [.edgeAdded a.src a.tgt] := rfl
    rw [sigs_append, slots_append, ih', e1]
    simp only [slots, onEdge, getTransformV, h0, if_false, he, fo, ft, no, nt]
    -- the frames
    have hf : ((sceneOf s.g l).need (nameOf s.g a.src)).need (nameOf s.g a.tgt) =
        { sceneOf s.g l with frames := (discovered l ++ [a.tgt]).map (nameOf s.g) } := by
      by_cases hT : treeArcs l = []
      · have hd : discovered l = [root] := by rw [h.tgts, hT]; rfl
        rw [hd] at h1
        obtain rfl : a.src = root := by simpa using h1
        have hnn : nameOf s.g a.tgt ≠ nameOf s.g a.src := fun hh => hne (inj lt ls hh).symm
        simp [Scene.need, sceneOf, hT, hd, hnn]
      · have m1 : nameOf s.g a.src ∈ (sceneOf s.g l).frames := by
          simp only [sceneOf, hT, if_false]
          exact List.mem_map_of_mem h1
        have m2 : nameOf s.g a.tgt ∉ (sceneOf s.g l).frames := by
          simp only [sceneOf, hT, if_false]
          intro hm
          obtain ⟨y, hy, hyn⟩ := List.mem_map.1 hm
          have := inj (hx y (by simp [hy])) lt hyn
          exact h2 (this ▸ hy)
        simp only [Scene.need, m1, if_true, m2, if_false]
        simp [sceneOf, hT]
    rw [hf]
    have e2 : treeArcs [BfsEv.treeEdge a, .discover a.tgt] = [a] := rfl
    have e3 : discovered [BfsEv.treeEdge a, .discover a.tgt] = [a.tgt] := rfl
    have e4 : grayArcs [BfsEv.treeEdge a, .discover a.tgt] = [] := rfl
    simp [sceneOf, e2, e3, e4, arcPose, he]
  | @gray l a h ih =>
    intro ha hx hg
    have e0 : discovered [BfsEv.grayTarget a] = [] := rfl
    have e1 : sigs [.grayTarget a] = [.crossEdgeAdded ⟨a.src, a.tgt, a.id⟩] := rfl
    have ih' := ih (fun b hb => ha b (by simp [hb])) (fun x hx' => hx x (by simp [hx'])) hg.left
    obtain ⟨m1, m2⟩ := hg l a [] rfl
    have hne := (ha a (by simp [arcsOf])).2
    have ls : Live s.g a.src := hx _ (by simp [m1])
    have lt : Live s.g a.tgt := hx _ (by simp [m2])
    obtain ⟨ro, fo, no⟩ := fv ls
    obtain ⟨rt, ft, nt⟩ := fv lt
    have hT : treeArcs l ≠ [] := by
      intro hT
      rw [h.tgts, hT] at m1 m2
      simp at m1 m2
      exact hne (m1.trans m2.symm)
    rw [sigs_append, slots_append, ih', e1]
    have f1 : nameOf s.g a.src ∈ (sceneOf s.g l).frames := by
      simp only [sceneOf, hT, if_false]; exact List.mem_map_of_mem m1
    have f2 : nameOf s.g a.tgt ∈ (sceneOf s.g l).frames := by
      simp only [sceneOf, hT, if_false]; exact List.mem_map_of_mem m2
    simp only [slots, onCross, fo, ft, no, nt, f1, f2, and_self, if_true]
    have e2 : treeArcs [BfsEv.grayTarget a] = [] := rfl
    have e3 : grayArcs [BfsEv.grayTarget a] = [a] := rfl
    simp [sceneOf, e0, e2, e3]
  | @black l a h ih =>
    intro ha hx hg
    have ih' := ih (fun b hb => ha b (by simp [hb])) (fun x hx' => hx x (by simp [hx'])) hg.left
    have e1 : sigs [.blackTarget a] = [] := rfl
    rw [sigs_append, slots_append, ih', e1]
    have e0 : discovered [BfsEv.blackTarget a] = [] := rfl
    have e2 : treeArcs [BfsEv.blackTarget a] = [] := rfl
    have e3 : grayArcs [BfsEv.blackTarget a] = [] := rfl
    simp [slots, sceneOf, e0, e2, e3]

/-- the whole drawing in terms of the search from the root -/
theorem draw_eq {s : GS F (Tf T)} (hw : WF s.g) (hp : Paired s.g) {r : FrameId} {u : VId} (hr : s.g.vertexOf r = some u)
    {evs : List BfsEv} {lvl : VId → Nat} (he : searchEvents s.g u = some evs) (hd : BfsDone s.g.outArcs u evs lvl) :
    drawGraphStructure r s = .ok { sceneOf s.g evs with top := some r } s := by
  have hl := hw.live hr
  have h0 : ¬ s.g.verts.length = 0 := by
    obtain ⟨x, hx, -⟩ := hl
    intro hh
    rw [List.length_eq_zero_iff.1 hh] at hx; cases hx
  have hs := slots_sigs (s := s) hw hl hd.good
    (fun a ha => by
      have := (hd.tree_out outArcs_src ha).2
      exact ⟨this, fun hh => (outArcs_paired hw hp).noself _ a this hh.symm⟩)
    (fun x hx => hd.live hw hl hx) (searchEvents_graySeen he)
  simp only [drawGraphStructure, h0, if_false, getTreeFresh, hr, getTreeInto, he, build_signals]
  have e : (TreeView.empty.addRoot u).signals = [] := rfl
  rw [e, List.nil_append, hs]

theorem Place.unique {sc : Scene T} {r : FrameId} (hn : (sc.tfs.map (fun x => x.2.1)).Nodup) (hr : r ∉ sc.tfs.map (fun x => x.2.1))
    {f : FrameId} {p q : T} (h : Place sc r f p) (h' : Place sc r f q) : p = q := by
  induction h generalizing q with
  | root =>
    generalize hf : r = f at h'
    cases h' with
    | root => rfl
    | child h1 h2 => exact absurd (List.mem_map.2 ⟨_, h2, hf.symm⟩) hr
  | @child o t p q' h1 h2 ih =>
    cases h' with
    | root => exact absurd (List.mem_map.2 ⟨_, h2, rfl⟩) hr
    | @child o' _ p' q'' k1 k2 =>
      have := List.inj_on_of_nodup_map hn h2 k2 rfl
      injection this with a1 a2
      injection a2 with _ a3
      subst a1; subst a3
      rw [ih k1]

/-- along a path of the search tree -/
theorem place_path {g : G F (Tf T)} {evs : List BfsEv} {r : FrameId} {sc : Scene T} (hsc : sc.tfs = (sceneOf g evs).tfs) {path : List VId} {t : T}
    (h : VAlong g path t) : ∀ {u v : VId} {acc : T}, path.IsChain (fun x y => ∃ a ∈ treeArcs evs, a.tgt = y ∧ a.src = x) →
      path.head? = some u → path.getLast? = some v → Place sc r (nameOf g u) acc → Place sc r (nameOf g v) (acc * t) := by
  induction h with
  | one x =>
    intro u v acc _ h1 h2 hp
    simp at h1 h2
    subst h1; subst h2
    simpa using hp
  | @step x y e l t he _ ih =>
    intro u v acc hc h1 h2 hp
    obtain ⟨⟨a, ha, rfl, rfl⟩, c2⟩ := List.isChain_cons_cons.1 hc
    simp only [List.head?_cons, Option.some.injEq] at h1
    subst h1
    rw [List.getLast?_cons_cons] at h2
    have : Place sc r (nameOf g a.tgt) (acc * e.prop.pose) := by
      refine .child hp ?_
      rw [hsc]
      exact List.mem_map.2 ⟨a, ha, by simp [arcPose, he]⟩
    have := ih c2 rfl h2 this
    rwa [mul_assoc] at this

end Viz
end Verif
