import Verif.Lemmas.Viz
import Verif.Lemmas.Mirror
import Verif.Props.C81
import Verif.Spec.DemoPose
/-! # C82: the scene of the structure visualization -/

namespace Verif
open GS Viz
variable {F T : Type} [FrameProp F] [Group T]

/-- The drawing shows the part of the graph that is connected with the root, whatever the history of the graph and whichever frame is
the root. -/
def C82_statement (F T : Type) [FrameProp F] [Group T] : Prop :=
  ∀ (cs : List (Cmd F (Tf T))) (s : GS F (Tf T)), run cs init = some s → ∀ r, containsFrame r s = true →
    ∃ sc, drawGraphStructure r s = .ok sc s ∧ Faithful s r sc

/-- Missing compared to `C82_statement`: a root without any connection (see `C82_isolated`) and graphs with self edges (see
`C82_self_edge_fails`).  The poses agree with `getTransform` also if the transforms of the graph contradict each other. -/
theorem C82_scene_partial (cs : List (Cmd F (Tf T))) (hns : ∀ a p, Cmd.addEdge a a p ∉ cs) (s : GS F (Tf T))
    (h : run cs init = some s) (r b : FrameId) (hc : s.Conn r b) :
    ∃ sc, drawGraphStructure r s = .ok sc s ∧ Faithful s r sc := by
  have hw : WF s.g := run_wf WF.empty h
  have hp : Paired s.g := run_paired WF.empty Paired.empty h (noSelf_of hns)
  obtain ⟨u, v0, hu, hv0, harc⟩ := conn_iff.1 hc
  have hl := hw.live hu
  obtain ⟨evs, lvl, he, hd⟩ := searchEvents_done hw hl
  have ho := outArcs_paired hw hp
  have hlive : ∀ x ∈ discovered evs, Live s.g x := fun x hx => hd.live hw hl hx
  have inj : ∀ {x y : VId}, Live s.g x → Live s.g y → nameOf s.g x = nameOf s.g y → x = y := by
    intro x y hx hy hxy
    have h1 := vertexOf_nameOf hw hx
    rw [hxy, vertexOf_nameOf hw hy] at h1
    exact (Option.some.inj h1).symm
  have nr : nameOf s.g u = r := nameOf_eq hw hu
  -- discovered = joined
  have hj : ∀ f x, s.g.vertexOf f = some x → (Joined s r f ↔ x ∈ discovered evs) := by
    intro f x hx
    constructor
    · rintro ⟨l, hl'⟩
      obtain ⟨q, q1, q2, q3, -⟩ := walk_of_path hl' hu hx
      exact (hd.walk q x q1 q2 q3).1
    · intro hxd
      obtain ⟨path, e1, e2, -⟩ := hd.good.path x hxd
      exact ⟨_, (treePath_shortest hw hu hx hd e1 e2).1⟩
  have hT : treeArcs evs ≠ [] := by
    intro hT
    obtain ⟨a, ha, hat⟩ := harc
    have h1 := (hd.closed u hd.good.root_mem a ha).1
    rw [hd.good.tgts, hT] at h1
    simp at h1
    exact ho.noself u a ha h1
  refine ⟨_, draw_eq hw hp hu he hd, ?_⟩
  generalize hsc : ({ sceneOf s.g evs with top := some r } : Scene T) = sc
  have s1 : sc.frames = (discovered evs).map (nameOf s.g) := by rw [← hsc]; simp [sceneOf, hT]
  have s2 : sc.tfs = (sceneOf s.g evs).tfs := by rw [← hsc]
  have s3 : sc.links = (sceneOf s.g evs).links := by rw [← hsc]
  have htg : sc.tfs.map (fun x => x.2.1) = ((treeArcs evs).map Arc.tgt).map (nameOf s.g) := by
    rw [s2]; simp [sceneOf, Function.comp_def]
  have hdn : (discovered evs).Nodup := hd.nodup
  have hfn : ((discovered evs).map (nameOf s.g)).Nodup :=
    List.Nodup.map_on (fun x hx y hy hxy => inj (hlive x hx) (hlive y hy) hxy) hdn
  have hfn' := hfn
  rw [hd.good.tgts, List.map_cons, List.nodup_cons, ← htg, nr] at hfn'
  have hpairs : sc.tfs.map (fun x => (x.1, x.2.1)) ++ sc.links =
      (treeArcs evs ++ grayArcs evs).map (fun a => (nameOf s.g a.src, nameOf s.g a.tgt)) := by
    rw [s2, s3]; simp [sceneOf, Function.comp_def]
  have hin : ∀ a ∈ treeArcs evs ++ grayArcs evs, a ∈ arcsOf evs := by
    intro a ha
    rcases List.mem_append.1 ha with ha | ha
    · exact mem_arcsOf.2 (Or.inl (mem_treeArcs.1 ha))
    · exact mem_arcsOf.2 (Or.inr (Or.inl (mem_grayArcs.1 ha)))
  have hends : ∀ a ∈ treeArcs evs ++ grayArcs evs, a.src ∈ discovered evs ∧ a.tgt ∈ discovered evs ∧ a ∈ s.g.outArcs a.src := by
    intro a ha
    obtain ⟨h1, h2⟩ := hd.tree_out outArcs_src (hin a ha)
    exact ⟨h1, (hd.closed _ h1 a h2).1, h2⟩
  refine ⟨by rw [← hsc], s1 ▸ hfn, ?_, ?_, ?_, ?_, ?_⟩
  · intro f
    rw [s1]
    constructor
    · intro hf
      obtain ⟨x, hx, rfl⟩ := List.mem_map.1 hf
      exact (hj _ x (vertexOf_nameOf hw (hlive x hx))).2 hx
    · intro hf
      by_cases hfr : f = r
      · subst hfr
        exact List.mem_map.2 ⟨u, hd.good.root_mem, nr⟩
      · obtain ⟨x, hx⟩ := Option.isSome_iff_exists.1 (hf.edges (Ne.symm hfr)).2.2
        exact List.mem_map.2 ⟨x, (hj f x hx).1 hf, nameOf_eq hw hx⟩
  · intro p
    exact ⟨fun hpl => Place.unique hfn'.2 hfn'.1 hpl .root, fun hp1 => hp1 ▸ .root⟩
  · intro f hfr hf
    obtain ⟨x, hx⟩ := Option.isSome_iff_exists.1 (hf.edges (Ne.symm hfr)).2.2
    have hxd := (hj f x hx).1 hf
    obtain ⟨path, e1, e2, e3⟩ := hd.good.search hxd
    have hne : path ≠ [] := by rintro rfl; simpa using e2.head
    obtain ⟨t, t1, t2⟩ := mulPath_eq (g := s.g) 1 hne (hd.tree_walk outArcs_src e2)
    have hpl : Place sc r f t := by
      have := place_path (r := r) s2 t1 e2.chain e2.head e2.last (acc := 1) (nr ▸ .root)
      rwa [nameOf_eq hw hx, one_mul] at this
    have hall : ∀ p, Place sc r f p ↔ p = t :=
      fun p => ⟨fun h' => Place.unique hfn'.2 hfn'.1 h' hpl, fun h' => h' ▸ hpl⟩
    have h0 : ¬ s.g.edges.length = 0 := fun hh => (hf.edges (Ne.symm hfr)).1 (List.length_eq_zero_iff.1 hh)
    cases hex : s.g.edge u x with
    | none =>
      exact ⟨⟨0, t⟩, by simp [getTransform, hu, hx, getTransformV, h0, hex, he, e1, t2], hall⟩
    | some e =>
      refine ⟨e.prop, by simp [getTransform, hu, hx, getTransformV, h0, hex], ?_⟩
      -- the path of the search is the connection itself
      have hcon : s.Conn r f := conn_iff.2 ⟨u, x, hu, hx, arcs_iff_edge.2 (by simp [hex])⟩
      have hlen := (treePath_shortest hw hu hx hd e2 e3).2.2 [r, f] ⟨rfl, rfl, by simpa using hcon⟩
      have hux : u ≠ x := by
        rintro rfl
        exact hfr (nr ▸ (nameOf_eq hw hx).symm)
      match path, e2, t1, hlen, hne with
      | [y], e2, _, _, _ =>
        have a1 := e2.head
        have a2 := e2.last
        simp at a1 a2
        exact absurd (a1.symm.trans a2) hux
      | [y, z], e2, t1, _, _ =>
        have a1 := e2.head
        have a2 := e2.last
        simp at a1 a2
        subst a1; subst a2
        cases t1 with
        | step hee hrest =>
          cases hrest
          rw [hex] at hee
          obtain rfl := Option.some.inj hee
          simpa using hall
      | y :: z :: w :: l, _, _, hlen, _ => simp at hlen
  · intro a c hja hac
    obtain ⟨x, y, hx, hy, arc, harc, hat⟩ := conn_iff.1 hac
    have hxd := (hj a x hx).1 hja
    have hyd : y ∈ discovered evs := hat ▸ (hd.closed x hxd arc harc).1
    rw [hpairs, List.filter_map, List.length_map]
    have hcongr : (treeArcs evs ++ grayArcs evs).filter (Pairs a c ∘ fun b => (nameOf s.g b.src, nameOf s.g b.tgt)) =
        (treeArcs evs ++ grayArcs evs).filter (fun b => b.Joins x y) := by
      refine List.filter_congr ?_
      intro b hb
      obtain ⟨b1, b2, -⟩ := hends b hb
      have k : ∀ {z w : VId} {f : FrameId}, z ∈ discovered evs → s.g.vertexOf f = some w → (nameOf s.g z = f ↔ z = w) := by
        intro z w f hz hwf
        refine ⟨fun hh => ?_, fun hh => hh ▸ nameOf_eq hw hwf⟩
        have := vertexOf_nameOf hw (hlive z hz)
        rw [hh, hwf] at this
        exact (Option.some.inj this).symm
      simp only [Function.comp, Pairs, Arc.Joins, Prod.mk.injEq, k b1 hx, k b2 hy, k b1 hy, k b2 hx]
      by_cases q1 : b.src = x ∧ b.tgt = y <;> by_cases q2 : b.src = y ∧ b.tgt = x <;> simp [q1, q2]
    rw [hcongr, List.filter_append, List.length_append]
    subst hat
    rcases hd.joins ho hxd harc with ⟨⟨t, ht, htj⟩, hg⟩ | ⟨hnt, hg⟩
    · rw [hg, List.length_nil, Nat.add_zero]
      have htn : (treeArcs evs).Nodup := by
        have := hd.nodup
        rw [hd.good.tgts, List.nodup_cons] at this
        exact List.Nodup.of_map _ this.2
      refine length_one (a := t) (htn.sublist List.filter_sublist) (List.mem_filter.2 ⟨ht, by simpa using htj⟩) ?_
      intro b hb
      obtain ⟨hb1, hb2⟩ := List.mem_filter.1 hb
      have hb2 : b.Joins x arc.tgt := by simpa using hb2
      have l1 := (hd.good.tree_arc ht).2.2.2
      have l2 := (hd.good.tree_arc hb1).2.2.2
      have hn' := hd.nodup
      rw [hd.good.tgts, List.nodup_cons] at hn'
      rcases htj with ⟨a1, a2⟩ | ⟨a1, a2⟩ <;> rcases hb2 with ⟨c1, c2⟩ | ⟨c1, c2⟩
      · exact List.inj_on_of_nodup_map hn'.2 hb1 ht (c2.trans a2.symm)
      · rw [a1, a2] at l1; rw [c1, c2] at l2; omega
      · rw [a1, a2] at l1; rw [c1, c2] at l2; omega
      · exact List.inj_on_of_nodup_map hn'.2 hb1 ht (c2.trans a2.symm)
    · have : (treeArcs evs).filter (fun b => b.Joins x arc.tgt) = [] := by
        rw [List.filter_eq_nil_iff]
        intro b hb hbj
        exact hnt ⟨b, hb, by simpa using hbj⟩
      rw [this, List.length_nil, Nat.zero_add]
      exact hg
  · intro o t hot
    rw [hpairs] at hot
    obtain ⟨a, ha, hae⟩ := List.mem_map.1 hot
    injection hae with h1 h2
    obtain ⟨b1, b2, b3⟩ := hends a ha
    subst h1; subst h2
    exact ⟨conn_of_arcs hw (hlive _ b1) ⟨a, b3, rfl⟩, (hj _ _ (vertexOf_nameOf hw (hlive _ b1))).2 b1⟩

example : ∃ s : GS DemoFrame (Tf DemoPose), run [.addEdge "a" "b" ⟨1, tn 1⟩, .addEdge "b" "c" ⟨2, sh 3⟩] init = some s ∧
    drawGraphStructure "c" s = .ok { frames := ["c", "b", "a"], tfs := [("c", "b", sh (-3)), ("b", "a", tn 1)], links := [], top := some "c" } s :=
  ⟨_, rfl, rfl⟩

/-- A root without a connection is not drawn at all: the scene has no frame when it is made its root. -/
theorem C82_isolated (cs : List (Cmd F (Tf T))) (hns : ∀ a p, Cmd.addEdge a a p ∉ cs) (s : GS F (Tf T))
    (h : run cs init = some s) (r : FrameId) (hr : containsFrame r s = true) (hc : ∀ b, ¬ s.Conn r b) :
    drawGraphStructure r s = .ok { top := some r } s := by
  have hw : WF s.g := run_wf WF.empty h
  have hp : Paired s.g := run_paired WF.empty Paired.empty h (noSelf_of hns)
  obtain ⟨u, hu⟩ := Option.isSome_iff_exists.1 hr
  obtain ⟨evs, lvl, he, hd⟩ := searchEvents_done hw (hw.live hu)
  rw [draw_eq hw hp hu he hd]
  have hout : s.g.outArcs u = [] := by
    cases ho : s.g.outArcs u with
    | nil => rfl
    | cons a l =>
      have ha : a ∈ s.g.outArcs u := by simp [ho]
      exact absurd (conn_iff.2 ⟨u, a.tgt, hu, vertexOf_nameOf hw (outArcs_live hw a ha), a, ha, rfl⟩) (hc _)
  have hmem : ∀ v ∈ discovered evs, v = u := by
    intro v hv
    have := (hd.mem_iff outArcs_src).1 hv
    rcases Relation.ReflTransGen.cases_head this with h1 | ⟨y, ⟨a, ha, -⟩, -⟩
    · exact h1.symm
    · rw [hout] at ha; cases ha
  have hT : treeArcs evs = [] := by
    cases hT : treeArcs evs with
    | nil => rfl
    | cons a l =>
      have ha : a ∈ treeArcs evs := by simp [hT]
      exact absurd (hmem _ (hd.good.tree_arc ha).2.1) (hd.good.tree_arc ha).2.2.1
  have hG : grayArcs evs = [] := by
    cases hG : grayArcs evs with
    | nil => rfl
    | cons a l =>
      have ha : a ∈ grayArcs evs := by simp [hG]
      obtain ⟨h1, h2⟩ := hd.tree_out outArcs_src (mem_arcsOf.2 (Or.inr (Or.inl (mem_grayArcs.1 ha))))
      rw [hmem _ h1, hout] at h2; cases h2
  simp [sceneOf, hT, hG]

example : ∃ s : GS DemoFrame (Tf DemoPose), run [.addEdge "a" "b" ⟨1, tn 1⟩, .addFrame "e"] init = some s ∧
    drawGraphStructure "e" s = .ok { top := some "e" } s := ⟨_, rfl, rfl⟩

/-- New data never makes the drawing fail if the graph has no self edges: the root that is drawn is always a frame of the graph. -/
theorem C82_update_partial (cs : List (Cmd F (Tf T))) (hns : ∀ a p, Cmd.addEdge a a p ∉ cs) (s : GS F (Tf T))
    (h : run cs init = some s) (v : Sel) :
    ∃ v' sc, updateDataIntern v s = .ok (v', sc) s ∧
      (numVertices s = 0 → sc = {}) ∧
      (0 < numVertices s → containsFrame v'.currentRoot s = true ∧ sc.top = some v'.currentRoot ∧
        v'.getNodes.head? = some v'.currentRoot ∧ (∀ f, f ∈ v'.getNodes ↔ containsFrame f s = true) ∧
        ((∃ b, s.Conn v'.currentRoot b) → Faithful s v'.currentRoot sc)) := by
  have hw : WF s.g := run_wf WF.empty h
  have hnm : ∀ f, f ∈ names s ↔ containsFrame f s = true := by
    intro f
    unfold names containsFrame
    rw [List.mem_map]
    constructor
    · rintro ⟨x, hx, rfl⟩
      have hlx : Live s.g x.id := ⟨x, hx, rfl⟩
      have := vertexOf_nameOf hw hlx
      rw [nameOf, hw.findV_iff.2 ⟨hx, rfl⟩] at this
      simp only [Option.map_some, Option.getD_some] at this
      simp [this]
    · intro hf
      obtain ⟨u, hu⟩ := Option.isSome_iff_exists.1 hf
      obtain ⟨x, hx, hxf⟩ := hw.live_of_vertexOf hu
      exact ⟨x, (hw.findV_iff.1 hx).1, hxf⟩
  have hnd : (names s).Nodup := by
    refine List.Nodup.map_on ?_ (List.Nodup.of_map VRec.id hw.vnodup)
    intro x hx y hy hxy
    have h1 := vertexOf_nameOf hw ⟨x, hx, rfl⟩
    have h2 := vertexOf_nameOf hw ⟨y, hy, rfl⟩
    simp only [nameOf, hw.findV_iff.2 ⟨hx, rfl⟩, hw.findV_iff.2 ⟨hy, rfl⟩, Option.map_some, Option.getD_some] at h1 h2
    rw [hxy, h2] at h1
    have f1 := hw.findV_iff.2 ⟨hx, rfl⟩
    rw [← Option.some.inj h1, hw.findV_iff.2 ⟨hy, rfl⟩] at f1
    exact (Option.some.inj f1).symm
  obtain ⟨o1, o2, o3, o4⟩ := C81_offer v (names s) hnd
  by_cases h0 : s.g.verts.length = 0
  · refine ⟨v.initNodeList (names s), {}, by simp [updateDataIntern, drawGraphStructure, h0], fun _ => rfl, fun hh => ?_⟩
    simp [numVertices, h0] at hh
  · have hne : names s ≠ [] := by
      intro hh
      exact h0 (by simpa [names] using hh)
    have hmem : (v.initNodeList (names s)).currentRoot ∈ names s :=
      o1.mem_iff.1 (List.mem_of_head? (o2 hne))
    have hcr := (hnm _).1 hmem
    by_cases hcon : ∃ b, s.Conn (v.initNodeList (names s)).currentRoot b
    · obtain ⟨b, hb⟩ := hcon
      obtain ⟨sc, d1, d2⟩ := C82_scene_partial cs hns s h _ b hb
      exact ⟨_, sc, by simp [updateDataIntern, d1], fun hh => absurd hh h0, fun _ => ⟨hcr, d2.top, o2 hne,
        fun f => (o1.mem_iff).trans (hnm f), fun _ => d2⟩⟩
    · have d1 := C82_isolated cs hns s h _ hcr (fun b hb => hcon ⟨b, hb⟩)
      exact ⟨v.initNodeList (names s), { top := some (v.initNodeList (names s)).currentRoot }, by simp only [updateDataIntern, d1], fun hh => absurd hh h0, fun _ => ⟨hcr, rfl, o2 hne,
        fun f => (o1.mem_iff).trans (hnm f), fun hh => absurd hh hcon⟩⟩

/-- the chosen root is gone: another frame is drawn -/
example : ∃ s : GS DemoFrame (Tf DemoPose), run [.addEdge "a" "b" ⟨1, sh 1⟩] init = some s ∧
    updateDataIntern { currentRoot := "gone" } s = .ok ({ nextNodes := ["a", "b"], currentRoot := "a" },
      { frames := ["a", "b"], tfs := [("a", "b", sh 1)], top := some "a" }) s := ⟨_, rfl, rfl⟩

/-- The full statement is false: the only frame of a graph is not drawn. -/
theorem C82_statement_fails : ¬ C82_statement DemoFrame DemoPose := by
  intro H
  obtain ⟨sc, h1, h2⟩ := H [.addFrame "a"] _ rfl "a" rfl
  have e := congrArg (fun x => x.val?.map Scene.frames) h1
  have e' : some [] = some sc.frames := e
  have h3 := (h2.frames "a").2 (Joined.refl _ _)
  rw [← Option.some.inj e'] at h3
  cases h3

/-- With a self edge at the root the asserts of the slot fail: the cross edge comes before any frame was added. -/
theorem C82_self_edge_fails : ∃ s : GS DemoFrame (Tf DemoPose), run [.addEdge "a" "a" ⟨0, sh 1⟩, .addEdge "a" "b" ⟨0, sh 2⟩] init = some s ∧
    drawGraphStructure "a" s = .ub "drawGraphStructure: assert(srcNode), assert(tarNode)" := ⟨_, rfl, rfl⟩

/-- a triangle with a tail, transforms that contradict each other, seen from "b" -/
example : ∃ s : GS DemoFrame (Tf DemoPose),
    run [.addEdge "a" "b" ⟨1, tn 1⟩, .addEdge "b" "c" ⟨2, sh 3⟩, .addEdge "a" "c" ⟨3, sh 10⟩, .addEdge "d" "c" ⟨3, sh 7⟩, .addFrame "e"] init = some s ∧
    drawGraphStructure "b" s = .ok { frames := ["b", "a", "c", "d"], tfs := [("b", "a", tn 1), ("b", "c", sh 3), ("c", "d", sh (-7))],
                                     links := [("a", "c")], top := some "b" } s ∧
    getTransform "b" "d" s = .ok ⟨0, sh (-4)⟩ s ∧
    drawGraphStructure "e" s = .ok { top := some "e" } s ∧
    drawGraphStructure "f" s = .throw (.unknownFrame "f") s := ⟨_, rfl, rfl, rfl, rfl, rfl⟩

/-- new data: the chosen root is kept, the others follow -/
example : ∃ s : GS DemoFrame (Tf DemoPose), run [.addEdge "a" "b" ⟨1, sh 1⟩] init = some s ∧
    updateDataIntern { currentRoot := "b" } s = .ok ({ nextNodes := ["b", "a"], currentRoot := "b" },
      { frames := ["b", "a"], tfs := [("b", "a", sh (-1))], top := some "b" }) s := ⟨_, rfl, rfl⟩

end Verif
