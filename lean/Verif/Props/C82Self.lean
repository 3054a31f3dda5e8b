import Verif.Lemmas.VizSelf
import Verif.Props.C82
/-! # C82: the scene of the structure visualization, graphs with self edges -/

namespace Verif
open GS Viz
variable {F T : Type} [FrameProp F] [Group T]

private theorem scene_loops {s : GS F (Tf T)} (hw : WF s.g) (hp : Paired s.g.ns) (h2 : SelfTwo s.g) {r : FrameId} {u : VId} (hu : s.g.vertexOf r = some u)
    {a0 : Arc} {as : List Arc} (harcs : s.g.outArcs u = a0 :: as) (harc : a0.tgt ≠ u) :
    ∃ sc, drawGraphStructure r s = .ok sc s ∧ FaithfulLoops s r sc := by
  have hl := hw.live hu
  obtain ⟨evs, lvl, he, hd⟩ := searchEvents_done hw hl
  have ho := outArcs_paired_ne hw hp
  have hlive : ∀ x ∈ discovered evs, Live s.g x := fun x hx => hd.live hw hl hx
  have inj : ∀ {x y : VId}, Live s.g x → Live s.g y → nameOf s.g x = nameOf s.g y → x = y := by
    intro x y hx hy hxy
    have h1 := vertexOf_nameOf hw hx
    rw [hxy, vertexOf_nameOf hw hy] at h1
    exact (Option.some.inj h1).symm
  have nr : nameOf s.g u = r := nameOf_eq hw hu
  -- discovered = joined
  have hj : ∀ f x, s.g.vertexOf f = some x → (Joined s r f ↔ x ∈ discovered evs) := by
    intro f x hx
    constructor
    · rintro ⟨l, hl'⟩
      obtain ⟨q, q1, q2, q3, -⟩ := walk_of_path hl' hu hx
      exact (hd.walk q x q1 q2 q3).1
    · intro hxd
      obtain ⟨path, e1, e2, -⟩ := hd.good.path x hxd
      exact ⟨_, (treePath_shortest hw hu hx hd e1 e2).1⟩
  have hgl : GrayLate evs := by
    have := bfs_first he harcs
    simp only [bfsArc, bfsInit, if_neg harc] at this
    exact .of_prefix this
  have hT : treeArcs evs ≠ [] := by
    have := bfs_first he harcs
    simp only [bfsArc, bfsInit, if_neg harc] at this
    obtain ⟨m, rfl⟩ := this
    intro hh
    have : a0 ∈ treeArcs ([BfsEv.discover u] ++ [BfsEv.treeEdge a0, BfsEv.discover a0.tgt] ++ m) := mem_treeArcs.2 (by simp)
    rw [hh] at this; cases this
  refine ⟨_, draw_eq_ns hw hu he hd hgl, ?_⟩
  generalize hsc : ({ sceneOf s.g evs with top := some r } : Scene T) = sc
  have s1 : sc.frames = (discovered evs).map (nameOf s.g) := by rw [← hsc]; simp [sceneOf, hT]
  have s2 : sc.tfs = (sceneOf s.g evs).tfs := by rw [← hsc]
  have s3 : sc.links = (sceneOf s.g evs).links := by rw [← hsc]
  have htg : sc.tfs.map (fun x => x.2.1) = ((treeArcs evs).map Arc.tgt).map (nameOf s.g) := by
    rw [s2]; simp [sceneOf, Function.comp_def]
  have hdn : (discovered evs).Nodup := hd.nodup
  have hfn : ((discovered evs).map (nameOf s.g)).Nodup :=
    List.Nodup.map_on (fun x hx y hy hxy => inj (hlive x hx) (hlive y hy) hxy) hdn
  have hfn' := hfn
  rw [hd.good.tgts, List.map_cons, List.nodup_cons, ← htg, nr] at hfn'
  have hpairs : sc.tfs.map (fun x => (x.1, x.2.1)) ++ sc.links =
      (treeArcs evs ++ grayArcs evs).map (fun a => (nameOf s.g a.src, nameOf s.g a.tgt)) := by
    rw [s2, s3]; simp [sceneOf, Function.comp_def]
  have hin : ∀ a ∈ treeArcs evs ++ grayArcs evs, a ∈ arcsOf evs := by
    intro a ha
    rcases List.mem_append.1 ha with ha | ha
    · exact mem_arcsOf.2 (Or.inl (mem_treeArcs.1 ha))
    · exact mem_arcsOf.2 (Or.inr (Or.inl (mem_grayArcs.1 ha)))
  have hends : ∀ a ∈ treeArcs evs ++ grayArcs evs, a.src ∈ discovered evs ∧ a.tgt ∈ discovered evs ∧ a ∈ s.g.outArcs a.src := by
    intro a ha
    obtain ⟨h1, h2⟩ := hd.tree_out outArcs_src (hin a ha)
    exact ⟨h1, (hd.closed _ h1 a h2).1, h2⟩
  refine ⟨by rw [← hsc], s1 ▸ hfn, ?_, ?_, ?_, ?_, ?_, ?_⟩
  · intro f
    rw [s1]
    constructor
    · intro hf
      obtain ⟨x, hx, rfl⟩ := List.mem_map.1 hf
      exact (hj _ x (vertexOf_nameOf hw (hlive x hx))).2 hx
    · intro hf
      by_cases hfr : f = r
      · subst hfr
        exact List.mem_map.2 ⟨u, hd.good.root_mem, nr⟩
      · obtain ⟨x, hx⟩ := Option.isSome_iff_exists.1 (hf.edges (Ne.symm hfr)).2.2
        exact List.mem_map.2 ⟨x, (hj f x hx).1 hf, nameOf_eq hw hx⟩
  · intro p
    exact ⟨fun hpl => Place.unique hfn'.2 hfn'.1 hpl .root, fun hp1 => hp1 ▸ .root⟩
  · intro f hfr hf
    obtain ⟨x, hx⟩ := Option.isSome_iff_exists.1 (hf.edges (Ne.symm hfr)).2.2
    have hxd := (hj f x hx).1 hf
    obtain ⟨path, e1, e2, e3⟩ := hd.good.search hxd
    have hne : path ≠ [] := by rintro rfl; simpa using e2.head
    obtain ⟨t, t1, t2⟩ := mulPath_eq (g := s.g) 1 hne (hd.tree_walk outArcs_src e2)
    have hpl : Place sc r f t := by
      have := place_path (r := r) s2 t1 e2.chain e2.head e2.last (acc := 1) (nr ▸ .root)
      rwa [nameOf_eq hw hx, one_mul] at this
    have hall : ∀ p, Place sc r f p ↔ p = t :=
      fun p => ⟨fun h' => Place.unique hfn'.2 hfn'.1 h' hpl, fun h' => h' ▸ hpl⟩
    have h0 : ¬ s.g.edges.length = 0 := fun hh => (hf.edges (Ne.symm hfr)).1 (List.length_eq_zero_iff.1 hh)
    cases hex : s.g.edge u x with
    | none =>
      exact ⟨⟨0, t⟩, by simp [getTransform, hu, hx, getTransformV, h0, hex, he, e1, t2], hall⟩
    | some e =>
      refine ⟨e.prop, by simp [getTransform, hu, hx, getTransformV, h0, hex], ?_⟩
      -- the path of the search is the connection itself
      have hcon : s.Conn r f := conn_iff.2 ⟨u, x, hu, hx, arcs_iff_edge.2 (by simp [hex])⟩
      have hlen := (treePath_shortest hw hu hx hd e2 e3).2.2 [r, f] ⟨rfl, rfl, by simpa using hcon⟩
      have hux : u ≠ x := by
        rintro rfl
        exact hfr (nr ▸ (nameOf_eq hw hx).symm)
      match path, e2, t1, hlen, hne with
      | [y], e2, _, _, _ =>
        have a1 := e2.head
        have a2 := e2.last
        simp at a1 a2
        exact absurd (a1.symm.trans a2) hux
      | [y, z], e2, t1, _, _ =>
        have a1 := e2.head
        have a2 := e2.last
        simp at a1 a2
        subst a1; subst a2
        cases t1 with
        | step hee hrest =>
          cases hrest
          rw [hex] at hee
          obtain rfl := Option.some.inj hee
          simpa using hall
      | y :: z :: w :: l, _, _, hlen, _ => simp at hlen
  · intro a c hne hja hac
    obtain ⟨x, y, hx, hy, arc, harc, hat⟩ := conn_iff.1 hac
    have hxd := (hj a x hx).1 hja
    have hyd : y ∈ discovered evs := hat ▸ (hd.closed x hxd arc harc).1
    rw [hpairs, List.filter_map, List.length_map]
    have hcongr : (treeArcs evs ++ grayArcs evs).filter (Pairs a c ∘ fun b => (nameOf s.g b.src, nameOf s.g b.tgt)) =
        (treeArcs evs ++ grayArcs evs).filter (fun b => b.Joins x y) := by
      refine List.filter_congr ?_
      intro b hb
      obtain ⟨b1, b2, -⟩ := hends b hb
      have k : ∀ {z w : VId} {f : FrameId}, z ∈ discovered evs → s.g.vertexOf f = some w → (nameOf s.g z = f ↔ z = w) := by
        intro z w f hz hwf
        refine ⟨fun hh => ?_, fun hh => hh ▸ nameOf_eq hw hwf⟩
        have := vertexOf_nameOf hw (hlive z hz)
        rw [hh, hwf] at this
        exact (Option.some.inj this).symm
      simp only [Function.comp, Pairs, Arc.Joins, Prod.mk.injEq, k b1 hx, k b2 hy, k b1 hy, k b2 hx]
      by_cases q1 : b.src = x ∧ b.tgt = y <;> by_cases q2 : b.src = y ∧ b.tgt = x <;> simp [q1, q2]
    rw [hcongr, List.filter_append, List.length_append]
    subst hat
    rcases hd.joins_ne ho hxd harc (fun hh => hne (hw.vertexOf_inj hx (hh ▸ hy))) with ⟨⟨t, ht, htj⟩, hg⟩ | ⟨hnt, hg⟩
    · rw [hg, List.length_nil, Nat.add_zero]
      have htn : (treeArcs evs).Nodup := by
        have := hd.nodup
        rw [hd.good.tgts, List.nodup_cons] at this
        exact List.Nodup.of_map _ this.2
      refine length_one (a := t) (htn.sublist List.filter_sublist) (List.mem_filter.2 ⟨ht, by simpa using htj⟩) ?_
      intro b hb
      obtain ⟨hb1, hb2⟩ := List.mem_filter.1 hb
      have hb2 : b.Joins x arc.tgt := by simpa using hb2
      have l1 := (hd.good.tree_arc ht).2.2.2
      have l2 := (hd.good.tree_arc hb1).2.2.2
      have hn' := hd.nodup
      rw [hd.good.tgts, List.nodup_cons] at hn'
      rcases htj with ⟨a1, a2⟩ | ⟨a1, a2⟩ <;> rcases hb2 with ⟨c1, c2⟩ | ⟨c1, c2⟩
      · exact List.inj_on_of_nodup_map hn'.2 hb1 ht (c2.trans a2.symm)
      · rw [a1, a2] at l1; rw [c1, c2] at l2; omega
      · rw [a1, a2] at l1; rw [c1, c2] at l2; omega
      · exact List.inj_on_of_nodup_map hn'.2 hb1 ht (c2.trans a2.symm)
    · have : (treeArcs evs).filter (fun b => b.Joins x arc.tgt) = [] := by
        rw [List.filter_eq_nil_iff]
        intro b hb hbj
        exact hnt ⟨b, hb, by simpa using hbj⟩
      rw [this, List.length_nil, Nat.zero_add]
      exact hg
  · intro a hja haa
    obtain ⟨x, y, hx, hy, arc, harc, hat⟩ := conn_iff.1 haa
    rw [hx] at hy
    obtain rfl := Option.some.inj hy
    have hxd := (hj a x hx).1 hja
    have hlk : sc.links = (grayArcs evs).map (fun a => (nameOf s.g a.src, nameOf s.g a.tgt)) := by rw [s3]; simp [sceneOf]
    rw [hlk, List.filter_map, List.length_map]
    have hcongr : (grayArcs evs).filter (Pairs a a ∘ fun b => (nameOf s.g b.src, nameOf s.g b.tgt)) =
        (grayArcs evs).filter (fun b => b.Joins x x) := by
      refine List.filter_congr ?_
      intro b hb
      obtain ⟨b1, b2, -⟩ := hends b (List.mem_append.2 (Or.inr hb))
      have k : ∀ {z w : VId} {f : FrameId}, z ∈ discovered evs → s.g.vertexOf f = some w → (nameOf s.g z = f ↔ z = w) := by
        intro z w f hz hwf
        refine ⟨fun hh => ?_, fun hh => hh ▸ nameOf_eq hw hwf⟩
        have := vertexOf_nameOf hw (hlive z hz)
        rw [hh, hwf] at this
        exact (Option.some.inj this).symm
      simp only [Function.comp, Pairs, Arc.Joins, Prod.mk.injEq, k b1 hx, k b2 hx]
      by_cases q1 : b.src = x ∧ b.tgt = x <;> simp [q1]
    rw [hcongr, hd.self_count ho hxd, outArcs_self_length]
    rcases h2 x with h0 | h0
    · exfalso
      rw [← outArcs_self_length, List.length_eq_zero_iff, List.filter_eq_nil_iff] at h0
      exact h0 arc harc (by simp [hat])
    · exact h0
  · intro o t hot
    rw [hpairs] at hot
    obtain ⟨a, ha, hae⟩ := List.mem_map.1 hot
    injection hae with h1 h2
    obtain ⟨b1, b2, b3⟩ := hends a ha
    subst h1; subst h2
    exact ⟨conn_of_arcs hw (hlive _ b1) ⟨a, b3, rfl⟩, (hj _ _ (vertexOf_nameOf hw (hlive _ b1))).2 b1⟩

/-- **Self edges, exact.**  In every history, for every root `r` that is a frame (its vertex is `u`): drawing is undefined behaviour exactly if
the oldest edge that leaves `r` leads to `r` itself.  Otherwise, if `r` is connected at all, the scene shows the part of the graph that is
connected with `r`, the self edges of its frames as two links each. -/
theorem C82_scene_with_self_edges_partial (cs : List (Cmd F (Tf T))) (s : GS F (Tf T)) (h : run cs init = some s) (r : FrameId) (u : VId)
    (hu : getVertex r s = .ok u s) :
    ((∃ m, drawGraphStructure r s = .ub m) ↔ ∃ e, (s.g.outEdges u).head? = some e ∧ e.tgt = u) ∧
    ((∃ b, s.Conn r b) → (∀ m, drawGraphStructure r s ≠ .ub m) → ∃ sc, drawGraphStructure r s = .ok sc s ∧ FaithfulLoops s r sc) ∧
    ((∀ b, ¬ s.Conn r b) → drawGraphStructure r s = .ok { top := some r } s) := by
  have hw : WF s.g := run_wf WF.empty h
  have hp := run_paired_ns h
  have h2 := run_selfTwo h
  replace hu := getVertex_ok hu
  obtain ⟨evs, lvl, he, hd⟩ := searchEvents_done hw (hw.live hu)
  cases ho : s.g.outEdges u with
  | nil =>
    have hout : s.g.outArcs u = [] := by simp [G.outArcs, ho]
    have hno : ∀ b, ¬ s.Conn r b := by
      intro b hc
      obtain ⟨x, y, hx, -, a, ha, -⟩ := conn_iff.1 hc
      rw [hu] at hx
      obtain rfl := Option.some.inj hx
      rw [hout] at ha; cases ha
    have hmem : ∀ v ∈ discovered evs, v = u := by
      intro v hv
      have := (hd.mem_iff outArcs_src).1 hv
      rcases Relation.ReflTransGen.cases_head this with h1 | ⟨y, ⟨a, ha, -⟩, -⟩
      · exact h1.symm
      · rw [hout] at ha; cases ha
    have hT : treeArcs evs = [] := by
      cases hT : treeArcs evs with
      | nil => rfl
      | cons a l =>
        have ha : a ∈ treeArcs evs := by simp [hT]
        exact absurd (hmem _ (hd.good.tree_arc ha).2.1) (hd.good.tree_arc ha).2.2.1
    have hG : grayArcs evs = [] := by
      cases hG : grayArcs evs with
      | nil => rfl
      | cons a l =>
        have ha : a ∈ grayArcs evs := by simp [hG]
        obtain ⟨h1, h2⟩ := hd.tree_out outArcs_src (mem_arcsOf.2 (Or.inr (Or.inl (mem_grayArcs.1 ha))))
        rw [hmem _ h1, hout] at h2; cases h2
    have hdraw : drawGraphStructure r s = .ok { top := some r } s := by
      rw [draw_eq_ns hw hu he hd]
      · simp [sceneOf, hT, hG]
      · intro pre a post hl
        have : a ∈ grayArcs evs := mem_grayArcs.2 (by rw [hl]; simp)
        rw [hG] at this; cases this
    refine ⟨by simp [hdraw], fun ⟨b, hb⟩ => absurd hb (hno b), fun _ => hdraw⟩
  | cons e es =>
    have harcs : s.g.outArcs u = e.arc :: es.map ERec.arc := by simp [G.outArcs, ho]
    have hcon : ¬ ∀ b, ¬ s.Conn r b := by
      intro hn
      have ha : e.arc ∈ s.g.outArcs u := by rw [harcs]; simp
      exact hn _ (conn_iff.2 ⟨u, e.arc.tgt, hu, vertexOf_nameOf hw (outArcs_live hw _ ha), e.arc, ha, rfl⟩)
    by_cases hs : e.tgt = u
    · have hub := draw_self_ub hw hu he harcs hs
      exact ⟨by simp [hub, hs], fun _ hn => absurd hub (hn _), fun hn => absurd hn hcon⟩
    · obtain ⟨sc, h3, h4⟩ := scene_loops hw hp h2 hu harcs hs
      exact ⟨by simp [h3, hs], fun _ _ => ⟨sc, h3, h4⟩, fun hn => absurd hn hcon⟩

/-- the self edge of `a` is younger than its edge to `b`: drawn as two links, like that of `b` -/
example : ∃ s : GS DemoFrame (Tf DemoPose), run [.addEdge "a" "b" ⟨0, sh 2⟩, .addEdge "a" "a" ⟨0, sh 1⟩, .addEdge "b" "b" ⟨0, sh 1⟩] init = some s ∧
    (s.g.outEdges 0).head?.map ERec.tgt = some 1 ∧
    drawGraphStructure "a" s = .ok { frames := ["a", "b"], tfs := [("a", "b", sh 2)], links := [("a", "a"), ("a", "a"), ("b", "b"), ("b", "b")],
                                     top := some "a" } s ∧
    -- removing the older edge and adding it again makes the self edge the oldest one
    ∃ s', run [.removeEdge "a" "b", .addEdge "a" "b" ⟨0, sh 2⟩] s = some s' ∧ (s'.g.outEdges 0).head?.map ERec.tgt = some 0 ∧
      drawGraphStructure "a" s' = .ub "drawGraphStructure: assert(srcNode), assert(tarNode)" := ⟨_, rfl, rfl, rfl, _, rfl, rfl, rfl⟩

end Verif
