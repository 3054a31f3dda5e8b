import Verif.Lemmas.ViewHistory
import Verif.Lemmas.ForestHistory
import Verif.Lemmas.ViewSelf
import Verif.Spec.SelfView

set_option linter.unusedSectionVars false
set_option linter.unusedSimpArgs false
/-! Subscribed views of graphs with self edges: seen without self edges they behave as views of the graph without self edges. -/

namespace Verif
open GS TreeView

/-- a callback that is not about an arc from a vertex to itself that is already known -/
def BfsEv.keepNs : BfsEv → Bool
  | .grayTarget a => a.src ≠ a.tgt
  | .blackTarget a => a.src ≠ a.tgt
  | _ => true

/-- the search state without callbacks about self arcs -/
def BfsSt.ns (s : BfsSt) : BfsSt := { s with evs := s.evs.filter BfsEv.keepNs }

theorem bfsArc_ns_self {s : BfsSt} {a : Arc} (h : a.src = a.tgt) (hc : s.color a.tgt ≠ .white) : (bfsArc s a).ns = s.ns ∧ (bfsArc s a).color = s.color := by
  unfold bfsArc
  cases hh : s.color a.tgt with
  | white => exact absurd hh hc
  | gray => simp [BfsSt.ns, List.filter_append, BfsEv.keepNs, h]
  | black => simp [BfsSt.ns, List.filter_append, BfsEv.keepNs, h]

theorem bfsArc_ns_ne {s : BfsSt} {a : Arc} (h : a.src ≠ a.tgt) : (bfsArc s a).ns = bfsArc s.ns a := by
  unfold bfsArc
  have : s.ns.color = s.color := rfl
  rw [this]
  cases hh : s.color a.tgt <;> simp [BfsSt.ns, List.filter_append, BfsEv.keepNs, h, List.filter_cons]

/-- no vertex becomes white, and what is put into the queue is not white -/
theorem bfsArc_white {s : BfsSt} {a : Arc} : (∀ x, s.color x ≠ .white → (bfsArc s a).color x ≠ .white) ∧
    ((∀ x ∈ s.queue, s.color x ≠ .white) → ∀ x ∈ (bfsArc s a).queue, (bfsArc s a).color x ≠ .white) := by
  unfold bfsArc
  cases hh : s.color a.tgt with
  | white =>
    constructor
    · intro x hx
      simp only
      split
      · simp
      · exact hx
    · intro hq x hx
      simp only [List.mem_append, List.mem_singleton] at hx
      simp only
      split
      · simp
      · rename_i hne
        exact hq x (hx.resolve_right hne)
  | gray => exact ⟨fun x hx => hx, fun hq x hx => hq x hx⟩
  | black => exact ⟨fun x hx => hx, fun hq x hx => hq x hx⟩

theorem bfsScan_ns {u : VId} : ∀ (as : List Arc) (s : BfsSt), (∀ a ∈ as, a.src = u) → s.color u ≠ .white → (∀ x ∈ s.queue, s.color x ≠ .white) →
    (bfsScan s as).ns = bfsScan s.ns (as.filter (fun a => a.src ≠ a.tgt)) ∧ (∀ x ∈ (bfsScan s as).queue, (bfsScan s as).color x ≠ .white) := by
  intro as
  induction as with
  | nil => intro s _ _ hq; exact ⟨rfl, hq⟩
  | cons a as ih =>
    intro s hs hu hq
    obtain ⟨w1, w2⟩ := bfsArc_white (s := s) (a := a)
    obtain ⟨i1, i2⟩ := ih (bfsArc s a) (fun b hb => hs b (List.mem_cons_of_mem _ hb)) (w1 u hu) (w2 hq)
    refine ⟨?_, i2⟩
    show (bfsScan (bfsArc s a) as).ns = _
    rw [i1]
    by_cases h : a.src = a.tgt
    · have hc : s.color a.tgt ≠ .white := by rw [← h, hs a (by simp)]; exact hu
      rw [(bfsArc_ns_self h hc).1]
      simp [List.filter_cons, h]
    · rw [bfsArc_ns_ne h]
      simp [List.filter_cons, h, bfsScan]

theorem bfsLoop_ns {out : VId → List Arc} (ho : ∀ u, ∀ a ∈ out u, a.src = u) : ∀ (n : Nat) (s : BfsSt), (∀ x ∈ s.queue, s.color x ≠ .white) →
    (bfsLoop out n s).map BfsSt.ns = bfsLoop (fun u => (out u).filter (fun a => a.src ≠ a.tgt)) n s.ns := by
  intro n
  induction n with
  | zero =>
    intro s _
    unfold bfsLoop
    have : s.ns.queue = s.queue := rfl
    rw [this]
    cases s.queue <;> rfl
  | succ n ih =>
    intro s hq
    unfold bfsLoop
    have hsq : s.ns.queue = s.queue := rfl
    rw [hsq]
    cases hqq : s.queue with
    | nil => rfl
    | cons u q =>
      simp only
      rw [hqq] at hq
      obtain ⟨i1, i2⟩ := bfsScan_ns (out u) { s with queue := q } (ho u) (hq u (by simp)) (fun x hx => hq x (List.mem_cons_of_mem _ hx))
      rw [ih _ (by
        intro x hx
        simp only
        split
        · simp
        · exact i2 x hx)]
      congr 1
      have e1 : bfsScan { s.ns with queue := q } ((out u).filter (fun a => a.src ≠ a.tgt)) = (bfsScan { s with queue := q } (out u)).ns := i1.symm
      rw [e1]
      rfl

theorem bfs_ns {out : VId → List Arc} (ho : ∀ u, ∀ a ∈ out u, a.src = u) (n : Nat) (root : VId) :
    (bfs out n root).map (List.filter BfsEv.keepNs) = bfs (fun u => (out u).filter (fun a => a.src ≠ a.tgt)) n root := by
  have h := bfsLoop_ns ho n (bfsInit root) (by simp [bfsInit])
  have hi : (bfsInit root).ns = bfsInit root := rfl
  rw [hi] at h
  unfold bfs
  rw [← h, Option.map_map, Option.map_map]
  rfl

/-- the view without cross edges from a vertex to itself -/
def TreeView.ns (w : TreeView) : TreeView := { w with crossEdges := w.crossEdges.filter (fun c => c.origin ≠ c.target), signals := [] }

/-- the view without its record of emitted signals -/
def TreeView.quiet (w : TreeView) : TreeView := { w with signals := [] }

theorem TreeView.ns_addEdge (w : TreeView) (o t : VId) : (w.addEdge o t).ns = (w.ns.addEdge o t).quiet := rfl

theorem TreeView.quiet_addEdge (w : TreeView) (o t : VId) : (w.quiet.addEdge o t).quiet = (w.addEdge o t).quiet := rfl

theorem TreeView.quiet_buildStep (w : TreeView) (e : BfsEv) : (w.quiet.buildStep e).quiet = (w.buildStep e).quiet := by
  cases e <;> rfl

theorem TreeView.quiet_build : ∀ (evs : List BfsEv) (w : TreeView), (w.quiet.build evs).quiet = (w.build evs).quiet := by
  intro evs
  induction evs with
  | nil => intro w; rfl
  | cons e evs ih =>
    intro w
    show ((w.quiet.buildStep e).build evs).quiet = ((w.buildStep e).build evs).quiet
    rw [← ih, quiet_buildStep, ih]

theorem TreeView.ns_build : ∀ (evs : List BfsEv) (w : TreeView), (w.build evs).ns = (w.ns.build (evs.filter BfsEv.keepNs)).quiet := by
  intro evs
  induction evs with
  | nil => intro w; rfl
  | cons e evs ih =>
    intro w
    show ((w.buildStep e).build evs).ns = _
    rw [ih]
    have hk : e.keepNs = true → (w.buildStep e).ns = (w.ns.buildStep e).quiet := by
      intro hk
      cases e with
      | grayTarget a =>
        have : a.src ≠ a.tgt := by simpa [BfsEv.keepNs] using hk
        simp [buildStep, addCrossEdge, TreeView.ns, TreeView.quiet, List.filter_append, this]
      | _ => rfl
    have hn : e.keepNs = false → (w.buildStep e).ns = w.ns := by
      intro hk
      cases e with
      | grayTarget a =>
        have : a.src = a.tgt := by simpa [BfsEv.keepNs] using hk
        simp [buildStep, addCrossEdge, TreeView.ns, List.filter_append, this]
      | blackTarget a => rfl
      | discover v => simp [BfsEv.keepNs] at hk
      | treeEdge a => simp [BfsEv.keepNs] at hk
    cases h : e.keepNs with
    | true =>
      rw [List.filter_cons_of_pos h, hk h, quiet_build]
      rfl
    | false =>
      rw [List.filter_cons_of_neg (by simp [h]), hn h]

variable {F E : Type} [FrameProp F] [EdgeProp E]

theorem G.outArcs_ns (g : G F E) : g.ns.outArcs = fun u => (g.outArcs u).filter (fun a => a.src ≠ a.tgt) := by
  funext u
  simp only [G.outArcs, G.outEdges, G.ns, List.filter_map, List.filter_filter]
  congr 1
  apply List.filter_congr
  intro r _
  by_cases h1 : r.src = u <;> by_cases h2 : r.src = r.tgt <;> simp [Function.comp, ERec.arc, h1, h2]

theorem searchEvents_ns (g : G F E) (u : VId) : (searchEvents g u).map (List.filter BfsEv.keepNs) = searchEvents g.ns u := by
  unfold searchEvents
  rw [bfs_ns outArcs_src, G.outArcs_ns]
  rfl

theorem AddedPair.ns {g g2 : G F E} {e e' : ERec E} (h : AddedPair g g2 e e') : AddedPair g.ns g2.ns e e' := by
  have hn : e'.src ≠ e'.tgt := by rw [h.src, h.tgt]; exact h.ne.symm
  refine ⟨?_, h.verts, fun x hx => h.ids x (G.mem_ns.1 hx).1, h.src, h.tgt, h.ne, ?_, h.live⟩
  · simp only [G.ns, h.edges, List.filter_append]
    congr 1
    rw [List.filter_eq_self]
    intro x hx
    simp only [List.mem_cons, List.not_mem_nil, or_false] at hx
    rcases hx with rfl | rfl
    · simpa using h.ne
    · simpa using hn
  · constructor
    · rintro ⟨x, hx, h1, h2⟩; exact h.fresh.1 ⟨x, (G.mem_ns.1 hx).1, h1, h2⟩
    · rintro ⟨x, hx, h1, h2⟩; exact h.fresh.2 ⟨x, (G.mem_ns.1 hx).1, h1, h2⟩

theorem BfsDone.no_arcs {out : VId → List Arc} (ho : ∀ u, ∀ a ∈ out u, a.src = u) {n : VId} {evs : List BfsEv} {lvl : VId → Nat}
    (hd : BfsDone out n evs lvl) (h0 : out n = []) : arcsOf evs = [] := by
  have hall : ∀ v ∈ discovered evs, v = n := by
    intro v hv
    rw [hd.mem_iff ho] at hv
    induction hv with
    | refl => rfl
    | tail _ hxy ih =>
      subst ih
      obtain ⟨a, ha, -⟩ := hxy
      rw [h0] at ha; cases ha
  rw [hd.arcs, List.flatMap_eq_nil_iff]
  intro x hx
  rw [hall x hx, h0]

/-- what is done with the part of the graph that becomes connected to the view -/
theorem attach_eq {g g2 : G F E} {e e' : ERec E} (hw : WF g) (ha : AddedPair g g2 e e') {i n : VId}
    (hin : (i = e.src ∧ n = e.tgt) ∨ (i = e.tgt ∧ n = e.src)) :
    ∃ evs lvl, searchEvents g n = some evs ∧ BfsDone g.outArcs n evs lvl ∧
      ∀ w, addEdgeToTreeView.attach g2 w i n = .ok () ((w.addEdge i n).build evs) := by
  have hl : Live g n := by
    rcases hin with ⟨-, rfl⟩ | ⟨-, rfl⟩
    · exact ha.live.2
    · exact ha.live.1
  obtain ⟨evs, lvl, hb, hd⟩ := searchEvents_done hw hl
  refine ⟨evs, lvl, hb, hd, ?_⟩
  intro w
  have hb' : bfs g.outArcs (g2.verts.length + 1) n = some evs := by rw [ha.verts]; exact hb
  have hf := outArcs_filtered ha
  have hf' : (fun u => (g2.outArcs u).filter (fun a => a.id ≠ e'.id ∧ a.id ≠ e.id)) = g.outArcs := by
    rw [← hf]; funext u; congr 1; funext a; simp only [and_comm]
  unfold addEdgeToTreeView.attach
  rcases hin with ⟨rfl, rfl⟩ | ⟨rfl, rfl⟩
  · simp only [ha.edge_fst, ha.edge_snd]
    by_cases hdeg : g2.degree e.tgt > 2
    · rw [if_pos hdeg]
      unfold searchEventsFiltered
      rw [hf, hb']
    · rw [if_neg hdeg, build_no_arcs evs _ (hd.no_arcs outArcs_src (outArcs_nil_of_degree ha (Or.inr rfl) hdeg))]
  · simp only [ha.edge_fst, ha.edge_snd]
    by_cases hdeg : g2.degree e.src > 2
    · rw [if_pos hdeg]
      unfold searchEventsFiltered
      rw [hf', hb']
    · rw [if_neg hdeg, build_no_arcs evs _ (hd.no_arcs outArcs_src (outArcs_nil_of_degree ha (Or.inl rfl) hdeg))]

theorem attach_ns {g g2 : G F E} {e e' : ERec E} (hw : WF g) (ha : AddedPair g g2 e e') {i n : VId}
    (hin : (i = e.src ∧ n = e.tgt) ∨ (i = e.tgt ∧ n = e.src)) {w w1 : TreeView}
    (h : addEdgeToTreeView.attach g2.ns w.ns i n = .ok () w1) :
    ∃ evs lvl, BfsDone g.outArcs n evs lvl ∧ addEdgeToTreeView.attach g2 w i n = .ok () ((w.addEdge i n).build evs) ∧
      ((w.addEdge i n).build evs).ns = w1.quiet := by
  obtain ⟨evs, lvl, h1, h2, h3⟩ := attach_eq hw ha hin
  obtain ⟨evs', lvl', h1', h2', h3'⟩ := attach_eq hw.ns ha.ns hin
  have he : evs' = evs.filter BfsEv.keepNs := by
    have := searchEvents_ns g n
    rw [h1, h1'] at this
    exact (Option.some.inj this).symm
  refine ⟨evs, lvl, h2, h3 w, ?_⟩
  rw [h3'] at h
  obtain rfl : w1 = _ := (Res.ok.inj h).2.symm
  rw [ns_build, ns_addEdge, quiet_build, he]

theorem IsTreeView.quiet {g : G F E} {root : VId} {w w' : TreeView} (h : IsTreeView g root w) (he : w' = w.quiet) : IsTreeView g root w' := by
  subst he
  exact h.of_view rfl rfl rfl

/-- the cross edges from the vertex to itself -/
def TreeView.loops (w : TreeView) (u : VId) : Nat := (w.crossEdges.filter (fun c => c.Joins u u)).length

/-- each vertex of the view with self edges has one or two cross edges to itself, no other vertex has one -/
def LoopsOk (g : G F E) (w : TreeView) : Prop := ∀ u, w.loops u ≤ 2 ∧ (0 < w.loops u ↔ w.vertexExists u = true ∧ g.Adj u u)

theorem build_cross : ∀ (evs : List BfsEv) (w : TreeView),
    (w.build evs).crossEdges = w.crossEdges ++ (grayArcs evs).map (fun a => ⟨a.src, a.tgt, a.id⟩) := by
  intro evs
  induction evs with
  | nil => intro w; simp [TreeView.build, grayArcs]
  | cons e evs ih =>
    intro w
    show ((w.buildStep e).build evs).crossEdges = _
    rw [ih]
    cases e <;> simp [buildStep, addCrossEdge, TreeView.addEdge, grayArcs]

theorem addEdge_vertexExists (w : TreeView) (o t u : VId) : (w.addEdge o t).vertexExists u = true ↔ w.vertexExists u = true ∨ u = o ∨ u = t := by
  simp only [TreeView.addEdge, vertexExists, AMap.get_set]
  by_cases h1 : t = u
  · simp [h1]
  · by_cases h2 : o = u
    · simp [h1, h2]
    · simp [h1, h2, Ne.symm h1, Ne.symm h2]

theorem build_vertexExists : ∀ (evs : List BfsEv) (w : TreeView) (u : VId),
    (w.build evs).vertexExists u = true ↔ w.vertexExists u = true ∨ ∃ a ∈ treeArcs evs, u = a.src ∨ u = a.tgt := by
  intro evs
  induction evs with
  | nil => intro w u; simp [TreeView.build, treeArcs]
  | cons e evs ih =>
    intro w u
    show ((w.buildStep e).build evs).vertexExists u = true ↔ _
    rw [ih]
    cases e with
    | treeEdge a =>
      rw [buildStep, addEdge_vertexExists]
      simp [treeArcs, or_assoc]
    | discover v => simp [buildStep, treeArcs]
    | grayTarget a => simp [buildStep, treeArcs, addCrossEdge, vertexExists]
    | blackTarget a => simp [buildStep, treeArcs]

theorem isTreeViewLoops_iff {g : G F E} {root : VId} {w : TreeView} : IsTreeViewLoops g root w ↔ IsTreeView g.ns root w.ns ∧ LoopsOk g w :=
  ⟨fun h => ⟨h.view.of_view rfl rfl rfl, fun u => ⟨h.loops_le u, h.loops_pos u⟩⟩,
    fun h => ⟨h.1.of_view rfl rfl rfl, fun u => (h.2 u).1, fun u => (h.2 u).2⟩⟩

theorem selfs_pos {g : G F E} {u : VId} : 0 < (g.selfs u).length ↔ g.Adj u u := by
  rw [List.length_pos_iff_exists_mem]
  simp only [G.selfs, List.mem_filter, decide_eq_true_eq]
  rfl

theorem loops_append (w w' : TreeView) (l : List CrossEdge) (h : w'.crossEdges = w.crossEdges ++ l) (u : VId) :
    w'.loops u = w.loops u + (l.filter (fun c => c.Joins u u)).length := by
  rw [TreeView.loops, h, List.filter_append, List.length_append]
  rfl

theorem reach_ns {g : G F E} {x y : VId} (h : g.Reach x y) : g.ns.Reach x y := by
  induction h with
  | refl => exact .refl
  | @tail b c _ hbc ih =>
    obtain ⟨e, he, rfl, rfl⟩ := hbc
    by_cases hh : e.src = e.tgt
    · rw [← hh]; exact ih
    · exact .tail ih ⟨e, G.mem_ns.2 ⟨he, hh⟩, rfl, rfl⟩

/-- a view made anew -/
theorem built_loops {g : G F E} (hw : WF g) (hp : Paired g.ns) (h2 : SelfTwo g) {root : VId} {evs : List BfsEv} {lvl : VId → Nat}
    (hs : searchEvents g root = some evs) (hl : Live g root) (hd : BfsDone g.outArcs root evs lvl) :
    IsTreeViewLoops g root ((TreeView.empty.addRoot root).build evs) := by
  rw [isTreeViewLoops_iff]
  constructor
  · obtain ⟨evs', lvl', h1', h2'⟩ := searchEvents_done hw.ns (show Live g.ns root from hl)
    have he : evs' = evs.filter BfsEv.keepNs := by
      have := searchEvents_ns g root
      rw [hs, h1'] at this
      exact (Option.some.inj this).symm
    refine (built_isTreeView hw.ns hp h2').quiet ?_
    rw [ns_build, he]
    rfl
  · intro u
    have ho := outArcs_paired_ne hw hp
    have hin : ((TreeView.empty.addRoot root).build evs).vertexExists u = true ↔ u ∈ discovered evs := by
      rw [TreeView.vertexExists, getTreeInto_get hd.good]
      by_cases hv : u ∈ discovered evs <;> simp [hv]
    have hc : ((TreeView.empty.addRoot root).build evs).loops u = ((grayArcs evs).filter (fun g => g.Joins u u)).length := by
      rw [TreeView.loops, (getTreeInto_cross hd.good).1, filter_map_joins, List.length_map]
    rw [hc, hin]
    by_cases hu : u ∈ discovered evs
    · rw [hd.self_count ho hu, outArcs_self_length, selfs_pos]
      refine ⟨?_, by simp [hu]⟩
      rcases h2 u with h | h <;> omega
    · have : (grayArcs evs).filter (fun g => g.Joins u u) = [] := by
        rw [List.filter_eq_nil_iff]
        intro a ha hj
        have hj' : a.Joins u u := by simpa using hj
        have := (hd.tree_out ho.src (mem_arcsOf.2 (Or.inr (Or.inl (mem_grayArcs.1 ha))))).1
        rcases hj' with ⟨h1, -⟩ | ⟨h1, -⟩ <;> exact hu (h1 ▸ this)
      rw [this]
      simp [hu]

/-- a view to which a part of the graph is attached -/
theorem attach_loops {g g2 : G F E} {e e' : ERec E} (hw : WF g) (hp : Paired g.ns) (h2 : SelfTwo g) (ha : AddedPair g g2 e e') {i n : VId}
    {root : VId} {w : TreeView} (hv : IsTreeView g.ns root w.ns) (hl : LoopsOk g w) (hi : w.vertexExists i = true) (hn : w.vertexExists n = false)
    {evs : List BfsEv} {lvl : VId → Nat} (hd : BfsDone g.outArcs n evs lvl) : LoopsOk g2 ((w.addEdge i n).build evs) := by
  have ho := outArcs_paired_ne hw hp
  have hAdj : g.Adj = Arcs g.outArcs := by funext x y; exact propext adj_iff_arcs
  have hD : ∀ v, v ∈ discovered evs ↔ g.Reach n v := by
    intro v; rw [hd.mem_iff ho.src, G.Reach, hAdj]
  have hdis : ∀ v, v ∈ discovered evs → w.vertexExists v = false := by
    intro v hv'
    by_contra hh
    have h1 : g.ns.Reach root v := (hv.span v).1 (show w.vertexExists v = true by simpa using hh)
    have h2 : g.ns.Reach root n := Relation.ReflTransGen.trans h1 ((reach_ns ((hD v).1 hv')).symm hp)
    have h3 : w.vertexExists n = true := (hv.span n).2 h2
    rw [h3] at hn
    cases hn
  have hself : ∀ u, g2.Adj u u ↔ g.Adj u u := by
    intro u
    rw [ha.adj]
    constructor
    · rintro (h | ⟨h1, h2⟩ | ⟨h1, h2⟩)
      · exact h
      · exact absurd (h1.symm.trans h2) ha.ne
      · exact absurd (h2.symm.trans h1) ha.ne
    · exact Or.inl
  intro u
  have hin : ((w.addEdge i n).build evs).vertexExists u = true ↔ w.vertexExists u = true ∨ u ∈ discovered evs := by
    rw [build_vertexExists, addEdge_vertexExists, hd.good.tgts, List.mem_cons]
    constructor
    · rintro ((h | rfl | rfl) | ⟨a, h1, rfl | rfl⟩)
      · exact Or.inl h
      · exact Or.inl hi
      · exact Or.inr (Or.inl rfl)
      · have := (hd.good.tree_arc h1).1
        rw [hd.good.tgts, List.mem_cons] at this
        exact Or.inr this
      · exact Or.inr (Or.inr (List.mem_map.2 ⟨a, h1, rfl⟩))
    · rintro (h | rfl | h)
      · exact Or.inl (Or.inl h)
      · exact Or.inl (Or.inr (Or.inr rfl))
      · obtain ⟨a, h1, h2⟩ := List.mem_map.1 h
        exact Or.inr ⟨a, h1, Or.inr h2.symm⟩
  have hc := loops_append w ((w.addEdge i n).build evs) _ (build_cross evs (w.addEdge i n)) u
  rw [filter_map_joins, List.length_map] at hc
  rw [hc, hin, hself]
  by_cases hu : u ∈ discovered evs
  · have h0 : w.loops u = 0 := by
      by_contra hh
      have := ((hl u).2.1 (Nat.pos_of_ne_zero hh)).1
      rw [hdis u hu] at this
      cases this
    rw [hd.self_count ho hu, outArcs_self_length, h0, Nat.zero_add, selfs_pos]
    refine ⟨?_, by simp [hu]⟩
    rcases h2 u with h | h <;> omega
  · have : (grayArcs evs).filter (fun g => g.Joins u u) = [] := by
      rw [List.filter_eq_nil_iff]
      intro a ha hj
      have hj' : a.Joins u u := by simpa using hj
      have := (hd.tree_out ho.src (mem_arcsOf.2 (Or.inr (Or.inl (mem_grayArcs.1 ha))))).1
      rcases hj' with ⟨h1, -⟩ | ⟨h1, -⟩ <;> exact hu (h1 ▸ this)
    rw [this]
    simpa [hu] using hl u

/-- `addEdgeToTreeView` for an edge between different vertices -/
theorem addEdgeToTreeView_loops {g g2 : G F E} {e e' : ERec E} (hw : WF g) (hp : Paired g.ns) (h2 : SelfTwo g) (ha : AddedPair g g2 e e')
    {root : VId} {w : TreeView} (h : IsTreeViewLoops g root w) :
    ∃ w', addEdgeToTreeView g2 e w = .ok () w' ∧ IsTreeViewLoops g2 root w' := by
  obtain ⟨hv, hl⟩ := isTreeViewLoops_iff.1 h
  obtain ⟨w1, k1, k2, -⟩ := addEdgeToTreeView_correct hw.ns hp ha.ns ha.ns.edge_fst ha.ns.edge_snd hv
  have hself : ∀ u, g2.Adj u u ↔ g.Adj u u := by
    intro u
    rw [ha.adj]
    constructor
    · rintro (h | ⟨h1, h2⟩ | ⟨h1, h2⟩)
      · exact h
      · exact absurd (h1.symm.trans h2) ha.ne
      · exact absurd (h2.symm.trans h1) ha.ne
    · exact Or.inl
  have hve : ∀ v, w.ns.vertexExists v = w.vertexExists v := fun _ => rfl
  have hee : w.ns.edgeExists e.src e.tgt = w.edgeExists e.src e.tgt := rfl
  have hsame : LoopsOk g2 w := fun u => by rw [hself]; exact hl u
  unfold addEdgeToTreeView at k1 ⊢
  simp only [hve, hee] at k1 ⊢
  cases c1 : w.vertexExists e.src with
  | true =>
    cases c2 : w.vertexExists e.tgt with
    | true =>
      simp only [c1, c2, Bool.and_self, if_true] at k1 ⊢
      cases c3 : w.edgeExists e.src e.tgt with
      | none => simp [c3] at k1
      | some b =>
        cases b with
        | true =>
          simp only [c3] at k1 ⊢
          obtain rfl : w1 = _ := (Res.ok.inj k1).2.symm
          exact ⟨_, rfl, isTreeViewLoops_iff.2 ⟨k2, hsame⟩⟩
        | false =>
          simp only [c3] at k1 ⊢
          obtain rfl : w1 = _ := (Res.ok.inj k1).2.symm
          refine ⟨_, rfl, isTreeViewLoops_iff.2 ⟨k2.quiet ?_, ?_⟩⟩
          · simp [addCrossEdge, TreeView.ns, TreeView.quiet, List.filter_append, ha.ne]
          · intro u
            have hc := loops_append w (w.addCrossEdge e.src e.tgt e.id) _ rfl u
            have h0 : ([(⟨e.src, e.tgt, e.id⟩ : CrossEdge)].filter (fun c => c.Joins u u)).length = 0 := by
              have : ¬ (e.src = u ∧ e.tgt = u) := fun hh => ha.ne (hh.1.trans hh.2.symm)
              simp [List.filter_cons, CrossEdge.Joins, this]
            rw [hc, h0, Nat.add_zero]
            exact hsame u
    | false =>
      simp only [c1, c2, Bool.and_false, Bool.false_eq_true, if_false, if_true] at k1 ⊢
      obtain ⟨evs, lvl, hd, k3, k4⟩ := attach_ns hw ha (Or.inl ⟨rfl, rfl⟩) k1
      exact ⟨_, k3, isTreeViewLoops_iff.2 ⟨k2.quiet k4, attach_loops hw hp h2 ha hv hl c1 c2 hd⟩⟩
  | false =>
    cases c2 : w.vertexExists e.tgt with
    | true =>
      simp only [c1, c2, Bool.false_and, Bool.false_eq_true, if_false, if_true] at k1 ⊢
      obtain ⟨evs, lvl, hd, k3, k4⟩ := attach_ns hw ha (Or.inr ⟨rfl, rfl⟩) k1
      exact ⟨_, k3, isTreeViewLoops_iff.2 ⟨k2.quiet k4, attach_loops hw hp h2 ha hv hl c2 c1 hd⟩⟩
    | false =>
      simp only [c1, c2, Bool.false_and, Bool.false_eq_true, if_false] at k1 ⊢
      obtain rfl : w1 = _ := (Res.ok.inj k1).2.symm
      exact ⟨_, rfl, isTreeViewLoops_iff.2 ⟨k2, hsame⟩⟩

/-- `addEdgeToTreeView` for an edge from a vertex to itself -/
theorem addEdgeToTreeView_self_loops {g g2 : G F E} {e e' : ERec E} (he : g2.edges = g.edges ++ [e, e']) {u : VId} (h1 : e.src = u) (h2 : e.tgt = u)
    (h3 : e'.src = u) (h4 : e'.tgt = u) (hn : ¬ g.Adj u u)
    {root : VId} {w : TreeView} (h : IsTreeViewLoops g root w) :
    ∃ w', addEdgeToTreeView g2 e w = .ok () w' ∧ IsTreeViewLoops g2 root w' := by
  obtain ⟨hv, hl⟩ := isTreeViewLoops_iff.1 h
  have hns : g2.ns.edges = g.ns.edges := by
    simp [G.ns, he, List.filter_append, List.filter_cons, h1, h2, h3, h4]
  have hself : ∀ v, g2.Adj v v ↔ g.Adj v v ∨ v = u := by
    intro v
    unfold G.Adj
    rw [he]
    constructor
    · rintro ⟨r, hr, k1, k2⟩
      simp only [List.mem_append, List.mem_cons, List.not_mem_nil, or_false] at hr
      rcases hr with hr | rfl | rfl
      · exact Or.inl ⟨r, hr, k1, k2⟩
      · exact Or.inr (k1.symm.trans h1)
      · exact Or.inr (k1.symm.trans h3)
    · rintro (⟨r, hr, k1, k2⟩ | rfl)
      · exact ⟨r, List.mem_append_left _ hr, k1, k2⟩
      · exact ⟨e, by simp, h1, h2⟩
  unfold addEdgeToTreeView
  simp only [h1, h2]
  cases c1 : w.vertexExists u with
  | false =>
    simp only [Bool.and_self, Bool.false_eq_true, if_false]
    refine ⟨w, rfl, isTreeViewLoops_iff.2 ⟨hv.of_edges hns, ?_⟩⟩
    intro v
    refine ⟨(hl v).1, ?_⟩
    rw [(hl v).2, hself]
    constructor
    · rintro ⟨k1, k2⟩; exact ⟨k1, Or.inl k2⟩
    · rintro ⟨k1, k2 | rfl⟩
      · exact ⟨k1, k2⟩
      · rw [c1] at k1; cases k1
  | true =>
    have hx : w.edgeExists u u = some false := by
      unfold TreeView.edgeExists
      obtain ⟨ra, hra⟩ := Option.isSome_iff_exists.1 c1
      have hpa : ra.parent ≠ some u := by
        intro hh
        have : w.ns.parentOf u = some u := by
          have h0 : w.ns.tree.get u = some ra := hra
          simp [TreeView.parentOf, h0, hh]
        obtain ⟨d, hd⟩ := hv.rank
        have := hd _ _ this
        omega
      simp [hra, hpa]
    simp only [Bool.and_self, if_true, hx]
    refine ⟨_, rfl, isTreeViewLoops_iff.2 ⟨(hv.of_edges hns).of_view rfl ?_ rfl, ?_⟩⟩
    · simp [addCrossEdge, TreeView.ns, List.filter_append]
    · intro v
      have hc := loops_append w (w.addCrossEdge u u e.id) _ rfl v
      have hex : (w.addCrossEdge u u e.id).vertexExists v = w.vertexExists v := rfl
      rw [hc, hex, hself]
      by_cases hvu : v = u
      · subst hvu
        have h0 : w.loops v = 0 := by
          by_contra hh
          exact hn ((hl v).2.1 (Nat.pos_of_ne_zero hh)).2
        rw [h0]
        simp [List.filter_cons, CrossEdge.Joins, c1]
      · have : ¬ u = v := fun hh => hvu hh.symm
        simpa [List.filter_cons, CrossEdge.Joins, this, hvu] using hl v

/-- all subscribed views -/
theorem addEdgeToTreeViews_each {g2 : G F E} {e : ERec E} {P Q : VId → TreeView → Prop}
    (hstep : ∀ root w, P root w → ∃ w', addEdgeToTreeView g2 e w = .ok () w' ∧ Q root w') :
    ∀ (ps : List Nat) (vs : Nat → TreeView), ps.Nodup → (∀ p ∈ ps, ∃ root, P root (vs p)) →
    ∃ vs', addEdgeToTreeViews g2 e ps vs = .ok () vs' ∧ ∀ p ∈ ps, ∀ root, P root (vs p) → Q root (vs' p) := by
  intro ps
  induction ps with
  | nil => intro vs _ _; exact ⟨vs, rfl, by simp⟩
  | cons p ps ih =>
    intro vs hnd hok
    obtain ⟨hpn, hnd⟩ := List.nodup_cons.1 hnd
    obtain ⟨root, hroot⟩ := hok p (by simp)
    obtain ⟨w', h1, h2⟩ := hstep root _ hroot
    have hsame : ∀ q ∈ ps, setView vs p w' q = vs q := by
      intro q hq
      have : q ≠ p := by rintro rfl; exact hpn hq
      simp [setView, this]
    obtain ⟨vs', h3, h4⟩ := ih (setView vs p w') hnd (by
      intro q hq
      rw [hsame q hq]
      exact hok q (List.mem_cons_of_mem _ hq))
    refine ⟨vs', ?_, ?_⟩
    · unfold addEdgeToTreeViews
      rw [h1]
      exact h3
    · intro q hq root' hr'
      rcases List.mem_cons.1 hq with rfl | hq
      · have hv' : vs' q = w' := by
          have := (addEdgeToTreeViews_same ps (setView vs q w') vs' (by rw [h3]; rfl)).1 q hpn
          rw [this]; simp [setView]
        rw [hv']
        obtain ⟨w'', h5, h6⟩ := hstep root' _ hr'
        rw [h1] at h5
        rw [(Res.ok.inj h5).2]
        exact h6
      · exact h4 q hq root' (by rw [hsame q hq]; exact hr')

namespace GS

/-- every subscribed view is correct apart from self edges -/
def ViewsLoops (s : GS F E) : Prop := s.subs.Nodup ∧ ∀ p ∈ s.subs, ∃ root, IsTreeViewLoops s.g root (s.views p)

/-- the same views are subscribed and those that were correct apart from self edges still are, with the same root -/
def FollowsLoops (s s' : GS F E) : Prop :=
  s'.subs = s.subs ∧ ∀ p ∈ s.subs, ∀ root, IsTreeViewLoops s.g root (s.views p) → IsTreeViewLoops s'.g root (s'.views p)

theorem FollowsLoops.trans {s s' s'' : GS F E} (h : FollowsLoops s s') (h' : FollowsLoops s' s'') : FollowsLoops s s'' :=
  ⟨h'.1.trans h.1, fun p hp root hr => h'.2 p (h.1 ▸ hp) root (h.2 p hp root hr)⟩

theorem FollowsLoops.refl (s : GS F E) : FollowsLoops s s := ⟨rfl, fun _ _ _ h => h⟩

theorem isTreeViewLoops_of_edges {g g' : G F E} {root : VId} {w : TreeView} (h : IsTreeViewLoops g root w) (he : g'.edges = g.edges) :
    IsTreeViewLoops g' root w := by
  refine ⟨h.view.of_edges (by simp only [he]), h.loops_le, ?_⟩
  intro u
  have := h.loops_pos u
  simpa only [G.Adj, he] using this

theorem FollowsLoops.of_edges {s s' : GS F E} (h1 : s'.subs = s.subs) (h2 : s'.views = s.views) (h3 : s'.g.edges = s.g.edges) :
    FollowsLoops s s' := ⟨h1, fun p _ root hr => by rw [h2]; exact isTreeViewLoops_of_edges hr h3⟩

theorem FollowsLoops.ok {s s' : GS F E} (h : FollowsLoops s s') (hs : ViewsLoops s) : ViewsLoops s' := by
  refine ⟨h.1 ▸ hs.1, fun p hp => ?_⟩
  rw [h.1] at hp
  obtain ⟨root, hr⟩ := hs.2 p hp
  exact ⟨root, h.2 p hp root hr⟩

theorem addVertexN_followsL (f : FrameId) (p : F) (s : GS F E) : FollowsLoops s (addVertexN f p s).1 :=
  .of_edges rfl rfl (addVertex_edges _ _ _)

theorem orCreate_followsL (f : FrameId) (v : Option VId) (s : GS F E) : FollowsLoops s (orCreate f v s).1 := by
  cases v
  · exact addVertexN_followsL _ _ _
  · exact .refl _

theorem addedPair_ns {g : G F E} (hw : WF g) (hp : Paired g.ns) {u v : VId} (huv : u ≠ v) (hu : Live g u) (hv : Live g v)
    (hn : g.edge u v = none) (p q : E) :
    AddedPair g ((g.addEdge u v p).1.addEdge v u q).1 (g.addEdge u v p).2 ((g.addEdge u v p).1.addEdge v u q).2 := by
  have h1 : ¬ g.Adj u v := by
    rintro ⟨e, he, h1, h2⟩
    exact G.edge_none.1 hn e he ⟨h1, h2⟩
  have h2 : ¬ g.Adj v u := by
    rintro ⟨e, he, rfl, rfl⟩
    obtain ⟨e', he', k1, k2, -⟩ := hp.inv e (G.mem_ns.2 ⟨he, huv.symm⟩)
    exact h1 ⟨e', (G.mem_ns.1 he').1, k1, k2⟩
  refine ⟨by simp [G.addEdge], rfl, ?_, rfl, rfl, huv, ⟨h1, h2⟩, ⟨hu, hv⟩⟩
  intro x hx
  have := hw.elt x hx
  constructor
  · intro h; simp only [G.addEdge] at h; rw [h] at this; exact Nat.lt_irrefl _ this
  · intro h; simp only [G.addEdge] at h; rw [h] at this; exact absurd this (by simp only [not_lt]; exact Nat.le_succ _)

theorem addEdgeD_followsL {u v : VId} {p : E} {s : GS F E} (hw : WF s.g) (hp : Paired s.g.ns) (h2 : SelfTwo s.g) (ho : ViewsLoops s)
    (hu : Live s.g u) (hv : Live s.g v) : ∃ s', (addEdgeD u v p s).st? = some s' ∧ FollowsLoops s s' := by
  unfold addEdgeD
  obtain ⟨ru, hru⟩ : ∃ r, s.g.findV u = some r := by
    obtain ⟨r, hr, hid⟩ := hu; exact ⟨r, hw.findV_iff.2 ⟨hr, hid⟩⟩
  obtain ⟨rv, hrv⟩ : ∃ r, s.g.findV v = some r := by
    obtain ⟨r, hr, hid⟩ := hv; exact ⟨r, hw.findV_iff.2 ⟨hr, hid⟩⟩
  simp only [hru, hrv]
  cases he : s.g.edge u v with
  | some e => exact ⟨s, rfl, .refl s⟩
  | none =>
    have hstep : ∀ root w, IsTreeViewLoops s.g root w →
        ∃ w', addEdgeToTreeView ((s.g.addEdge u v p).1.addEdge v u (EdgeProp.inverse p)).1 (s.g.addEdge u v p).2 w = .ok () w' ∧
          IsTreeViewLoops ((s.g.addEdge u v p).1.addEdge v u (EdgeProp.inverse p)).1 root w' := by
      intro root w h
      by_cases huv : u = v
      · subst huv
        refine addEdgeToTreeView_self_loops (e' := ((s.g.addEdge u u p).1.addEdge u u (EdgeProp.inverse p)).2) (u := u) (by simp [G.addEdge]) rfl rfl rfl rfl ?_ h
        rintro ⟨e, he', k1, k2⟩
        exact G.edge_none.1 he e he' ⟨k1, k2⟩
      · exact addEdgeToTreeView_loops hw hp h2 (addedPair_ns hw hp huv hu hv he p (EdgeProp.inverse p)) h
    obtain ⟨vs', h1, h2⟩ := addEdgeToTreeViews_each hstep s.subs s.views ho.1 ho.2
    simp only [h1]
    exact ⟨_, rfl, ⟨rfl, h2⟩⟩

/-- calls that only add something -/
def Cmd.growsL : Cmd F E → Prop
  | .addFrame _ => True
  | .emplaceFrame _ _ => True
  | .addEdge _ _ _ => True
  | _ => False

theorem addEdge_followsL {a b : FrameId} {p : E} {s : GS F E} (hw : WF s.g) (hp : Paired s.g.ns) (ht : SelfTwo s.g) (ho : ViewsLoops s) :
    ∃ s', (addEdge a b p s).st? = some s' ∧ FollowsLoops s s' := by
  unfold addEdge
  simp only
  generalize hs1 : orCreate a (s.g.vertexOf a) s = r1
  generalize hs2 : orCreate b (s.g.vertexOf b) r1.1 = r2
  have hed : ∀ (f : FrameId) (v : Option VId) (t : GS F E), (orCreate f v t).1.g.edges = t.g.edges := by
    intro f v t
    cases v
    · exact addVertex_edges _ _ _
    · rfl
  have hwf : ∀ (f : FrameId) (v : Option VId) (t : GS F E), WF t.g → WF (orCreate f v t).1.g := by
    intro f v t hw
    cases v
    · exact hw.addVertex (FrameProp.getId_setId _ _)
    · exact hw
  have hf1 : FollowsLoops s r1.1 := by rw [← hs1]; exact orCreate_followsL _ _ _
  have hf2 : FollowsLoops r1.1 r2.1 := by rw [← hs2]; exact orCreate_followsL _ _ _
  have hw1 : WF r1.1.g := by rw [← hs1]; exact hwf _ _ _ hw
  have hw2 : WF r2.1.g := by rw [← hs2]; exact hwf _ _ _ hw1
  have he2 : r2.1.g.edges = s.g.edges := by rw [← hs2, hed, ← hs1, hed]
  have hp2 : Paired r2.1.g.ns := hp.of_edges (by simp only [G.ns, he2])
  have ht2 : SelfTwo r2.1.g := by
    intro u
    have := ht u
    simpa only [G.selfs, he2] using this
  have hva : r1.1.g.vertexOf a = some r1.2 := by
    rw [← hs1]
    cases h : s.g.vertexOf a with
    | none => exact addVertexN_vertexOf
    | some v => exact h
  have hva2 : r2.1.g.vertexOf a = some r1.2 := by
    rw [← hs2]
    cases h : s.g.vertexOf b with
    | none => exact addVertexN_vertexOf_mono hva
    | some v => exact hva
  have hvb2 : r2.1.g.vertexOf b = some r2.2 := by
    rw [← hs2]
    cases h : s.g.vertexOf b with
    | none => exact addVertexN_vertexOf
    | some v =>
      have : r1.1.g.vertexOf b = some v := by
        rw [← hs1]
        cases h' : s.g.vertexOf a with
        | none => exact addVertexN_vertexOf_mono h
        | some v' => exact h
      exact this
  obtain ⟨s', h1, h2⟩ := addEdgeD_followsL (p := p) hw2 hp2 ht2 (hf2.ok (hf1.ok ho)) (hw2.live hva2) (hw2.live hvb2)
  exact ⟨s', h1, (hf1.trans hf2).trans h2⟩

theorem exec_followsL {c : Cmd F E} (hc : c.growsL) {s : GS F E} (hw : WF s.g) (hp : Paired s.g.ns) (ht : SelfTwo s.g) (ho : ViewsLoops s) :
    ∃ s', (exec c s).st? = some s' ∧ FollowsLoops s s' := by
  cases c with
  | addFrame f =>
    simp only [exec, st?_discard, addFrame]
    cases s.g.vertexOf f with
    | none => exact ⟨_, rfl, addVertexN_followsL _ _ _⟩
    | some v => exact ⟨_, rfl, .refl _⟩
  | emplaceFrame f p =>
    simp only [exec, st?_discard, emplaceFrame]
    cases s.g.vertexOf f with
    | none => exact ⟨_, rfl, addVertexN_followsL _ _ _⟩
    | some v => exact ⟨_, rfl, .refl _⟩
  | addEdge a b p => exact addEdge_followsL hw hp ht ho
  | _ => exact hc.elim

theorem run_followsL {cs : List (Cmd F E)} : ∀ {cs0 : List (Cmd F E)} {s : GS F E}, run cs0 init = some s → (∀ c ∈ cs, c.growsL) → ViewsLoops s →
    ∃ s', run cs s = some s' ∧ FollowsLoops s s' := by
  induction cs with
  | nil => intro cs0 s _ _ _; exact ⟨s, rfl, .refl s⟩
  | cons c cs ih =>
    intro cs0 s h hc ho
    obtain ⟨s1, h1, h2⟩ := exec_followsL (hc c (by simp)) (run_wf WF.empty h) (run_paired_ns h) (run_selfTwo h) ho
    have hr : run (cs0 ++ [c]) init = some s1 := by rw [run_append h, run_of_exec h1]; rfl
    obtain ⟨s', h3, h4⟩ := ih hr (fun c' hc' => hc c' (List.mem_cons_of_mem _ hc')) (h2.ok ho)
    exact ⟨s', by rw [run_of_exec h1, h3], h2.trans h4⟩

/-- `getTree(r, true, view)` into a new view object -/
theorem getTree_keep_loops {s : GS F E} (hw : WF s.g) (hp : Paired s.g.ns) (ht : SelfTwo s.g) {r : FrameId} {u : VId} (hr : s.g.vertexOf r = some u) {q : Nat}
    (hq : s.views q = TreeView.empty) :
    ∃ s', getTree r true q s = .ok () s' ∧ s'.g = s.g ∧ s'.subs = s.subs ++ [q] ∧ (∀ p, p ≠ q → s'.views p = s.views p) ∧
      IsTreeViewLoops s.g u (s'.views q) := by
  obtain ⟨evs, lvl, h1, h2⟩ := searchEvents_done hw (hw.live hr)
  have hv := built_loops hw hp ht h1 (hw.live hr) h2
  have hpub := (getTreeInto_cross h2.good).2.2
  have h3 : getTree r true q s = .ok () { s with
      subs := s.subs ++ [q]
      views := setView (setView s.views q ((TreeView.empty.addRoot u).build evs)) q
        { (TreeView.empty.addRoot u).build evs with publisher := true } } := by
    simp [getTree, hr, getTreeInto, h1, hq, subscribeTreeView, setView, hpub]
  refine ⟨_, h3, rfl, rfl, ?_, ?_⟩
  · intro p hpq; simp [setView, hpq]
  · refine ⟨hv.view.of_view ?_ ?_ ?_, ?_, ?_⟩
    · simp [setView]
    · simp [setView]
    · simp [setView]
    · simpa [setView] using hv.loops_le
    · simpa [setView, vertexExists] using hv.loops_pos

end GS
end Verif
