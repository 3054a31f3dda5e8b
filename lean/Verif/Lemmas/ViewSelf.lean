import Verif.Lemmas.ViewBuild
import Verif.Lemmas.NoSelf
import Verif.Lemmas.PublishSelf

set_option linter.unusedSectionVars false
set_option linter.unusedSimpArgs false
/-! Views of graphs with self edges. -/

namespace Verif
open GS TreeView

/-- Arcs of a graph whose edges between different vertices come in pairs, one per direction. -/
structure PairedArcsNe (out : VId → List Arc) : Prop where
  src : ∀ u, ∀ a ∈ out u, a.src = u
  nodup : ∀ u, (out u).Nodup
  uniq : ∀ u, ∀ a ∈ out u, ∀ b ∈ out u, b.tgt ≠ u → a.tgt = b.tgt → a = b
  inv : ∀ u, ∀ a ∈ out u, a.tgt ≠ u → ∃ b ∈ out a.tgt, b.tgt = u

theorem BfsDone.arcs_nodup_ne {out : VId → List Arc} (ho : PairedArcsNe out) {root : VId} {evs : List BfsEv}
    {lvl : VId → Nat} (h : BfsDone out root evs lvl) : (arcsOf evs).Nodup := by
  rw [h.arcs, List.nodup_flatMap]
  refine ⟨fun x _ => ho.nodup x, ?_⟩
  refine h.nodup.imp ?_
  intro x y hxy
  rw [Function.onFun, List.disjoint_left]
  intro a ha hb
  exact hxy ((ho.src x a ha).symm.trans (ho.src y a hb))

/-- A connection between two different discovered vertices is either one tree edge and no gray edge, or no tree edge and one gray edge. -/
theorem BfsDone.joins_ne {out : VId → List Arc} (ho : PairedArcsNe out) {root : VId} {evs : List BfsEv} {lvl : VId → Nat}
    (h : BfsDone out root evs lvl) {u : VId} (hu : u ∈ discovered evs) {a : Arc} (ha : a ∈ out u) (hne : a.tgt ≠ u) :
    ((∃ t ∈ treeArcs evs, t.Joins u a.tgt) ∧ (grayArcs evs).filter (fun g => g.Joins u a.tgt) = []) ∨
    ((¬ ∃ t ∈ treeArcs evs, t.Joins u a.tgt) ∧ ((grayArcs evs).filter (fun g => g.Joins u a.tgt)).length = 1) := by
  -- it is enough to look at the direction that starts at the vertex discovered first
  have key : ∀ (u : VId) (a : Arc), u ∈ discovered evs → a ∈ out u →
      (discovered evs).idxOf u < (discovered evs).idxOf a.tgt →
      ((∃ t ∈ treeArcs evs, t.Joins u a.tgt) ∧ (grayArcs evs).filter (fun g => g.Joins u a.tgt) = []) ∨
      ((¬ ∃ t ∈ treeArcs evs, t.Joins u a.tgt) ∧ ((grayArcs evs).filter (fun g => g.Joins u a.tgt)).length = 1) := by
    intro u a hu ha hlt
    have hsrc := ho.src u a ha
    have hin : a ∈ arcsOf evs := by
      rw [h.arcs, List.mem_flatMap]; exact ⟨u, hu, ha⟩
    have hnb : BfsEv.blackTarget a ∉ evs := by
      intro hb
      have := h.black a hb
      rw [hsrc] at this
      omega
    -- a joining tree or gray arc is `a` itself
    have honly : ∀ b, (b ∈ treeArcs evs ∨ b ∈ grayArcs evs) → b.Joins u a.tgt → b = a := by
      intro b hb hj
      have hbo : BfsEv.treeEdge b ∈ evs ∨ BfsEv.grayTarget b ∈ evs := by
        rcases hb with hb | hb
        · exact Or.inl (mem_treeArcs.1 hb)
        · exact Or.inr (mem_grayArcs.1 hb)
      have hbin : b ∈ arcsOf evs := by
        rcases hbo with hb | hb
        · exact mem_arcsOf.2 (Or.inl hb)
        · exact mem_arcsOf.2 (Or.inr (Or.inl hb))
      have hbout := (h.tree_out ho.src hbin).2
      rcases hj with ⟨h1, h2⟩ | ⟨h1, h2⟩
      · rw [h1] at hbout
        refine ho.uniq u b hbout a ha ?_ h2
        rintro hh
        rw [hh] at hlt
        omega
      · exfalso
        have := h.other b hbo
        rw [h1, h2] at this
        omega
    have haJ : a.Joins u a.tgt := Or.inl ⟨hsrc, rfl⟩
    have hgn : (grayArcs evs).Nodup := (grayArcs_sublist evs).nodup (h.arcs_nodup_ne ho)
    rcases mem_arcsOf.1 hin with ht | hg | hb
    · left
      have ht' := mem_treeArcs.2 ht
      refine ⟨⟨a, ht', haJ⟩, ?_⟩
      rw [List.filter_eq_nil_iff]
      intro b hb hj
      have := honly b (Or.inr hb) (by simpa using hj)
      subst this
      exact tree_not_gray (h.arcs_nodup_ne ho) ht' hb
    · right
      have hg' := mem_grayArcs.2 hg
      refine ⟨?_, ?_⟩
      · rintro ⟨t, ht, hj⟩
        have := honly t (Or.inl ht) hj
        subst this
        exact tree_not_gray (h.arcs_nodup_ne ho) ht hg'
      · refine length_one (a := a) (hgn.sublist List.filter_sublist) ?_ ?_
        · rw [List.mem_filter]; exact ⟨hg', by simpa using haJ⟩
        · intro b hb
          rw [List.mem_filter] at hb
          exact honly b (Or.inr hb.1) (by simpa using hb.2)
    · exact absurd hb hnb
  obtain ⟨hv, -⟩ := h.closed u hu a ha
  rcases Nat.lt_trichotomy ((discovered evs).idxOf u) ((discovered evs).idxOf a.tgt) with hlt | heq | hgt
  · exact key u a hu ha hlt
  · exact absurd ((List.idxOf_inj hu).1 heq).symm hne
  · obtain ⟨b, hb, hbt⟩ := ho.inv u a ha hne
    have := key a.tgt b hv hb (by rw [hbt]; exact hgt)
    rw [hbt] at this
    simpa only [Arc.joins_comm (u := a.tgt) (v := u)] using this


/-- an arc from a discovered vertex to itself is reported as an arc to a gray vertex, never as a tree arc -/
theorem BfsDone.self_gray {out : VId → List Arc} (ho : PairedArcsNe out) {root : VId} {evs : List BfsEv} {lvl : VId → Nat}
    (h : BfsDone out root evs lvl) {a : Arc} (hs : a.tgt = a.src) :
    a ∈ grayArcs evs ↔ a.src ∈ discovered evs ∧ a ∈ out a.src := by
  constructor
  · intro ha
    exact h.tree_out ho.src (mem_arcsOf.2 (Or.inr (Or.inl (mem_grayArcs.1 ha))))
  · rintro ⟨h1, h2⟩
    have hin : a ∈ arcsOf evs := by
      rw [h.arcs, List.mem_flatMap]; exact ⟨_, h1, h2⟩
    rcases mem_arcsOf.1 hin with ht | hg | hb
    · have := (h.good.tree_arc (mem_treeArcs.2 ht)).2.2.2
      rw [hs] at this
      omega
    · exact mem_grayArcs.2 hg
    · have := h.black a hb
      rw [hs] at this
      omega

theorem BfsDone.self_count {out : VId → List Arc} (ho : PairedArcsNe out) {root : VId} {evs : List BfsEv} {lvl : VId → Nat}
    (h : BfsDone out root evs lvl) {u : VId} (hu : u ∈ discovered evs) :
    ((grayArcs evs).filter (fun g => g.Joins u u)).length = ((out u).filter (fun a => a.tgt = u)).length := by
  have hgn : (grayArcs evs).Nodup := (grayArcs_sublist evs).nodup (h.arcs_nodup_ne ho)
  apply List.Perm.length_eq
  rw [List.perm_ext_iff_of_nodup (hgn.sublist List.filter_sublist) ((ho.nodup u).sublist List.filter_sublist)]
  intro a
  simp only [List.mem_filter, Arc.Joins, decide_eq_true_eq, or_self]
  constructor
  · rintro ⟨h1, h2, h3⟩
    have := ((h.self_gray ho (h3.trans h2.symm)).1 h1).2
    rw [h2] at this
    exact ⟨this, h3⟩
  · rintro ⟨h1, h2⟩
    have hs := ho.src u a h1
    refine ⟨(h.self_gray ho (h2.trans hs.symm)).2 ?_, hs, h2⟩
    rw [hs]
    exact ⟨hu, h1⟩

variable {F E : Type} [FrameProp F] [EdgeProp E]

theorem outArcs_paired_ne {g : G F E} (hw : WF g) (hp : Paired g.ns) : PairedArcsNe g.outArcs := by
  constructor
  · exact outArcs_src
  · intro u
    have h1 : (g.edges.map ERec.id).Nodup := hw.enodup
    have h2 : (g.edges.filter (fun e => decide (e.src = u))).Nodup := (List.Nodup.of_map _ h1).sublist List.filter_sublist
    refine List.Nodup.map_on ?_ h2
    intro x hx y hy hxy
    have := congrArg Arc.id hxy
    exact map_inj_of_nodup h1 (List.mem_filter.1 hx).1 (List.mem_filter.1 hy).1 this
  · intro u a ha b hb hne hab
    obtain ⟨e, he, h1, rfl⟩ := mem_outArcs.1 ha
    obtain ⟨e', he', h1', rfl⟩ := mem_outArcs.1 hb
    have n' : e'.src ≠ e'.tgt := fun hh => hne (hh.symm.trans h1')
    have n : e.src ≠ e.tgt := fun hh => n' ((h1'.trans h1.symm).trans (hh.trans hab))
    rw [hp.uniq e (G.mem_ns.2 ⟨he, n⟩) e' (G.mem_ns.2 ⟨he', n'⟩) (h1.trans h1'.symm) hab]
  · intro u a ha hne
    obtain ⟨e, he, h1, rfl⟩ := mem_outArcs.1 ha
    have n : e.src ≠ e.tgt := fun hh => hne (hh.symm.trans h1)
    obtain ⟨e', he', h2, h3, -⟩ := hp.inv e (G.mem_ns.2 ⟨he, n⟩)
    exact ⟨e'.arc, mem_outArcs.2 ⟨e', (G.mem_ns.1 he').1, h2, rfl⟩, h3.trans h1⟩

theorem outArcs_self_length (g : G F E) (u : VId) :
    ((g.outArcs u).filter (fun a => a.tgt = u)).length = (g.selfs u).length := by
  simp only [G.outArcs, G.outEdges, G.selfs, List.filter_map, List.length_map, List.filter_filter]
  congr 1
  apply List.filter_congr
  intro r _
  by_cases h1 : r.src = u <;> by_cases h2 : r.tgt = u <;> simp [Function.comp, ERec.arc, h1, h2]

end Verif
