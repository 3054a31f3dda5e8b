import Verif.Lemmas.PathEventsSelf
import Verif.Lemmas.TransformSelf
import Verif.Props.C28
set_option linter.unusedSectionVars false
/-! # C28, self edges: subscribed paths in graphs with self edges -/

namespace Verif
open GS
variable {F E : Type} [FrameProp F] [EdgeProp E]

/-- The second half of C28 for every history, self edges included: a dirty path has lost a connection at some time. -/
theorem C28_not_dirty_with_self_edges (cs0 cs : List (Cmd F E)) (s0 s : GS F E) (a b : FrameId) (p : Path)
    (h0 : run cs0 init = some s0) (hp : getPath a b true s0 = .ok p s0)
    (h : run cs s0 = some s) (hd : (p.observe (newEvents s0 s)).dirty = true) :
    ∃ x y, Consecutive p.frames x y ∧ ∃ cs1 cs2 s1, cs = cs1 ++ cs2 ∧ run cs1 s0 = some s1 ∧ ¬ s1.Conn x y := by
  obtain ⟨m, hm⟩ := exists_mirror_ns h0
  obtain ⟨x, y, h1, h2⟩ := (C28_dirty_iff_event s0 s a b p hp).1.1 hd
  exact ⟨x, y, h1, run_removed_ns (run_wf WF.empty h0) (run_paired_ns h0) hm h h2⟩

/-- a path over a frame with a self edge; another self edge is added and the one on the path is updated: the path does not get dirty -/
example : ∃ s0 s : GS DemoFrame Int, run [.addEdge "a" "b" 1, .addEdge "b" "b" 7, .addEdge "b" "c" 1] init = some s0 ∧
    getPath "a" "c" true s0 = .ok (.subscribed ["a", "b", "c"]) s0 ∧
    run [.addEdge "c" "c" 5, .setEdge "b" "b" 2, .addFrame "d", .removeFrame "d"] s0 = some s ∧
    ((Path.subscribed ["a", "b", "c"]).observe (newEvents s0 s)).dirty = false :=
  ⟨_, _, rfl, rfl, rfl, rfl⟩

/-- The first half for every history, self edges included.
Missing: removals that are announced in the opposite direction, which are not noticed. -/
theorem C28_notices_removal_with_self_edges_partial (cs0 cs1 cs2 : List (Cmd F E)) (s0 s1 s : GS F E) (a b : FrameId) (p : Path)
    (h0 : run cs0 init = some s0) (hp : getPath a b true s0 = .ok p s0)
    (h1 : run cs1 s0 = some s1) (h2 : run cs2 s1 = some s) (x y : FrameId) (hxy : Consecutive p.frames x y)
    (hn : ¬ s1.Conn x y) (hop : Event.edgeRemoved y x ∉ newEvents s0 s1) :
    (p.observe (newEvents s0 s)).dirty = true := by
  obtain ⟨m, hm⟩ := exists_mirror_ns h0
  have hc := C28_path_is_connected cs0 s0 a b p h0 hp x y hxy
  have hw0 : WF s0.g := run_wf WF.empty h0
  have hw1 : WF s1.g := run_wf hw0 h1
  refine (C28_dirty_iff_event s0 s a b p hp).1.2 ⟨x, y, hxy, ?_⟩
  obtain ⟨l, -, k1⟩ := run_advances hw0 h1
  obtain ⟨l', -, k2⟩ := run_advances hw1 h2
  rw [newEvents_trans k1 k2]
  refine List.mem_append_left _ ?_
  exact (removed_event_ns hw0 (run_paired_ns h0) hm h1 hc hn).resolve_right hop

/-- the connection b-c is removed beside a self edge at b, and a self edge at c comes later: the path stays dirty -/
example : ∃ s0 s : GS DemoFrame Int, run [.addEdge "a" "b" 1, .addEdge "b" "b" 7, .addEdge "b" "c" 1] init = some s0 ∧
    run [.removeEdge "b" "c", .addEdge "c" "c" 3, .addEdge "b" "c" 3] s0 = some s ∧
    ((Path.subscribed ["a", "b", "c"]).observe (newEvents s0 s)).dirty = true :=
  ⟨_, _, rfl, rfl, rfl⟩

/-- `remove_edge` in the direction of the path is noticed, also beside self edges ... -/
theorem C28_remove_edge_forward_with_self_edges (cs0 : List (Cmd F E)) (s0 s : GS F E) (a b : FrameId) (p : Path)
    (h0 : run cs0 init = some s0) (hp : getPath a b true s0 = .ok p s0)
    (x y : FrameId) (hxy : Consecutive p.frames x y) (h : (GS.removeEdge x y s0).st? = some s) :
    (p.observe (newEvents s0 s)).dirty = true ∧ ¬ s.Conn x y := by
  have hc := C28_path_is_connected cs0 s0 a b p h0 hp x y hxy
  have hw0 : WF s0.g := run_wf WF.empty h0
  have hp0 : Paired s0.g.ns := run_paired_ns h0
  obtain ⟨u, v, hu, hv, -⟩ := conn_iff.1 hc
  have huv : u ≠ v := by
    rintro rfl
    obtain rfl := hw0.vertexOf_inj hu hv
    exact not_consecutive_swap (getPath_nodup hw0 hp) hxy hxy
  have hin : Event.edgeRemoved x y ∈ newEvents s0 s := by
    obtain ⟨e, he⟩ := Option.isSome_iff_exists.1 (G.edge_isSome.2 ((adj_iff_conn hu hv).1 hc))
    have hk := removeEdgeBoth_eq_ns hw0 hp0 x y huv he
    simp only [GS.removeEdge, hu, hv] at h
    rw [hk] at h
    unfold newEvents
    revert h
    split <;> intro h <;> simp only [Res.st?, Option.some.injEq, reduceCtorEq] at h <;> subst h <;> simp
  refine ⟨(C28_dirty_iff_event s0 s a b p hp).1.2 ⟨x, y, hxy, hin⟩, ?_⟩
  obtain ⟨m, hm⟩ := exists_mirror_ns h0
  exact exec_removed_ns (c := .removeEdge x y) hw0 hp0 hm h hin

example : ∃ s0 s : GS DemoFrame Int, run [.addEdge "b" "a" 1, .addEdge "a" "a" 4] init = some s0 ∧
    getPath "a" "b" true s0 = .ok (.subscribed ["a", "b"]) s0 ∧
    GS.removeEdge "a" "b" s0 = .ok () s ∧ ((Path.subscribed ["a", "b"]).observe (newEvents s0 s)).dirty = true :=
  ⟨_, _, rfl, rfl, rfl, rfl⟩

/-- ... and the same call with swapped arguments is not. -/
theorem C28_remove_edge_backward_with_self_edges_fails (cs0 : List (Cmd F E)) (s0 s : GS F E) (a b : FrameId) (p : Path)
    (h0 : run cs0 init = some s0) (hp : getPath a b true s0 = .ok p s0)
    (x y : FrameId) (hxy : Consecutive p.frames x y) (h : (GS.removeEdge y x s0).st? = some s) :
    (p.observe (newEvents s0 s)).dirty = false ∧ ¬ s.Conn x y := by
  have hw0 : WF s0.g := run_wf WF.empty h0
  have hp0 : Paired s0.g.ns := run_paired_ns h0
  have hc := C28_path_is_connected cs0 s0 a b p h0 hp x y hxy
  constructor
  · rw [← Bool.not_eq_true, (C28_dirty_iff_event s0 s a b p hp).1]
    rintro ⟨x', y', h1, h2⟩
    obtain ⟨l, k1, k2⟩ := removeEdge_advances h
    rw [newEvents_of k2] at h2
    obtain ⟨_, hP⟩ := k1.mem_label _ h2
    cases hP
    exact not_consecutive_swap (getPath_nodup hw0 hp) hxy h1
  · obtain ⟨u, v, hu, hv, -⟩ := conn_iff.1 hc
    have huv : u ≠ v := by
      rintro rfl
      obtain rfl := hw0.vertexOf_inj hu hv
      exact not_consecutive_swap (getPath_nodup hw0 hp) hxy hxy
    obtain ⟨e, he⟩ := Option.isSome_iff_exists.1 (G.edge_isSome.2 ((adj_iff_conn hu hv).1 hc))
    obtain ⟨e', he', -⟩ := edge_inverse_ns hp0 huv he
    have hk := removeEdgeBoth_eq_ns hw0 hp0 y x huv.symm he'
    simp only [GS.removeEdge, hu, hv] at h
    rw [hk] at h
    have hg : s.g = s0.g.cut v u := by
      revert h
      split <;> intro h <;> simp only [Res.st?, Option.some.injEq, reduceCtorEq] at h <;> subst h <;> rfl
    intro hc'
    have hadj := (adj_iff_conn (s := s) (u := u) (v := v) (by rw [hg]; exact hu) (by rw [hg]; exact hv)).1 hc'
    rw [hg] at hadj
    exact (cut_adj.1 hadj).2 (Or.inr ⟨rfl, rfl⟩)

example : ∃ s0 s : GS DemoFrame Int, run [.addEdge "b" "a" 1, .addEdge "a" "a" 4] init = some s0 ∧
    getPath "a" "b" true s0 = .ok (.subscribed ["a", "b"]) s0 ∧ GS.removeEdge "b" "a" s0 = .ok () s ∧
    ((Path.subscribed ["a", "b"]).observe (newEvents s0 s)).dirty = false ∧ containsEdge "a" "b" s = .ok false s ∧
    containsEdge "a" "a" s = .ok true s :=
  ⟨_, _, rfl, rfl, rfl, rfl, rfl, rfl⟩

end Verif
