import Verif.Lemmas.PathEvents
import Verif.Spec.Demo
/-! # C28: an auto-updating path notices the removal of any of its edges

Only half of it is true: the path compares the removed edge with its own edges in one direction only. -/

namespace Verif
open GS
variable {F E : Type} [FrameProp F] [EdgeProp E]

/-- Full statement: an auto-updating path is dirty iff at some point after it was obtained two consecutive frames of it were not
connected any more. -/
def C28_statement (F E : Type) [FrameProp F] [EdgeProp E] : Prop :=
  ∀ (cs0 cs : List (Cmd F E)) (s0 s : GS F E) (a b : FrameId) (p : Path), (∀ a p, Cmd.addEdge a a p ∉ cs0 ++ cs) →
    run cs0 init = some s0 → getPath a b true s0 = .ok p s0 → run cs s0 = some s →
    ((p.observe (newEvents s0 s)).dirty = true ↔
      ∃ x y, Consecutive p.frames x y ∧ ∃ cs1 cs2 s1, cs = cs1 ++ cs2 ∧ run cs1 s0 = some s1 ∧ ¬ s1.Conn x y)

/-- The path is dirty iff one of its edges was announced as removed in the direction of the path; the frames stay. -/
theorem C28_dirty_iff_event (s0 s : GS F E) (a b : FrameId) (p : Path) (hp : getPath a b true s0 = .ok p s0) :
    ((p.observe (newEvents s0 s)).dirty = true ↔ ∃ x y, Consecutive p.frames x y ∧ Event.edgeRemoved x y ∈ newEvents s0 s) ∧
    (p.observe (newEvents s0 s)).frames = p.frames := by
  obtain ⟨h1, -⟩ := getPath_auto hp
  refine ⟨?_, (observe_fields _ p).1⟩
  rw [h1, observe_dirty _ _ rfl]
  simp only [Path.subscribed, Bool.false_eq_true, false_or, mem_createEdges]

/-- removals of other edges, also one that ends at a frame of the path, leave the path clean; the second edge of the path makes it dirty -/
example : ∃ s0 s1 s2 : GS DemoFrame Int, run [.addEdge "a" "b" 1, .addEdge "b" "c" 1, .addEdge "b" "d" 1] init = some s0 ∧
    getPath "a" "c" true s0 = .ok (.subscribed ["a", "b", "c"]) s0 ∧ run [.removeEdge "b" "d"] s0 = some s1 ∧
    ((Path.subscribed ["a", "b", "c"]).observe (newEvents s0 s1)).dirty = false ∧ run [.removeEdge "b" "c"] s1 = some s2 ∧
    ((Path.subscribed ["a", "b", "c"]).observe (newEvents s0 s2)).dirty = true :=
  ⟨_, _, _, rfl, rfl, rfl, rfl, rfl, rfl⟩

/-- Second half of the statement: a path is not dirty as long as all its connections stay. -/
theorem C28_not_dirty_without_removal (cs0 cs : List (Cmd F E)) (s0 s : GS F E) (a b : FrameId) (p : Path)
    (hns : ∀ a p, Cmd.addEdge a a p ∉ cs0 ++ cs) (h0 : run cs0 init = some s0) (hp : getPath a b true s0 = .ok p s0)
    (h : run cs s0 = some s) (hd : (p.observe (newEvents s0 s)).dirty = true) :
    ∃ x y, Consecutive p.frames x y ∧ ∃ cs1 cs2 s1, cs = cs1 ++ cs2 ∧ run cs1 s0 = some s1 ∧ ¬ s1.Conn x y := by
  have hn0 : ∀ c ∈ cs0, c.noSelf := noSelf_of (fun a p hh => hns a p (List.mem_append_left _ hh))
  have hn1 : ∀ c ∈ cs, c.noSelf := noSelf_of (fun a p hh => hns a p (List.mem_append_right _ hh))
  obtain ⟨m, hm⟩ := exists_mirror hn0 h0
  obtain ⟨x, y, h1, h2⟩ := (C28_dirty_iff_event s0 s a b p hp).1.1 hd
  exact ⟨x, y, h1, run_removed (run_wf WF.empty h0) (run_paired WF.empty Paired.empty h0 hn0) hm hn1 h h2⟩

/-- updates and additions do not make the path dirty -/
example : ∃ s0 s : GS DemoFrame Int, run [.addEdge "a" "b" 1, .addEdge "b" "c" 1] init = some s0 ∧
    run [.setEdge "a" "b" 5, .addEdge "a" "c" 2, .addFrame "d", .removeFrame "d"] s0 = some s ∧
    ((Path.subscribed ["a", "b", "c"]).observe (newEvents s0 s)).dirty = false :=
  ⟨_, _, rfl, rfl, rfl⟩

/-- Partial first half: if at some point two consecutive frames `x`, `y` of the path are not connected any more, the path is dirty
from then on, unless the removal was announced in the opposite direction, as `EdgeRemoved(y,x)`.
Missing: removals that are announced in the opposite direction, which are not noticed. -/
theorem C28_notices_removal_partial (cs0 cs1 cs2 : List (Cmd F E)) (s0 s1 s : GS F E) (a b : FrameId) (p : Path)
    (hns : ∀ a p, Cmd.addEdge a a p ∉ cs0 ++ cs1) (h0 : run cs0 init = some s0) (hp : getPath a b true s0 = .ok p s0)
    (h1 : run cs1 s0 = some s1) (h2 : run cs2 s1 = some s) (x y : FrameId) (hxy : Consecutive p.frames x y)
    (hc : s0.Conn x y) (hn : ¬ s1.Conn x y) (hop : Event.edgeRemoved y x ∉ newEvents s0 s1) :
    (p.observe (newEvents s0 s)).dirty = true := by
  have hn0 : ∀ c ∈ cs0, c.noSelf := noSelf_of (fun a p hh => hns a p (List.mem_append_left _ hh))
  have hn1 : ∀ c ∈ cs1, c.noSelf := noSelf_of (fun a p hh => hns a p (List.mem_append_right _ hh))
  obtain ⟨m, hm⟩ := exists_mirror hn0 h0
  have hw0 : WF s0.g := run_wf WF.empty h0
  have hw1 : WF s1.g := run_wf hw0 h1
  refine (C28_dirty_iff_event s0 s a b p hp).1.2 ⟨x, y, hxy, ?_⟩
  obtain ⟨l, -, k1⟩ := run_advances hw0 h1
  obtain ⟨l', -, k2⟩ := run_advances hw1 h2
  rw [newEvents_trans k1 k2]
  refine List.mem_append_left _ ?_
  exact (removed_event hw0 (run_paired WF.empty Paired.empty h0 hn0) hm hn1 h1 hc hn).resolve_right hop

/-- the path stays dirty although the connection is added again -/
example : ∃ s0 s : GS DemoFrame Int, run [.addEdge "a" "b" 1, .addEdge "b" "c" 1] init = some s0 ∧
    run [.removeEdge "b" "c", .addEdge "b" "c" 3] s0 = some s ∧ ((Path.subscribed ["a", "b", "c"]).observe (newEvents s0 s)).dirty = true :=
  ⟨_, _, rfl, rfl, rfl⟩

/-- consecutive frames of an obtained path are connected -/
theorem C28_path_is_connected (cs0 : List (Cmd F E)) (s0 : GS F E) (a b : FrameId) (p : Path) (h0 : run cs0 init = some s0)
    (hp : getPath a b true s0 = .ok p s0) (x y : FrameId) (hxy : Consecutive p.frames x y) : s0.Conn x y := by
  obtain ⟨-, l, hl, hpl⟩ := getPath_auto hp
  obtain ⟨l1, l2, h⟩ := hxy
  have hw0 : WF s0.g := run_wf WF.empty h0
  have hchain : l.IsChain s0.Conn := by
    by_cases hab : a = b
    · subst hab
      cases hv : s0.g.vertexOf a with
      | none => simp [getFrames, hv] at hl
      | some u =>
        obtain ⟨evs, lvl, -, -, hrr⟩ := getFrames_eq hw0 hv hv
        rcases hrr with ⟨-, k⟩ | ⟨-, k⟩ | ⟨k, -⟩
        · rw [k] at hl; rw [← (Res.ok.inj hl).1]; simp
        · rw [k] at hl; rw [← (Res.ok.inj hl).1]; simp
        · exact absurd rfl k
    · rcases getFrames_api hw0 hab with ⟨-, l', k1, k2, -⟩ | ⟨-, k | ⟨x, k⟩⟩
      · rw [k1] at hl; rw [← (Res.ok.inj hl).1]; exact k2.steps
      · rw [k] at hl; rw [← (Res.ok.inj hl).1]; simp
      · rw [k] at hl; cases hl
  rw [← hpl, h, List.isChain_append] at hchain
  exact (List.isChain_cons_cons.1 hchain.2.1).1

example : ∃ s0 : GS DemoFrame Int, run [.addEdge "b" "a" 1, .addEdge "c" "b" 1] init = some s0 ∧
    getPath "a" "c" true s0 = .ok (.subscribed ["a", "b", "c"]) s0 ∧ containsEdge "a" "b" s0 = .ok true s0 ∧
    containsEdge "b" "c" s0 = .ok true s0 :=
  ⟨_, rfl, rfl, rfl, rfl⟩

/-- `remove_edge` in the direction of the path is noticed ... -/
theorem C28_remove_edge_forward (cs0 : List (Cmd F E)) (s0 s : GS F E) (a b : FrameId) (p : Path)
    (hns : ∀ a p, Cmd.addEdge a a p ∉ cs0) (h0 : run cs0 init = some s0) (hp : getPath a b true s0 = .ok p s0)
    (x y : FrameId) (hxy : Consecutive p.frames x y) (h : (GS.removeEdge x y s0).st? = some s) :
    (p.observe (newEvents s0 s)).dirty = true ∧ ¬ s.Conn x y := by
  have hc := C28_path_is_connected cs0 s0 a b p h0 hp x y hxy
  have hw0 : WF s0.g := run_wf WF.empty h0
  have hn0 := noSelf_of hns
  have hp0 : Paired s0.g := run_paired WF.empty Paired.empty h0 hn0
  obtain ⟨u, v, hu, hv, -⟩ := conn_iff.1 hc
  obtain ⟨e, he, e1, e2⟩ := (adj_iff_conn hu hv).1 hc
  have hin : Event.edgeRemoved x y ∈ newEvents s0 s := by
    have hk := removeEdgeBoth_eq hw0 hp0 x y (hp0.edge_iff.2 ⟨he, e1, e2⟩)
    simp only [GS.removeEdge, hu, hv] at h
    rw [hk] at h
    unfold newEvents
    revert h
    split <;> intro h <;> simp only [Res.st?, Option.some.injEq, reduceCtorEq] at h <;> subst h <;> simp
  refine ⟨(C28_dirty_iff_event s0 s a b p hp).1.2 ⟨x, y, hxy, hin⟩, ?_⟩
  obtain ⟨m, hm⟩ := exists_mirror hn0 h0
  exact exec_removed (c := .removeEdge x y) hw0 hp0 hm trivial h hin

example : ∃ s0 s : GS DemoFrame Int, run [.addEdge "b" "a" 1] init = some s0 ∧ getPath "a" "b" true s0 = .ok (.subscribed ["a", "b"]) s0 ∧
    GS.removeEdge "a" "b" s0 = .ok () s ∧ ((Path.subscribed ["a", "b"]).observe (newEvents s0 s)).dirty = true :=
  ⟨_, _, rfl, rfl, rfl, rfl⟩

/-- ... but the same call with swapped arguments is not, although the connection is gone just the same. -/
theorem C28_remove_edge_backward_fails (cs0 : List (Cmd F E)) (s0 s : GS F E) (a b : FrameId) (p : Path)
    (hns : ∀ a p, Cmd.addEdge a a p ∉ cs0) (h0 : run cs0 init = some s0) (hp : getPath a b true s0 = .ok p s0)
    (x y : FrameId) (hxy : Consecutive p.frames x y) (h : (GS.removeEdge y x s0).st? = some s) :
    (p.observe (newEvents s0 s)).dirty = false ∧ ¬ s.Conn x y := by
  have hw0 : WF s0.g := run_wf WF.empty h0
  have hn0 := noSelf_of hns
  have hp0 : Paired s0.g := run_paired WF.empty Paired.empty h0 hn0
  have hc := C28_path_is_connected cs0 s0 a b p h0 hp x y hxy
  constructor
  · rw [← Bool.not_eq_true, (C28_dirty_iff_event s0 s a b p hp).1]
    rintro ⟨x', y', h1, h2⟩
    obtain ⟨l, k1, k2⟩ := removeEdge_advances h
    rw [newEvents_of k2] at h2
    obtain ⟨_, hP⟩ := k1.mem_label _ h2
    cases hP
    exact not_consecutive_swap (getPath_nodup hw0 hp) hxy h1
  · obtain ⟨u, v, hu, hv, -⟩ := conn_iff.1 hc
    obtain ⟨e, he, e1, e2⟩ := (adj_iff_conn hu hv).1 hc
    obtain ⟨e', he', -⟩ := hp0.inverse (hp0.edge_iff.2 ⟨he, e1, e2⟩)
    have hk := removeEdgeBoth_eq hw0 hp0 y x he'
    simp only [GS.removeEdge, hu, hv] at h
    rw [hk] at h
    have hin : Event.edgeRemoved y x ∈ newEvents s0 s := by
      unfold newEvents
      revert h
      split <;> intro h <;> simp only [Res.st?, Option.some.injEq, reduceCtorEq] at h <;> subst h <;> simp
    have hg : s.g = s0.g.cut v u := by
      revert h
      split <;> intro h <;> simp only [Res.st?, Option.some.injEq, reduceCtorEq] at h <;> subst h <;> rfl
    intro hc'
    have hadj := (adj_iff_conn (s := s) (u := u) (v := v) (by rw [hg]; exact hu) (by rw [hg]; exact hv)).1 hc'
    rw [hg] at hadj
    exact (cut_adj.1 hadj).2 (Or.inr ⟨rfl, rfl⟩)

/-- The full statement is false: `remove_edge(b,a)` on a path from `a` to `b`. -/
theorem C28_statement_fails : ¬ C28_statement DemoFrame Int := by
  intro H
  have hw : ∃ s0 s : GS DemoFrame Int, run [.addEdge "a" "b" 1] init = some s0 ∧
      getPath "a" "b" true s0 = .ok (.subscribed ["a", "b"]) s0 ∧ run [.removeEdge "b" "a"] s0 = some s ∧
      containsEdge "a" "b" s = .ok false s ∧
      ((Path.subscribed ["a", "b"]).observe (newEvents s0 s)).dirty = false := ⟨_, _, rfl, rfl, rfl, rfl, rfl⟩
  obtain ⟨s0, s, h1, h2, h3, h4, h5⟩ := hw
  have := (H [.addEdge "a" "b" 1] [.removeEdge "b" "a"] s0 s "a" "b" _
    (by simp; rintro _ _ rfl hh; exact absurd hh (by decide)) h1 h2 h3).2
    ⟨"a", "b", ⟨[], [], rfl⟩, [.removeEdge "b" "a"], [], s, rfl, h3, by intro hc; rw [GS.Conn, h4] at hc; cases hc⟩
  rw [h5] at this
  cases this

/-- The same for `disconnectFrame`: a path over `a`, `b`, `c` notices `disconnectFrame(b)` (because of the edge from `b` to `c`), but
not `disconnectFrame(c)`. -/
example : ∃ s0 s1 s2 : GS DemoFrame Int, run [.addEdge "a" "b" 1, .addEdge "b" "c" 1] init = some s0 ∧
    getPath "a" "c" true s0 = .ok (.subscribed ["a", "b", "c"]) s0 ∧
    disconnectFrame "b" s0 = .ok () s1 ∧ ((Path.subscribed ["a", "b", "c"]).observe (newEvents s0 s1)).dirty = true ∧
    disconnectFrame "c" s0 = .ok () s2 ∧ ((Path.subscribed ["a", "b", "c"]).observe (newEvents s0 s2)).dirty = false :=
  ⟨_, _, _, rfl, rfl, rfl, rfl, rfl, rfl⟩

/-- the first edge of the path is noticed as well -/
example : (run [.addEdge "a" "b" 1, .addEdge "b" "c" 1] (init : GS DemoFrame Int)).bind (fun s0 =>
    (run [.removeEdge "a" "b"] s0).map fun s => ((Path.subscribed ["a", "b", "c"]).observe (newEvents s0 s)).dirty) = some true := by
  decide +kernel

end Verif
