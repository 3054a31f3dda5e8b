import Verif.Lemmas.ViewReuse
import Verif.Lemmas.Subs
import Verif.Lemmas.Mirror
import Verif.Spec.Demo
/-! # C80: a tree view object can be used again

The full property: `getTree` makes the given view a correct view of the graph whatever the view contained before; a view that was
unsubscribed in one of the two documented ways can be subscribed again; `rebuildTreeViews` makes all subscribed views correct. -/

namespace Verif
open GS TreeView
variable {F E : Type} [FrameProp F] [EdgeProp E]

section
variable {cs : List (Cmd F E)} (hns : ∀ a p, Cmd.addEdge a a p ∉ cs) {s : GS F E} (h : run cs init = some s) {f : FrameId} {u : VId}
  (hf : getVertex f s = .ok u s) (p : Nat)
include hns h hf

/-- After `clear()` any view can be used again, whether it is subscribed or not: `getTree` makes it a correct view.  (It cannot be
subscribed a second time.) -/
theorem C80_cleared_partial (keep : Bool) (hk : keep = false ∨ p ∉ s.subs) :
    ∃ s', getTree f keep p (clearView p s) = .ok () s' ∧ s'.g = s.g ∧ IsTreeView s'.g u (s'.views p) ∧
      (∀ q, q ∈ s'.subs ↔ q ∈ s.subs ∨ keep = true ∧ q = p) ∧ ∀ q, q ≠ p → s'.views q = s.views q := by
  have hw : WF s.g := run_wf WF.empty h
  have hp : Paired s.g := run_paired WF.empty Paired.empty h (noSelf_of hns)
  have hinv := run_subsInv init_subsInv h
  obtain ⟨evs, lvl, s', h1, -, h2, h3, h4, -, h5, h6, h7, h8⟩ := getTree_used (s := clearView p s) hw (show s.g.vertexOf f = some u from getVertex_ok hf) keep p (by
    rcases hk with hk | hk
    · exact .inl hk
    · right
      have : (s.views p).publisher ≠ true := fun x => hk ((hinv.2 p).2 x)
      simpa [clearView, setView, TreeView.clear] using this)
  refine ⟨s', h2, h3, ?_, ?_, ?_⟩
  · rw [h3]
    refine IsTreeView.of_view ?_ h5 h6 h7
    refine (used_isTreeView (g := s.g) hw hp h1 _).2 ?_
    simp [clearView, setView, TreeView.clear, TreeView.vertexExists]
  · intro q
    rw [h4]
    cases keep <;> simp [clearView]
  · intro q hq
    rw [h8 q hq]
    simp [clearView, setView, hq]

/-- Exactly when `getTree` into a view that was not cleared gives a correct view: the old content has no cross edges, all its vertices can
be reached from the new root, and its children are children in the new tree `w` as well. -/
theorem C80_exact_partial :
    ∃ w s', getTreeFresh f s = .ok w s ∧ getTree f false p s = .ok () s' ∧ s'.g = s.g ∧
      (IsTreeView s'.g u (s'.views p) ↔
        (s.views p).crossEdges = [] ∧ (∀ v, (s.views p).vertexExists v = true → s.g.Reach u v) ∧
        ∀ x rel, (s.views p).tree.get x = some rel → rel.children.Nodup ∧ ∀ c ∈ rel.children, w.parentOf c = some x) := by
  have hw : WF s.g := run_wf WF.empty h
  have hp : Paired s.g := run_paired WF.empty Paired.empty h (noSelf_of hns)
  obtain ⟨evs, lvl, s', h1, h0, h2, h3, h4, -, h5, h6, h7, h8⟩ := getTree_used hw (getVertex_ok hf) false p (.inl rfl)
  refine ⟨_, s', h0, h2, h3, ?_⟩
  rw [h3, ← used_isTreeView hw hp h1]
  exact ⟨fun x => x.of_view h5.symm h6.symm h7.symm, fun x => x.of_view h5 h6 h7⟩

/-- In a graph without cycles, a correct view may be filled again from the same root. -/
theorem C80_same_root_partial (hfo : s.g.Forest) (hv : IsTreeView s.g u (s.views p)) :
    ∃ s', getTree f false p s = .ok () s' ∧ s'.g = s.g ∧ IsTreeView s'.g u (s'.views p) := by
  have hw : WF s.g := run_wf WF.empty h
  have hp : Paired s.g := run_paired WF.empty Paired.empty h (noSelf_of hns)
  obtain ⟨evs, lvl, s', h1, h0, h2, h3, h4, -, h5, h6, h7, h8⟩ := getTree_used hw (getVertex_ok hf) false p (.inl rfl)
  refine ⟨s', h2, h3, ?_⟩
  rw [h3]
  refine IsTreeView.of_view ((used_isTreeView hw hp h1 _).2 ⟨hfo.no_cross hp hv, fun v x => (hv.span v).1 x, ?_⟩) h5 h6 h7
  intro x rel hx
  obtain ⟨h9, h10⟩ := hv.children x rel hx
  exact ⟨h9, fun c hc => hfo.parent_unique hp hv (built_isTreeView hw hp h1) ((h10 c).1 hc)⟩

/-- C80 is false for every view that contains a vertex which cannot be reached from the new root, and for every view with cross edges:
the old content stays. -/
theorem C80_used_fails (hold : (∃ v, (s.views p).vertexExists v = true ∧ ¬ s.g.Reach u v) ∨ (s.views p).crossEdges ≠ []) :
    ∃ s', getTree f false p s = .ok () s' ∧ ¬ IsTreeView s'.g u (s'.views p) := by
  obtain ⟨w, s', -, h1, -, h2⟩ := C80_exact_partial hns h hf p
  refine ⟨s', h1, ?_⟩
  rw [h2]
  rintro ⟨h3, h4, -⟩
  rcases hold with ⟨v, hv, hr⟩ | hc
  · exact hr (h4 v hv)
  · exact hc h3

omit hns in
/-- C80 is false for every subscribed view: asking again for updates violates the assert in `setPublisher`, also after `clear()` and after
`graph.unsubscribeTreeView(&view)`. -/
theorem C80_subscribe_fails (hp : p ∈ s.subs) :
    (∃ r, getTree f true p s = .ub r) ∧ (∃ r, getTree f true p (clearView p s) = .ub r) ∧
      (∃ r, getTree f true p (unsubscribeTreeView p s) = .ub r) ∧ p ∉ (unsubscribeTreeView p s).subs := by
  have hw : WF s.g := run_wf WF.empty h
  have hinv := run_subsInv init_subsInv h
  have hpub := (hinv.2 p).1 hp
  have key : ∀ t : GS F E, t.g = s.g → (t.views p).publisher = true → ∃ r, getTree f true p t = .ub r := by
    intro t ht hpt
    obtain ⟨evs, lvl, h1, h2⟩ := searchEvents_done (g := t.g) (by rw [ht]; exact hw) (ht ▸ hw.live (getVertex_ok hf))
    have hfv : t.g.vertexOf f = some u := by rw [ht]; exact getVertex_ok hf
    refine ⟨"setPublisher: assert", ?_⟩
    simp [getTree, hfv, getTreeInto, h1, subscribeTreeView, setView, (h2.good.build_used (t.views p)).2.2.2, hpt]
  refine ⟨key s rfl hpub, key _ rfl (by simp [clearView, setView, TreeView.clear, hpub]), key _ rfl hpub, ?_⟩
  simp [unsubscribeTreeView]

/-- After `view.unsubscribe()` and `clear()`, every view can be subscribed again, to every frame. -/
theorem C80_resubscribe_partial :
    ∃ s', getTree f true p (clearView p (unsubscribeView p s)) = .ok () s' ∧ s'.g = s.g ∧ IsTreeView s'.g u (s'.views p) ∧
      s'.subs.count p = 1 ∧ ∀ q, q ≠ p → (q ∈ s'.subs ↔ q ∈ s.subs) ∧ s'.views q = s.views q := by
  have hinv := run_subsInv init_subsInv h
  have hrun : run (cs ++ [.unsubscribeView p]) init = some (unsubscribeView p s) := by
    have : ∀ (cs : List (Cmd F E)) (a : GS F E), run cs a = some s → run (cs ++ [.unsubscribeView p]) a = some (unsubscribeView p s) := by
      intro cs
      induction cs with
      | nil => intro a ha; simp only [run, Option.some.injEq] at ha; subst ha; rfl
      | cons c cs ih =>
        intro a ha
        simp only [run, List.cons_append] at ha ⊢
        cases hc : exec c a with
        | ok _ b => rw [hc] at ha; exact ih b ha
        | throw _ b => rw [hc] at ha; exact ih b ha
        | ub _ => rw [hc] at ha; cases ha
    exact this cs _ h
  have hg : (unsubscribeView p s).g = s.g := by unfold unsubscribeView; split <;> rfl
  have hq : ∀ q, q ≠ p → (q ∈ (unsubscribeView p s).subs ↔ q ∈ s.subs) ∧ (unsubscribeView p s).views q = s.views q := by
    intro q hq
    unfold unsubscribeView
    split <;> simp [hq, setView]
  have hnp : p ∉ (unsubscribeView p s).subs := by
    unfold unsubscribeView
    split
    · simp
    · rename_i hx; exact fun x => hx ((hinv.2 p).1 x)
  have hf' : getVertex f (unsubscribeView p s) = .ok u (unsubscribeView p s) := by
    have := getVertex_ok hf
    simp [getVertex, hg, this]
  have hns' : ∀ a q, Cmd.addEdge a a q ∉ cs ++ [Cmd.unsubscribeView p] := by
    intro a q
    simp [hns a q]
  have hw : WF s.g := run_wf WF.empty h
  have hpr : Paired s.g := run_paired WF.empty Paired.empty h (noSelf_of hns)
  obtain ⟨s', h1, h2, h3, h4, h5⟩ := C80_cleared_partial hns' hrun hf' p true (.inr hnp)
  obtain ⟨evs, lvl, t, -, -, g2, -, g4, -⟩ := getTree_used (s := clearView p (unsubscribeView p s)) (by show WF (unsubscribeView p s).g; rw [hg]; exact hw)
    (show (unsubscribeView p s).g.vertexOf f = some u from getVertex_ok hf') true p (by
      right
      have := (run_subsInv init_subsInv hrun).2 p
      have : ((unsubscribeView p s).views p).publisher ≠ true := fun x => hnp (this.2 x)
      simpa [clearView, setView, TreeView.clear] using this)
  obtain rfl : s' = t := by rw [h1] at g2; simpa using g2
  refine ⟨s', h1, h2.trans hg, h3, ?_, ?_⟩
  · rw [g4]
    simp only [if_true, List.count_append]
    have : (clearView p (unsubscribeView p s)).subs.count p = 0 := List.count_eq_zero.2 hnp
    rw [this]
    simp
  · intro q hqp
    refine ⟨?_, (h5 q hqp).trans (hq q hqp).2⟩
    rw [h4, ← (hq q hqp).1]
    simp [hqp]

end

omit [FrameProp F] [EdgeProp E] in
/-- C80 is false for `rebuildTreeViews`: with any subscribed view the search starts at the null vertex.  Without views it does nothing. -/
theorem C80_rebuild_fails (s : GS F E) :
    (s.subs ≠ [] → ∃ r, rebuildTreeViews s = .ub r) ∧ (s.subs = [] → rebuildTreeViews s = .ok () s) := by
  unfold rebuildTreeViews
  cases s.subs with
  | nil => exact ⟨fun h => absurd rfl h, fun _ => rfl⟩
  | cons p ps => exact ⟨fun _ => ⟨_, rfl⟩, fun h => by cases h⟩

/-- a - b - c and a view of it from a that is subscribed -/
def C80_cs : List (Cmd DemoFrame Int) := [.addEdge "a" "b" 1, .addEdge "b" "c" 2, .getTree "a" true 0]

/-- the view is cleared and filled from b, and stays subscribed -/
example : ((run C80_cs init).bind (fun s => run [.getTree "b" false 0, .addEdge "c" "d" 3] (clearView 0 s))).map (fun s => ((s.views 0).tree, s.subs)) =
    some ([(1, ⟨none, [0, 2]⟩), (0, ⟨some 1, []⟩), (2, ⟨some 1, [3]⟩), (3, ⟨some 2, []⟩)], [0]) := by
  decide +kernel

/-- the view is filled from b without `clear`: a and b are both children of each other -/
example : ((run C80_cs init).bind (fun s => run [.getTree "b" false 0] s)).map (fun s => (s.views 0).tree) =
    some [(0, ⟨some 1, [1]⟩), (1, ⟨none, [2, 0]⟩), (2, ⟨some 1, []⟩)] := by
  decide +kernel

/-- C80 is false, with endless recursion as result: `visitDfs` never ends on this view, however deep the stack is. -/
theorem C80_endless_fails : ∃ s, run (C80_cs ++ [.getTree "b" false 0]) init = some s ∧ ∀ n, ∃ r, (s.views 0).visitDfs n 1 = .ub r := by
  obtain ⟨s, hs⟩ : ∃ s, run (C80_cs ++ [.getTree "b" false 0]) init = some s := Option.isSome_iff_exists.1 (by decide +kernel)
  have hw : (run (C80_cs ++ [.getTree "b" false 0]) init).map (fun s => (s.views 0).tree) =
      some [(0, ⟨some 1, [1]⟩), (1, ⟨none, [2, 0]⟩), (2, ⟨some 1, []⟩)] := by decide +kernel
  rw [hs, Option.map_some] at hw
  refine ⟨s, hs, ?_⟩
  generalize s.views 0 = w at hw ⊢
  have hw : w.tree = [(0, ⟨some 1, [1]⟩), (1, ⟨none, [2, 0]⟩), (2, ⟨some 1, []⟩)] := by simpa using hw
  have h0 : w.tree.get 0 = some ⟨some 1, [1]⟩ := by rw [hw]; rfl
  have h1 : w.tree.get 1 = some ⟨none, [2, 0]⟩ := by rw [hw]; rfl
  have h2 : w.tree.get 2 = some ⟨some 1, []⟩ := by rw [hw]; rfl
  have key : ∀ n, (∃ r, w.visitDfs n 1 = .ub r) ∧ ∃ r, w.visitDfs n 0 = .ub r := by
    intro n
    induction n with
    | zero => exact ⟨⟨_, by rw [visitDfs]⟩, ⟨_, by rw [visitDfs]⟩⟩
    | succ n ih =>
      obtain ⟨⟨r1, i1⟩, ⟨r0, i0⟩⟩ := ih
      constructor
      · rw [visitDfs, h1]
        simp only [visitDfs.go]
        cases n with
        | zero =>
          have : w.visitDfs 0 2 = .ub "visitDfs: endless recursion" := by rw [visitDfs]
          rw [this]
          exact ⟨_, rfl⟩
        | succ n =>
          have : w.visitDfs (n + 1) 2 = .ok [(2, some 1)] w := by rw [visitDfs, h2]; simp [visitDfs.go]
          rw [this]
          simp only [i0]
          exact ⟨_, rfl⟩
      · rw [visitDfs, h0]
        simp only [visitDfs.go, i1]
        exact ⟨_, rfl⟩
  exact fun n => (key n).1

/-- and with a cycle the old cross edge stays, even from the same root: c is a child of both a and b -/
example : ((run (C80_cs ++ [.addEdge "c" "a" 3]) init).bind (fun s => run [.getTree "a" false 0] s)).map (fun s => (s.views 0).tree) =
      some [(0, ⟨none, [1, 2]⟩), (1, ⟨some 0, [2]⟩), (2, ⟨some 0, []⟩)] ∧
    ((run (C80_cs ++ [.addEdge "c" "a" 3]) init).bind (fun s => run [.getTree "a" false 0] s)).map
      (fun s => (s.views 0).crossEdges.map (fun c => (c.origin, c.target))) = some [(2, 0), (1, 2)] := by
  decide +kernel

/-- clearing a view with a cross edge: nothing is left, and it stays subscribed -/
example : ((run (C80_cs ++ [.addEdge "c" "a" 3]) init).map (fun s => ((s.views 0).crossEdges.length, ((clearView 0 s).views 0).tree,
      ((clearView 0 s).views 0).crossEdges.length, ((clearView 0 s).views 0).root, ((clearView 0 s).views 0).publisher))) =
    some (1, [], 0, none, true) := by
  decide +kernel

end Verif
