import Verif.Lemmas.ReuseSelf
import Verif.Lemmas.ViewReuse
import Verif.Props.C21Self
import Verif.Props.C24Self
/-! # C24 (continued): views made while there is a self edge

`C24_self_edge_fails` speaks of views that list a self edge twice.  These are all the views that `getTree` makes while the self edge is there. -/

namespace Verif
open GS TreeView
variable {F E : Type} [FrameProp F] [EdgeProp E]

/-- Negative: in every history, after `getTree(f, true, &view)` with a new view, no connection `o`-`t` of the view can be removed that has a frame
`c` with a self edge behind it.  The other subscribed views only have to be correct. -/
theorem C24_fresh_self_edge_fails (cs : List (Cmd F E)) (s : GS F E)
    (h : run cs init = some s) (hok : ∀ q ∈ s.subs, ∃ root, IsTreeViewLoops s.g root (s.views q))
    (f : FrameId) (p : Nat) (hnew : s.views p = TreeView.empty) (s1 : GS F E) (hs1 : getTree f true p s = .ok () s1)
    (o t : FrameId) (hot : o ≠ t) (u v : VId) (ho : getVertex o s = .ok u s) (ht : getVertex t s = .ok v s)
    (hte : (s1.views p).TreeEdge u v) (c : FrameId) (x : VId) (hcx : getVertex c s = .ok x s) (hself : containsEdge c c s = .ok true s)
    (hx : (s1.views p).Cut u v x) :
    (∀ s2, GS.removeEdge o t s1 ≠ .ok () s2) ∧
    ((∀ q ∈ s1.subs, (s1.views q).Sealed u v) → ∃ r, GS.removeEdge o t s1 = .ub r) := by
  have hw : WF s.g := run_wf WF.empty h
  cases hr : s.g.vertexOf f with
  | none => simp [getTree, hr] at hs1
  | some u0 =>
    obtain ⟨s', k1, k2, k3, k4, k5⟩ := getTree_keep_loops hw (run_paired_ns h) (run_selfTwo h) hr hnew
    obtain rfl : s1 = s' := by rw [hs1] at k1; simpa using k1
    obtain ⟨evs, lvl, s'', -, g0, g1, -, -, -, g5, g6, -, -⟩ := getTree_used (s := s) hw hr true p (.inr (by rw [hnew]; rfl))
    obtain rfl : s1 = s'' := by rw [hs1] at g1; simpa using g1
    rw [hnew] at g5 g6
    have hrun : run (cs ++ [.getTree f true p]) init = some s1 := by
      rw [run_append h]
      simp [run, exec, hs1]
    have hgv : ∀ a w, getVertex a s = .ok w s → getVertex a s1 = .ok w s1 := by
      intro a w ha
      have := getVertex_ok ha
      simp [getVertex, k2, this]
    have hok1 : ∀ q ∈ s1.subs, ∃ root, IsTreeViewLoops s1.g root (s1.views q) := by
      intro q hq
      rw [k2]
      by_cases hqp : q = p
      · subst hqp; exact ⟨u0, k5⟩
      · rw [k4 q hqp]
        rw [k3] at hq
        simp only [List.mem_append, List.mem_singleton, hqp, or_false] at hq
        exact hok q hq
    have hxin : (s1.views p).vertexExists x = true := by
      have hpar : ∀ a b, (s1.views p).parentOf a = some b → (s1.views p).vertexExists a = true := by
        intro a b hab
        unfold TreeView.parentOf at hab
        unfold TreeView.vertexExists
        cases hg : (s1.views p).tree.get a with
        | none => simp [hg] at hab
        | some r => rfl
      have hun : ∀ a b c, (s1.views p).Under a b → (s1.views p).parentOf b = some c → (s1.views p).vertexExists a = true := by
        intro a b c hab hbc
        rcases Relation.ReflTransGen.cases_head hab with rfl | ⟨d, hd, -⟩
        · exact hpar _ _ hbc
        · exact hpar _ _ hd
      rcases hx with ⟨h1, h2⟩ | ⟨h1, h2⟩
      · exact hun _ _ _ h2 h1
      · exact hun _ _ _ h2 h1
    have h2 : ((s1.views p).crossEdges.filter (fun c => c.Joins x x)).length = 2 := by
      rw [g6]
      refine ((C21_with_self_edges cs s h f _ s g0).2.1 c x hcx ?_).2.1 hself
      unfold TreeView.vertexExists at hxin ⊢
      rwa [g5] at hxin
    have hconn : s1.Conn o t := by
      have hpar : ∀ a b, (s1.views p).parentOf a = some b → s.g.ns.Adj b a := by
        intro a b hab
        have hne : a ≠ u0 := by
          rintro rfl
          have := k5.view.root_parent
          change (s1.views p).parentOf a = none at this
          rw [hab] at this; cases this
        have hin : (s1.views p).vertexExists a = true := by
          unfold TreeView.parentOf at hab
          unfold TreeView.vertexExists
          cases hg : (s1.views p).tree.get a with
          | none => simp [hg] at hab
          | some r => rfl
        obtain ⟨b', h1, h2⟩ := k5.view.parent a hin hne
        change (s1.views p).parentOf a = some b' at h1
        rw [hab] at h1
        cases h1
        exact h2
      have hadj : s.g.Adj u v := by
        have hns : s.g.ns.Adj u v := by
          rcases hte with h1 | h1
          · obtain ⟨e, e1, e2, e3⟩ := hpar _ _ h1
            obtain ⟨e', e4, e5, e6, -⟩ := (run_paired_ns h).inv e e1
            exact ⟨e', e4, e5.trans e3, e6.trans e2⟩
          · exact hpar _ _ h1
        obtain ⟨e, e1, e2⟩ := hns
        exact ⟨e, (G.mem_ns.1 e1).1, e2⟩
      refine (adj_iff_conn (getVertex_ok (hgv _ _ ho)) (getVertex_ok (hgv _ _ ht))).2 ?_
      rw [k2]; exact hadj
    exact C24_self_edge_fails _ s1 hrun hok1 o t hot u v (hgv _ _ ho) (hgv _ _ ht) hconn p (by rw [k3]; simp) hte x hx h2

/-- `a`-`b`-`c` with a self edge at `c` and a new view from `a`; from `c` nothing is behind a connection that has a self edge -/
example : (run [.addEdge "a" "b" 1, .addEdge "b" "c" 1, .addEdge "c" "c" 2, .getTree "a" true 0] (init : GS DemoFrame Int)).map (fun s =>
      ((s.views 0).tree, (s.views 0).crossEdges.map (fun c => (c.origin, c.target)), (GS.removeEdge "a" "b" s).st?.isSome)) =
        some ([(0, ⟨none, [1]⟩), (1, ⟨some 0, [2]⟩), (2, ⟨some 1, []⟩)], [(2, 2), (2, 2)], false) ∧
    (run [.addEdge "a" "b" 1, .addEdge "b" "c" 1, .addEdge "c" "c" 2, .getTree "c" true 0] (init : GS DemoFrame Int)).map (fun s =>
      ((GS.removeEdge "a" "b" s).val?.isSome, (GS.removeEdge "b" "c" s).val?.isSome)) = some (true, true) := by decide +kernel

end Verif
