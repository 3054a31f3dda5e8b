import Verif.Lemmas.NoSelf
import Verif.Props.C12
set_option linter.unusedSectionVars false
/-! # C12, self edges: what handlers see in graphs with self edges -/

namespace Verif
open GS
variable {F E : Type} [FrameProp F] [EdgeProp E]

/-- `C12_handlers_see_event_partial` for every history, self edges included: at the moment of each notification the graph matches the event.
Missing for the full claim: during `EdgeRemoved(a,b)` the direction b→a is still there (`C12_inverse_edge_still_there`). -/
theorem C12_with_self_edges_partial (cs : List (Cmd F E)) (s : GS F E)
    (h : run cs init = some s) : ∀ x ∈ s.trace, handlerSees (asSeen x.2) x.1 := by
  obtain ⟨l, h1, h2⟩ := run_advances WF.empty h
  have hl : s.trace = l := by rw [h2]; rfl
  rw [hl]
  have main : ∀ {g g' : G F E} {l : List (Event × G F E)},
      GSteps (fun g e => (∀ c ∈ cs, c.noSelf) → cleanEv g e) g l g' → WF g → Paired g.ns →
      ∀ x ∈ l, handlerSees (asSeen x.2) x.1 := by
    intro g g' l hs
    induction hs with
    | nil => intro _ _ x hx; cases hx
    | @cons g g' g'' x l hs hP _ ih =>
      intro hw hp y hy
      rcases List.mem_cons.1 hy with rfl | hy
      · cases hs with
        | addV hn hid => simp [handlerSees, containsFrame, asSeen, G.vertexOf_addVertex _ hn]
        | dupV hv => simp [handlerSees, containsFrame, asSeen, hv]
        | @addE a b u v p ha hb hn =>
          have hva : ∀ f, ((g.addEdge u v p).1.addEdge v u (EdgeProp.inverse p)).1.vertexOf f = g.vertexOf f := fun f => rfl
          refine ⟨⟨⟨g.nextE, u, v, p⟩, ?_, rfl⟩, ?_⟩
          · simp only [getEdge, asSeen, hva, ha, hb, G.edge_addEdge, hn]
            simp
          · have := edge_addPair_snd (g := g) (u := u) (v := v) (p := p) (q := EdgeProp.inverse p)
            simp only [containsEdge, asSeen, hva, ha, hb, this]
        | @rmE g1 _ a b u v e1 e2 ha hb h1 h2 hg1 hg2 =>
          obtain ⟨-, rfl⟩ := G.removeEdge_some hg1
          obtain ⟨⟨r, hr, hr2⟩, -⟩ := G.removeEdge_some hg2
          have huv : u ≠ v := by
            rintro rfl
            rw [h1] at h2
            obtain rfl := Option.some.inj h2
            simp only [List.mem_filter, decide_eq_true_eq] at hr
            exact hr.2 hr2
          refine ⟨?_, ?_⟩
          · have hva : ∀ f, G.vertexOf { g with edges := g.edges.filter (fun r => r.id ≠ e1.id) } f = g.vertexOf f :=
              fun f => rfl
            have : G.edge { g with edges := g.edges.filter (fun r => r.id ≠ e1.id) } u v = none := by
              rw [G.edge_none]
              rintro e he ⟨q1, q2⟩
              simp only [List.mem_filter, ne_eq, decide_eq_true_eq] at he
              obtain ⟨m1, s1, t1⟩ := G.edge_some h1
              exact he.2 (congrArg ERec.id (hp.uniq e (G.mem_ns.2 ⟨he.1, by rw [q1, q2]; exact huv⟩) e1 (G.mem_ns.2 ⟨m1, by rw [s1, t1]; exact huv⟩)
                (q1.trans s1.symm) (q2.trans t1.symm)))
            simp only [containsEdge, asSeen, hva, ha, hb, this]
            rfl
          · exact Option.isSome_iff_exists.2 ⟨v, hb⟩
        | @setP a b u v e1 e2 p ha hb h1 h2 =>
          have hva : ∀ f, ((g.setProp e1.id p).setProp e2.id (EdgeProp.inverse p)).vertexOf f = g.vertexOf f := fun f => rfl
          refine ⟨?_, ?_⟩
          · simp only [getEdge, asSeen, hva, ha, hb]
            rw [G.edge_setProp, G.edge_setProp, h1]
            refine ⟨_, rfl, ?_⟩
            dsimp only
            split
            · split <;> rfl
            · first | rfl | (split <;> rfl)
          · simp only [getEdge, asSeen, hva, ha, hb]
            rw [G.edge_setProp, h2]
            refine ⟨_, rfl, ?_⟩
            dsimp only
            split <;> rfl
        | rmV hv hd => simp [handlerSees, containsFrame, asSeen, G.vertexOf_removeVertex]
      · exact ih (hs.wf hw) (hs.paired_ns hw hp) y hy
  exact main h1 WF.empty Paired.empty

/-- a history with a self edge (the frame is announced twice), its update, and the removal of another edge beside it -/
example : ∃ s : GS DemoFrame Int,
    run [.addEdge "a" "a" 1, .setEdge "a" "a" 2, .addEdge "a" "b" 3, .removeEdge "b" "a", .removeFrame "b"] init = some s ∧
    s.trace.map Prod.fst = [.frameAdded "a", .frameAdded "a", .edgeAdded "a" "a" 0, .edgeModified "a" "a" 0 0, .frameAdded "b",
      .edgeAdded "a" "b" 2, .edgeRemoved "b" "a", .frameRemoved "b"] :=
  ⟨_, rfl, rfl⟩

end Verif
