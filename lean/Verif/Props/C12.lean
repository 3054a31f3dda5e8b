import Verif.Lemmas.Mirror
import Verif.Spec.Demo
/-! # C12: event handlers see a graph that matches the event -/

namespace Verif
open GS
variable {F E : Type} [FrameProp F] [EdgeProp E]

/-- the graph object as a handler sees it: only the answers of queries matter -/
def asSeen (g : G F E) : GS F E := ⟨g, [], fun _ => TreeView.empty, []⟩

/-- what the handler of an event may rely on -/
def handlerSees (st : GS F E) : Event → Prop
  | .frameAdded f => containsFrame f st = true
  | .frameRemoved f => containsFrame f st = false
  | .edgeAdded a b i => (∃ r, getEdge a b st = .ok r st ∧ r.id = i) ∧ containsEdge b a st = .ok true st
  | .edgeModified a b i j => (∃ r, getEdge a b st = .ok r st ∧ r.id = i) ∧ (∃ r, getEdge b a st = .ok r st ∧ r.id = j)
  | .edgeRemoved a b => containsEdge a b st = .ok false st ∧ containsFrame b st = true
  | .itemAdded .. | .itemRemoved .. => True

/-- For every event of every history without self edges, the graph at the moment of the notification matches the event: frames
added are there, frames removed are gone, added and modified edges exist in both directions with the announced descriptors,
and of a removed edge the announced direction is gone (both frames being still there).
Missing for the full claim: during `EdgeRemoved(a,b)` the direction b→a is still there (`C12_inverse_edge_still_there`). -/
theorem C12_handlers_see_event_partial (cs : List (Cmd F E)) (hns : ∀ a p, Cmd.addEdge a a p ∉ cs) (s : GS F E)
    (h : run cs init = some s) : ∀ x ∈ s.trace, handlerSees (asSeen x.2) x.1 := by
  obtain ⟨l, h1, h2⟩ := run_advances WF.empty h
  have hl : s.trace = l := by rw [h2]; rfl
  rw [hl]
  have main : ∀ {g g' : G F E} {l : List (Event × G F E)},
      GSteps (fun g e => (∀ c ∈ cs, c.noSelf) → cleanEv g e) g l g' → WF g → Paired g →
      ∀ x ∈ l, handlerSees (asSeen x.2) x.1 := by
    intro g g' l hs
    induction hs with
    | nil => intro _ _ x hx; cases hx
    | @cons g g' g'' x l hs hP _ ih =>
      intro hw hp y hy
      have hP := hP (noSelf_of hns)
      rcases List.mem_cons.1 hy with rfl | hy
      · cases hs with
        | addV hn hid => simp [handlerSees, containsFrame, asSeen, G.vertexOf_addVertex _ hn]
        | dupV hv => exact (hP.2 (by simp [Event.isDup, hv])).elim
        | @addE a b u v p ha hb hn =>
          have hva : ∀ f, ((g.addEdge u v p).1.addEdge v u (EdgeProp.inverse p)).1.vertexOf f = g.vertexOf f := fun f => rfl
          refine ⟨⟨⟨g.nextE, u, v, p⟩, ?_, rfl⟩, ?_⟩
          · simp only [getEdge, asSeen, hva, ha, hb, G.edge_addEdge, hn]
            simp
          · have := edge_addPair_snd (g := g) (u := u) (v := v) (p := p) (q := EdgeProp.inverse p)
            simp only [containsEdge, asSeen, hva, ha, hb, this]
        | @rmE g1 _ a b u v e1 e2 ha hb h1 h2 hg1 hg2 =>
          obtain ⟨-, rfl⟩ := G.removeEdge_some hg1
          refine ⟨?_, ?_⟩
          · have hva : ∀ f, G.vertexOf { g with edges := g.edges.filter (fun r => r.id ≠ e1.id) } f = g.vertexOf f :=
              fun f => rfl
            have : G.edge { g with edges := g.edges.filter (fun r => r.id ≠ e1.id) } u v = none := by
              rw [G.edge_none]
              rintro e he ⟨q1, q2⟩
              simp only [List.mem_filter, ne_eq, decide_eq_true_eq] at he
              obtain ⟨m1, s1, t1⟩ := G.edge_some h1
              exact he.2 (congrArg ERec.id (hp.uniq e he.1 e1 m1 (q1.trans s1.symm) (q2.trans t1.symm)))
            simp only [containsEdge, asSeen, hva, ha, hb, this]
            rfl
          · exact Option.isSome_iff_exists.2 ⟨v, hb⟩
        | @setP a b u v e1 e2 p ha hb h1 h2 =>
          have hva : ∀ f, ((g.setProp e1.id p).setProp e2.id (EdgeProp.inverse p)).vertexOf f = g.vertexOf f := fun f => rfl
          refine ⟨?_, ?_⟩
          · simp only [getEdge, asSeen, hva, ha, hb]
            rw [G.edge_setProp, G.edge_setProp, h1]
            refine ⟨_, rfl, ?_⟩
            dsimp only
            split
            · split <;> rfl
            · first | rfl | (split <;> rfl)
          · simp only [getEdge, asSeen, hva, ha, hb]
            rw [G.edge_setProp, h2]
            refine ⟨_, rfl, ?_⟩
            dsimp only
            split <;> rfl
        | rmV hv hd => simp [handlerSees, containsFrame, asSeen, G.vertexOf_removeVertex]
      · exact ih (hs.wf hw) (hs.paired hw hp hP.1) y hy
  exact main h1 WF.empty Paired.empty

/-- a history whose trace contains all kinds of events -/
example : ∃ s : GS DemoFrame Int,
    run [.addEdge "a" "b" 1, .setEdge "b" "a" 2, .removeEdge "a" "b", .removeFrame "a"] init = some s ∧
    s.trace.map Prod.fst = [.frameAdded "a", .frameAdded "b", .edgeAdded "a" "b" 0, .edgeModified "b" "a" 1 0,
      .edgeRemoved "a" "b", .frameRemoved "a"] :=
  ⟨_, rfl, rfl⟩

/-- The full claim is false: during `EdgeRemoved(a,b)` the handler still finds the edge b→a. -/
theorem C12_inverse_edge_still_there : ∃ s : GS DemoFrame Int,
    run [.addEdge "a" "b" 1, .removeEdge "a" "b"] init = some s ∧
    ∃ x ∈ s.trace, x.1 = .edgeRemoved "a" "b" ∧ containsEdge "b" "a" (asSeen x.2) = .ok true (asSeen x.2) :=
  ⟨_, rfl, _, List.mem_cons_of_mem _ (List.mem_cons_of_mem _ (List.mem_cons_of_mem _ (List.mem_cons_self ..))), rfl, rfl⟩

end Verif
