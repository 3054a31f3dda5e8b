import Verif.Lemmas.ItemChainSelf
import Verif.Props.C93
set_option synthInstance.maxSize 1024
/-! # C93 (continued): handlers of item events and self edges -/

namespace Verif
open EG
variable {E : Type} [EdgeProp E]

/-- the structure of a graph that may have self edges: every edge between different frames has its inverse and there is only one with the same
ends, a frame has no or two edges to itself, and the names of the frames are different -/
def C93_structure_loops (g : G EFrame E) : Prop :=
  (∀ e ∈ g.edges, e.src ≠ e.tgt → ∃ e' ∈ g.edges, e'.src = e.tgt ∧ e'.tgt = e.src ∧
    (e'.prop = EdgeProp.inverse e.prop ∨ e.prop = EdgeProp.inverse e'.prop)) ∧
  (∀ e ∈ g.edges, ∀ e' ∈ g.edges, e.src ≠ e.tgt → e.src = e'.src → e.tgt = e'.tgt → e = e') ∧
  (∀ v, (g.edges.filter (fun e => e.src = v ∧ e.tgt = v)).length = 0 ∨ (g.edges.filter (fun e => e.src = v ∧ e.tgt = v)).length = 2) ∧
  ∀ r ∈ g.verts, ∀ r' ∈ g.verts, r.prop.id = r'.prop.id → r = r'

/-- Whatever handlers of item events do, self edges included, frames and edges stay in order. -/
theorem C93_structure_with_self_edges (hd : IHandler E) (n : Nat) (calls : List (Cmd E)) (heap : ItemId → ItemObj) (s : EG E)
    (h : hrun hd n calls (init heap) = some s) : C93_structure_loops s.gs.g := by
  have any : ∀ c : Cmd E, c.within (fun _ => True) := fun c => by cases c <;> simp [Cmd.within]
  have ch : Chain (fun _ => True) (init heap) s := hrun_chain (fun ev k s c b _ => any c) n (fun c _ => any c) h
  have hw := Chain.wf ch WF.empty
  obtain ⟨hp, h2⟩ := Chain.advances ch WF.empty Paired.empty (fun u => Or.inl rfl)
  refine ⟨fun e he hne => ?_, ?_, h2, ?_⟩
  · obtain ⟨e', h1, h3, h4, h5⟩ := hp.inv e (G.mem_ns.2 ⟨he, hne⟩)
    exact ⟨e', (G.mem_ns.1 h1).1, h3, h4, h5⟩
  · intro e he e' he' hne h3 h4
    exact hp.uniq e (G.mem_ns.2 ⟨he, hne⟩) e' (G.mem_ns.2 ⟨he', by rw [← h3, ← h4]; exact hne⟩) h3 h4
  · intro r hr r' hr' hid
    have h1 := hw.vertexOf_iff (f := r.prop.id) |>.2 ⟨r, hr, rfl, rfl⟩
    have h2 := hw.vertexOf_iff (f := r.prop.id) |>.2 ⟨r', hr', rfl, hid.symm⟩
    rw [h1] at h2
    exact map_inj_of_nodup hw.vnodup hr hr' (Option.some.inj h2)

/-- demo: connects frames, one with itself, while items are removed, then throws -/
def demoLooper : IHandler Int := fun ev k _ =>
  match ev, k with
  | .itemRemoved "a" 1, 0 => .call (.graph (.addEdge "a" "a" 5)) false
  | .itemRemoved "a" 1, 1 => .call (.graph (.addEdge "b" "a" 6)) true
  | .itemRemoved "a" 1, _ => .fail
  | _, _ => .done

example : ((hrun demoLooper 5 [.graph (.addFrame "a"), .addItem 1, .addItem 2, .clearFrame "a"] (init demoHeap)).map (fun s =>
      (demoLook s, s.gs.g.edges.map (fun e => (e.src, e.tgt, e.prop))))) =
    some (([.frameAdded "a", .itemAdded "a" 1, .itemAdded "a" 2, .itemRemoved "a" 1, .edgeAdded "a" "a" 0, .frameAdded "b", .edgeAdded "b" "a" 2],
      [("a", [(7, [2])]), ("b", [])]), [(0, 0, 5), (0, 0, -5), (1, 0, 6), (0, 1, -6)]) := by decide +kernel

end Verif
