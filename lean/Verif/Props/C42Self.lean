import Verif.Props.C42
import Verif.Lemmas.Loose
/-! # C42 (continued): the graph events of item histories with self edges

An observer that keeps sets of names, without checks, knows frames and connections after every history of graph and item calls. -/

namespace Verif
open EG
variable {E : Type} [EdgeProp E]

private theorem EG.Atom.take {P : GS.Cmd EFrame E → Prop} {s s' : EG E} (h : Atom P s s') (hw : WF s.gs.g) (hp : Paired s.gs.g.ns) :
    Paired s'.gs.g.ns ∧ ∃ l, s'.gs.trace = s.gs.trace ++ l ∧
      ∀ m, MirrorOf s.gs.g m → MirrorOf s'.gs.g ((l.map Prod.fst).foldl Mirror.take m) := by
  cases h with
  | call hc hx =>
    obtain ⟨l, a1, a2⟩ := GS.exec_advances hw hx
    exact ⟨a1.paired_ns hw hp, l, a2, fun m hm => MirrorOf.takes a1 hw hp hm⟩
  | mod v hid => exact ⟨hp.of_edges rfl, [], by simp [modFrame], fun m hm => ⟨hm.frames, hm.conns⟩⟩
  | heap _ => exact ⟨hp, [], by simp, fun m hm => hm⟩
  | added f i => exact ⟨hp, _, rfl, fun m hm => hm⟩
  | removed f i => exact ⟨hp, _, rfl, fun m hm => hm⟩

private theorem EG.Chain.take {P : GS.Cmd EFrame E → Prop} {s s' : EG E} (h : Chain P s s') (hw : WF s.gs.g) (hp : Paired s.gs.g.ns) :
    Paired s'.gs.g.ns ∧ ∃ l, s'.gs.trace = s.gs.trace ++ l ∧
      ∀ m, MirrorOf s.gs.g m → MirrorOf s'.gs.g ((l.map Prod.fst).foldl Mirror.take m) := by
  induction h with
  | refl => exact ⟨hp, [], by simp, fun m hm => hm⟩
  | tail h0 h1 ih =>
    obtain ⟨hp1, l, a1, a2⟩ := ih
    obtain ⟨hp2, l', b1, b2⟩ := EG.Atom.take h1 (Chain.wf h0 hw) hp1
    refine ⟨hp2, l ++ l', by rw [b1, a1, List.append_assoc], fun m hm => ?_⟩
    rw [List.map_append, List.foldl_append]
    exact b2 _ (a2 m hm)

/-- For every heap and every history of graph and item calls, self edges included: an observer that inserts what is announced and erases
what is taken back knows exactly the frames and the connections. -/
theorem C42_graph_events_with_self_edges (heap : ItemId → ItemObj) (cs : List (Cmd E)) {s : EG E} (hs : run cs (init heap) = some s) :
    let m := (s.gs.trace.map Prod.fst).foldl Mirror.take Mirror.empty
    (∀ f, f ∈ m.frames ↔ GS.containsFrame f s.gs = true) ∧
    (∀ a b, (a, b) ∈ m.conns ↔ GS.containsEdge a b s.gs = .ok true s.gs) := by
  intro m
  obtain ⟨-, l, h1, h2⟩ := EG.Chain.take (s := init heap)
    (run_chain (P := fun _ => True) (fun c _ => by cases c <;> simp [Cmd.within]) hs) WF.empty Paired.empty
  have hl : l = s.gs.trace := by rw [h1]; simp [init, GS.init]
  subst hl
  have h4 := h2 Mirror.empty MirrorOf.empty
  exact ⟨h4.frames, fun a b => by rw [h4.conns, containsEdge_iff]⟩

/-- a self edge at `a`, a connection that is removed again, items put in and taken out: frames `a`, `b`, connection from `a` to itself -/
example : (run [.graph (.addEdge "a" "a" (1 : Int)), .addItemToFrame "a" 0, .graph (.addEdge "a" "b" 2), .addItemToFrame "b" 1,
      .graph (.removeEdge "b" "a"), .removeItem 0, .clearFrame "b"] (init (fun _ => ⟨7, ""⟩))).map (fun s =>
        let m := (s.gs.trace.map Prod.fst).foldl Mirror.take Mirror.empty
        (m.frames, m.conns)) = some ({"a", "b"}, {("a", "a")}) := by decide +kernel

end Verif
