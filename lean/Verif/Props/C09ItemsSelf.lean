import Verif.Props.C09Self
import Verif.Lemmas.ItemPublish
import Verif.Lemmas.ItemChainSelf
import Verif.Spec.Demo
/-! # C09: publishing the current state of an `EnvireGraph` with self edges, items included -/

namespace Verif
open EG
variable {E : Type} [EdgeProp E]

/-- After every history of graph and item calls, self edges included, `publishCurrentState` announces every frame once, then every connection
between two frames once and every connection of a frame to itself twice, and then only items.  An observer that keeps the items has for every
frame the very items that `visitItems` visits, in the same order; it has nothing for other names. -/
theorem C09_publish_items_with_self_edges (heap : ItemId → ItemObj) (cs : List (EG.Cmd E)) {s : EG E}
    (hs : EG.run cs (EG.init heap) = some s) :
    ∃ (fs : List FrameId) (es : List (FrameId × FrameId × EId)) (ievs : List Event),
      EG.publishCurrentState s = some ((fs.map .frameAdded ++ es.map (fun e => .edgeAdded e.1 e.2.1 e.2.2)) ++ ievs) ∧
      fs.Nodup ∧ (∀ f, f ∈ fs ↔ GS.containsFrame f s.gs = true) ∧
      (∀ x ∈ es.map (fun e => (e.1, e.2.1)), GS.containsEdge x.1 x.2 s.gs = .ok true s.gs) ∧
      (∀ a b, a ≠ b → GS.containsEdge a b s.gs = .ok true s.gs →
        ((es.map (fun e => (e.1, e.2.1))).filter (fun x => x = (a, b) ∨ x = (b, a))).length = 1) ∧
      (∀ a, GS.containsEdge a a s.gs = .ok true s.gs → ((es.map (fun e => (e.1, e.2.1))).filter (fun x => x = (a, a))).length = 2) ∧
      (∀ e ∈ ievs, ∃ f i, e = .itemAdded f i) ∧
      (∀ f l, visitItems f s = .ok l s → (Shelf.empty.replay ievs) f = l) ∧
      (∀ f, GS.containsFrame f s.gs = false → (Shelf.empty.replay ievs) f = []) := by
  have hw := EG.run_wf hs
  obtain ⟨hp, ht⟩ := EG.run_loops hs
  obtain ⟨fs, es, h1, h2, h3, -, h4, h5, h6⟩ := publish_named hw hp ht
  obtain ⟨k1, k2⟩ := Shelf.replay_frames s.gs.g.verts (GS.names_nodup hw) Shelf.empty
  refine ⟨fs, es, _, by rw [EG.publishCurrentState, h1], h2, h3, h4, h5, h6, ?_, ?_, ?_⟩
  · intro e he
    obtain ⟨r, -, he⟩ := List.mem_flatMap.1 he
    obtain ⟨i, -, rfl⟩ := List.mem_map.1 he
    exact ⟨_, _, rfl⟩
  · intro f l hl
    obtain ⟨r, hr, rfl, rfl⟩ := (EG.visitItems_iff hw).1 hl
    rw [k1 r hr]
    rfl
  · intro f hf
    rw [k2 f]
    · rfl
    · rintro r hr rfl
      have : s.gs.g.vertexOf r.prop.id = some r.id := hw.vertexOf_iff.2 ⟨r, hr, rfl, rfl⟩
      simp [GS.containsFrame, this] at hf

/-- `unpublishCurrentState` takes the items back first, then the connections (of a frame to itself twice) and then the frames.  An observer that
had the items of every frame, in any order, has none left in any frame of the graph when the first event of the graph part arrives. -/
theorem C09_unpublish_items_with_self_edges (heap : ItemId → ItemObj) (cs : List (EG.Cmd E)) {s : EG E}
    (hs : EG.run cs (EG.init heap) = some s) (M : Shelf) (hM : ∀ f l, visitItems f s = .ok l s → (M f).Perm l) :
    ∃ (ievs : List Event) (fs : List FrameId) (es : List (FrameId × FrameId)),
      EG.unpublishCurrentState s = some (ievs ++ (es.map (fun e => .edgeRemoved e.1 e.2) ++ fs.map .frameRemoved)) ∧
      fs.Nodup ∧ (∀ f, f ∈ fs ↔ GS.containsFrame f s.gs = true) ∧
      (∀ x ∈ es, GS.containsEdge x.1 x.2 s.gs = .ok true s.gs) ∧
      (∀ a b, a ≠ b → GS.containsEdge a b s.gs = .ok true s.gs → (es.filter (fun x => x = (a, b) ∨ x = (b, a))).length = 1) ∧
      (∀ a, GS.containsEdge a a s.gs = .ok true s.gs → (es.filter (fun x => x = (a, a))).length = 2) ∧
      (∀ e ∈ ievs, ∃ f i, e = .itemRemoved f i ∧ GS.containsFrame f s.gs = true) ∧
      (∀ f, GS.containsFrame f s.gs = true → (M.replay ievs) f = []) := by
  have hw := EG.run_wf hs
  obtain ⟨hp, ht⟩ := EG.run_loops hs
  obtain ⟨fs, es, h1, h2, h3, h4, h5, h6⟩ := unpublish_named hw hp ht
  obtain ⟨k1, -⟩ := Shelf.replay_rmFrames s.gs.g.verts (GS.names_nodup hw) M
  refine ⟨_, fs, es, by rw [EG.unpublishCurrentState, h1], h2, h3, h4, h5, h6, ?_, ?_⟩
  · intro e he
    obtain ⟨r, hr, he⟩ := List.mem_flatMap.1 he
    obtain ⟨i, -, rfl⟩ := List.mem_map.1 he
    have : s.gs.g.vertexOf r.prop.id = some r.id := hw.vertexOf_iff.2 ⟨r, hr, rfl, rfl⟩
    exact ⟨_, _, rfl, by simp [GS.containsFrame, this]⟩
  · intro f h
    obtain ⟨v, hv⟩ := Option.isSome_iff_exists.1 h
    obtain ⟨r, hr, -, rfl⟩ := hw.vertexOf_iff.1 hv
    exact k1 r hr (hM _ _ ((EG.visitItems_iff hw).2 ⟨r, hr, rfl, rfl⟩)).symm

/-- a frame with a self edge and two items, and a neighbour with one item -/
example : (EG.run [.graph (.addEdge "a" "a" (1 : Int)), .graph (.addEdge "a" "b" 2), .addItemToFrame "a" 6, .addItemToFrame "a" 1,
      .addItemToFrame "b" 2] (EG.init (fun i => ⟨if i < 5 then 7 else 8, ""⟩))).map
      (fun s => (EG.publishCurrentState s, EG.unpublishCurrentState s)) =
    some (some [.frameAdded "a", .frameAdded "b", .edgeAdded "a" "a" 0, .edgeAdded "a" "a" 1, .edgeAdded "a" "b" 2,
        .itemAdded "a" 6, .itemAdded "a" 1, .itemAdded "b" 2],
      some [.itemRemoved "a" 6, .itemRemoved "a" 1, .itemRemoved "b" 2, .edgeRemoved "a" "a", .edgeRemoved "a" "a",
        .edgeRemoved "a" "b", .frameRemoved "a", .frameRemoved "b"]) := by decide +kernel

end Verif
