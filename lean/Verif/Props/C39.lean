import Verif.Lemmas.ItemAnswers
import Verif.Lemmas.ItemsAll
/-! # C39: frames store exactly the items that were added and not removed, in order -/

namespace Verif
open EG
variable {E : Type} [EdgeProp E]

/-- Missing compared to C39: frames created by `emplaceFrame` from a property that holds items already, see
`C39_prefilled_frame_fails`.  For every history of calls, with self edges and subscribed views too, that has no removal through an
iterator: the items of every frame are what the outcomes of the calls say (`Reaches`: added at the end, removed, cleared), and
every query about a frame answers accordingly. -/
theorem C39_items_added_and_not_removed_partial (heap : ItemId → ItemObj) (cs : List (Cmd E)) (hcs : ∀ c ∈ cs, c.byPointer)
    {xs : List (Option Exn)} {s : EG E} (hs : outcomes cs (init heap) = some (xs, s)) :
    ∃ S : ItemSpec, ItemSpec.Reaches ⟨Shelf.empty, fun i => (heap i).frame⟩ cs xs S ∧
      (∀ f, GS.containsFrame f s.gs = true → AnswersAs (fun i => (heap i).type) s f (S.items f)) ∧
      (∀ f, GS.containsFrame f s.gs = false → AnswersUnknown s f ∧ S.items f = []) := by
  obtain ⟨S, h1, h2⟩ := HSim.outcomes hcs (HSim.init heap) hs
  refine ⟨S, h1, fun f hf => h2.answers hf, fun f hf => ?_⟩
  have : s.gs.g.vertexOf f = none := by simpa [GS.containsFrame] using hf
  exact ⟨.of this, h2.stocked.absent f this⟩

/-- Missing compared to C39: self edges and subscribed views (`plain`).  The outcome of every call is the one that the abstract
store predicts, no call is undefined behaviour, and the queries answer as its lists say. -/
theorem C39_refines_item_store_partial (heap : ItemId → ItemObj) (cs : List (Cmd E)) (hcs : ∀ c ∈ cs, c.plain) :
    let S := (AStore.run (fun i => (heap i).type) ⟨AGraph.empty, Shelf.empty, fun i => (heap i).frame⟩ cs)
    ∃ s, outcomes cs (init heap) = some (S.1, s) ∧
      (∀ f, f ∈ S.2.graph.frames → AnswersAs (fun i => (heap i).type) s f (S.2.items f)) ∧
      (∀ f, f ∉ S.2.graph.frames → AnswersUnknown s f) ∧ (∀ i, (s.heap i).frame = S.2.name i) := by
  intro S
  obtain ⟨s, h1, h2, -⟩ := ESim.outcomes hcs (ESim.init (E := E) heap)
  refine ⟨s, h1, fun f hf => ?_, fun f hf => .of (h2.sim.vertex_none hf), h2.name⟩
  obtain ⟨v, hv⟩ := h2.sim.vertex_some hf
  exact HSim.answers (S := ⟨S.2.items, S.2.name⟩) ⟨h2.good, h2.stocked, h2.name⟩ (by rw [hv]; rfl)

/-- items 0 to 4 have type 7, the others type 8; all carry the frame name "a" at first -/
def C39_heap (i : ItemId) : ItemObj := ⟨if i < 5 then 7 else 8, "a"⟩

def C39_demo : List (Cmd Int) :=
  [.addItem 0, .graph (.addFrame "a"), .addItem 0, .addItemToFrame "a" 5, .addItemToFrame "b" 1, .addItemToFrame "a" 1,
   .addItemToFrame "a" 0, .removeItem 0, .removeItem 0, .graph (.addEdge "a" "b" 1), .addItemToFrame "b" 6, .removeItem 2,
   .removeItem 7, .graph (.removeFrame "b"), .removeItem 6]

example : ∀ c ∈ C39_demo, c.plain ∧ c.byPointer := by
  simp [C39_demo, EG.Cmd.plain, Cmd.byPointer, GS.Cmd.plain]

example : (outcomes C39_demo (init C39_heap)).map (fun r => r.1) = some
    [some (.unknownFrame "a"), none, none, none, some (.unknownFrame "b"), none, none, none, some (.unknownFrame ""), none, none,
      some .unknownItem, some .unknownItem, some (.frameStillConnected "b"), some (.noItemsOfType "b")] := by decide +kernel

example : (outcomes C39_demo (init C39_heap)).map (fun r => ((getItemsT "a" 7 r.2).val?, (getItemsT "a" 8 r.2).val?,
      (getTotalItemCount "a" r.2).val?, (getItemTypes "a" r.2).val?)) =
    some (some [1, 0], some [5], some 3, some [7, 8]) := by decide +kernel

/-- A frame can be created from a property that holds items already: then a frame lists an item that no call added. -/
theorem C39_prefilled_frame_fails : ∃ s : EG Int,
    outcomes [.graph (.emplaceFrame "a" ⟨"", [(7, [0])]⟩)] (init C39_heap) = some ([none], s) ∧
    getItems "a" 7 s = .ok [0] s := ⟨_, rfl, rfl⟩

/-- the queries after the demo program and after the list of type 8 has become empty -/
example : (outcomes (C39_demo ++ [.removeItem 5]) (init C39_heap)).map (fun r => [(getItem "a" 7 0 r.2).val?, (getItem "a" 7 1 r.2).val?,
      (getItem "a" 7 2 r.2).val?, (getItem "a" 7 (-1) r.2).val?, (getItem "a" 8 0 r.2).val?]) =
    some [some 1, some 0, none, none, none] := by decide +kernel

example : (outcomes (C39_demo ++ [.removeItem 5]) (init C39_heap)).map (fun r => ((getItemsT "a" 8 r.2).val?, (getItems "a" 8 r.2).exn?,
      (containsItems "a" 8 r.2).val?, (getItemTypes "a" r.2).val?)) =
    some (some [], some (.noItemsOfType "a"), some false, some [7]) := by decide +kernel

example : (outcomes (C39_demo ++ [.removeItem 5]) (init C39_heap)).map (fun r => ((getItemCount "a" 7 r.2).val?,
      (getItemCount "a" 8 r.2).val?)) = some (some 2, some 0) := by decide +kernel

/-- Missing compared to C39: removal through an iterator takes out all items of a type if it hits the last one of the type (see C41), and
a frame can be made from a property that contains items; both are part of `ReachesAll` as the code does them.  For every history of any
calls, in which properties that contain items have one list per type without empty lists: the items of every frame are what the outcomes
of the calls say, and every query about a frame answers accordingly. -/
theorem C39_every_history_partial (heap : ItemId → ItemObj) (cs : List (Cmd E))
    (hcs : ∀ f p, .graph (.emplaceFrame f p) ∈ cs → p.Sorted (fun i => (heap i).type))
    {xs : List (Option Exn)} {s : EG E} (hs : outcomes cs (init heap) = some (xs, s)) :
    ∃ S : ItemSpec, ItemSpec.ReachesAll (fun i => (heap i).type) ⟨Shelf.empty, fun i => (heap i).frame⟩ cs xs S ∧
      (∀ f, GS.containsFrame f s.gs = true → AnswersAs (fun i => (heap i).type) s f (S.items f)) ∧
      (∀ f, GS.containsFrame f s.gs = false → AnswersUnknown s f ∧ S.items f = []) ∧ ∀ i, (s.heap i).frame = S.name i := by
  obtain ⟨S, h1, h2⟩ := HSim.outcomesAll hcs (HSim.init heap) hs
  refine ⟨S, h1, fun f hf => h2.answers hf, fun f hf => ?_, h2.name⟩
  have : s.gs.g.vertexOf f = none := by simpa [GS.containsFrame] using hf
  exact ⟨.of this, h2.stocked.absent f this⟩

/-- a frame made with items 3, 0, 4 of type 7 and 5 of type 8; item 9 of type 8 is added; the second of type 7 and then the last of type 8
are removed through iterators; then an iterator past the end of the list and one of a frame that does not exist -/
def C39_iterators : List (Cmd Int) :=
  [.graph (.emplaceFrame "a" ⟨"", [(7, [3, 0, 4]), (8, [5])]⟩), .addItemToFrame "a" 9, .removeItemAt "a" ⟨"a", 7, 1⟩,
   .setItemFrame 9 "a", .removeItemAt "a" ⟨"a", 8, 1⟩, .removeItemAt "b" ⟨"a", 7, 0⟩]

set_option synthInstance.maxSize 1024 in
example : (outcomes C39_iterators (init C39_heap)).map (fun r => (r.1, (getItemsT "a" 7 r.2).val?, (getItemsT "a" 8 r.2).val?,
      (getItemTypes "a" r.2).val?, (r.2.heap 0).frame, (r.2.heap 9).frame, (r.2.heap 5).frame)) =
    some ([none, none, none, none, none, some (.unknownFrame "b")], some [3, 4], some [], some [7], "", "", "a") := by decide +kernel

example : ∀ f p, (.graph (.emplaceFrame f p) : Cmd Int) ∈ C39_iterators → p.Sorted (fun i => (C39_heap i).type) := by
  intro f p h
  simp only [C39_iterators, List.mem_cons, Cmd.graph.injEq, GS.Cmd.emplaceFrame.injEq, reduceCtorEq, List.not_mem_nil, or_false] at h
  obtain ⟨-, rfl⟩ := h
  exact ⟨by decide, by decide, by decide⟩

/-- what the specification says about this history, without looking at the model of the graph -/
example : removeNth (fun j => (C39_heap j).type = 7) 1 [3, 0, 4, 5, 9] = [3, 4, 5, 9] ∧
    [3, 4, 5, 9].filter (fun j => (C39_heap j).type ≠ 8) = [3, 4] := by decide

end Verif
