import Verif.Lemmas.ItemClear
/-! # C43: clearFrame removes all items of one frame and nothing else -/

namespace Verif
open EG
variable {E : Type} [EdgeProp E]

/-- After every history (removal through iterators, self edges and views included), `clearFrame(f)` of a contained frame returns;
`f` has no items afterwards, every other frame has the same property with the same lists, the vertices and edges are the same,
and the new events are one `ItemRemovedEvent` per stored item of `f`, type by type in list order, nothing else.  The item objects
are not touched. -/
theorem C43_clearFrame (heap : ItemId → ItemObj) (cs : List (Cmd E)) {s : EG E} (hs : run cs (init heap) = some s) {f : FrameId}
    {p : EFrame} (hp : GS.getFrameProperty f s.gs = .ok p s.gs) :
    ∃ s', clearFrame f s = .ok () s' ∧
      GS.getFrameProperty f s'.gs = .ok ⟨f, []⟩ s'.gs ∧
      (∀ x q, x ≠ f → (GS.getFrameProperty x s'.gs = .ok q s'.gs ↔ GS.getFrameProperty x s.gs = .ok q s.gs)) ∧
      (∀ x, s'.gs.g.vertexOf x = s.gs.g.vertexOf x) ∧ GS.getEdges s'.gs = GS.getEdges s.gs ∧ s'.heap = s.heap ∧
      s'.gs.subs = s.gs.subs ∧ s'.gs.views = s.gs.views ∧
      s'.gs.trace.map Prod.fst = s.gs.trace.map Prod.fst ++ (p.items.flatMap (fun e => e.2)).map (fun i => .itemRemoved f i) := by
  have hw := run_wf hs
  cases hv : s.gs.g.vertexOf f with
  | none => simp [GS.getFrameProperty, hv] at hp
  | some v =>
    obtain ⟨r, tr, h1, h2, h3⟩ := clearFrame_eq hw hv
    have hrp : r.prop = p := by simpa [GS.getFrameProperty, hv, h1] using hp
    obtain ⟨q0, hq0, hid⟩ := hw.live_of_vertexOf hv
    rw [h1] at hq0; cases hq0
    have hid : r.prop.id = f := hid
    have hrid := (G.findV_some h1).2
    have hw' : WF (s.gs.g.modV v wipe) := hw.modV v (fun _ => rfl)
    refine ⟨_, h2, ?_, ?_, fun x => rfl, rfl, rfl, rfl, rfl, ?_⟩
    · simp only [GS.getFrameProperty, G.modV_vertexOf, hv, G.findV_modV, h1, Option.map_some, hrid, if_true, wipe, hid]
    · intro x q hx
      simp only [GS.getFrameProperty, G.modV_vertexOf]
      cases hvx : s.gs.g.vertexOf x with
      | none => simp
      | some u =>
        have hne : u ≠ v := by rintro rfl; exact hx (hw.vertexOf_inj hvx hv)
        obtain ⟨ru, hru, -⟩ := hw.live_of_vertexOf hvx
        have := (G.findV_some hru).2
        simp only [G.findV_modV, hru, Option.map_some, this, hne, if_false, Res.ok.injEq, and_true]
    · simp only [List.map_append, h3, ← hrp]; rfl

/-- a frame made from a property with items: they are announced, and the frame keeps its name -/
example : ∃ s s' : EG Int, run [.graph (.emplaceFrame "a" ⟨"", [(7, [0, 1]), (8, [2])]⟩), .graph (.addEdge "a" "b" 1)] (init (fun _ => ⟨7, ""⟩)) = some s ∧
    clearFrame "a" s = .ok () s' ∧ GS.getFrameProperty "a" s'.gs = .ok ⟨"a", []⟩ s'.gs ∧ GS.getEdges s'.gs = GS.getEdges s.gs ∧
    (s'.gs.trace.map Prod.fst).drop 3 = [.itemRemoved "a" 0, .itemRemoved "a" 1, .itemRemoved "a" 2] :=
  ⟨_, _, rfl, rfl, rfl, rfl, rfl⟩

/-- In histories that remove items by pointer, the announced items are exactly the items of the frame. -/
theorem C43_announced_items (heap : ItemId → ItemObj) (cs : List (Cmd E)) (hcs : ∀ c ∈ cs, c.byPointer) {s : EG E}
    (hs : run cs (init heap) = some s) {f : FrameId} (hf : GS.containsFrame f s.gs = true) :
    ∃ s' l, clearFrame f s = .ok () s' ∧ visitItems f s = .ok l s ∧
      s'.gs.trace.map Prod.fst = s.gs.trace.map Prod.fst ++ l.map (fun i => .itemRemoved f i) ∧
      (∀ t, ∃ lt, getItemsT f t s = .ok lt s ∧ l.filter (fun i => (heap i).type = t) = lt) ∧
      (∀ t, getItemsT f t s' = .ok [] s' ∧ containsItems f t s' = .ok false s') ∧ getTotalItemCount f s' = .ok 0 s' ∧
      ∀ x, x ≠ f → GS.containsFrame x s.gs = true → ∀ t lt, getItemsT x t s = .ok lt s → getItemsT x t s' = .ok lt s' := by
  obtain ⟨hg, l, h1, h2⟩ := run_follows hcs (EG.Good.init heap) hs
  have hM := h2 Shelf.empty (EG.Stocked.init _ heap)
  have H : HSim (fun i => (heap i).type) s ⟨Shelf.empty.replay (l.map Prod.fst), fun i => (s.heap i).frame⟩ := ⟨hg, hM, fun _ => rfl⟩
  have A := H.answers hf
  obtain ⟨v, hv⟩ := Option.isSome_iff_exists.1 hf
  obtain ⟨r, tr, s', e0, e1, e2, e3, e4, e5, e6⟩ := hg.clearFrame hv
  have H' : HSim (fun i => (heap i).type) s' ((⟨Shelf.empty.replay (l.map Prod.fst), fun i => (s.heap i).frame⟩ : ItemSpec).put f []) :=
    ⟨e2, (e6 _ hM).2.2, fun i => by rw [e3]; rfl⟩
  have hcont : ∀ x, GS.containsFrame x s.gs = true → (s'.gs.g.vertexOf x).isSome := by
    intro x hx; rw [e4]; exact hx
  have A' := H'.answers (hcont f hf)
  have h0 : ((⟨Shelf.empty.replay (l.map Prod.fst), fun i => (s.heap i).frame⟩ : ItemSpec).put f []).items f = [] := by
    simp [ItemSpec.put, Shelf.put]
  rw [h0] at A'
  obtain ⟨lv, a1, a2, a3⟩ := A.visit
  have hlv : lv = r.prop.visit := by
    simp only [visitItems, readFrame, hv, e0, Res.ok.injEq, and_true] at a1
    exact a1.symm
  refine ⟨s', lv, e1, a1, by rw [e4]; simp only [List.map_append, e5, hlv], fun t => ⟨_, A.itemsT t, a3 t⟩, fun t => ⟨A'.itemsT t, ?_⟩,
    A'.total, ?_⟩
  · obtain ⟨b, b1, b2⟩ := A'.contains t
    cases b with
    | false => exact b1
    | true => simp at b2
  · intro x hx hxf t lt hlt
    have Ax := H.answers hxf
    have Ax' := H'.answers (hcont x hxf)
    have hx' : ((⟨Shelf.empty.replay (l.map Prod.fst), fun i => (s.heap i).frame⟩ : ItemSpec).put f []).items x =
        Shelf.empty.replay (l.map Prod.fst) x := by simp [ItemSpec.put, Shelf.put, hx]
    rw [hx'] at Ax'
    rw [Ax.itemsT t] at hlt
    simp only [Res.ok.injEq, and_true] at hlt
    rw [Ax'.itemsT t, hlt]

def C43_heap (i : ItemId) : ItemObj := ⟨if i < 5 then 7 else 8, ""⟩

/-- two types in one frame, an item in another frame -/
example : ∃ s s' : EG Int,
    run [.graph (.addEdge "a" "b" 1), .addItemToFrame "a" 0, .addItemToFrame "a" 5, .addItemToFrame "a" 1, .addItemToFrame "b" 2]
      (init C43_heap) = some s ∧ clearFrame "a" s = .ok () s' ∧
    s'.gs.trace.map Prod.fst = s.gs.trace.map Prod.fst ++ [.itemRemoved "a" 0, .itemRemoved "a" 1, .itemRemoved "a" 5] ∧
    getItems "b" 7 s' = .ok [2] s' ∧ getTotalItemCount "a" s' = .ok 0 s' := ⟨_, _, rfl, rfl, rfl, rfl, rfl⟩

end Verif
