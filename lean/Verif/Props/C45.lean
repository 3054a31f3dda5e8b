import Verif.Lemmas.ItemClear
import Verif.Lemmas.ClearViews
/-! # C45: clear empties the graph and announces it -/

namespace Verif
open EG GS
variable {E : Type} [EdgeProp E]

private theorem clear_core {s : EG E} (hw : WF s.gs.g) (hp : Paired s.gs.g) {m : Mirror} (m3 : MirrorOf s.gs.g m) (hsub : s.gs.subs = []) :
    ∃ s', EG.clear s = .ok () s' ∧
      (∀ f, containsFrame f s'.gs = false) ∧ numVertices s'.gs = 0 ∧ numEdges s'.gs = 0 ∧ s'.heap = s.heap ∧
      ∃ (ps : List (FrameId × FrameId)) (fs : List FrameId) (items : FrameId → List ItemId),
        s'.gs.trace.map Prod.fst = s.gs.trace.map Prod.fst ++ ps.map (fun p => .edgeRemoved p.1 p.2) ++
          fs.flatMap (fun f => (items f).map (fun i => .itemRemoved f i) ++ [.frameRemoved f]) ∧
        (ps.Nodup ∧ (∀ a b, (a, b) ∈ ps → (b, a) ∉ ps) ∧
          ∀ a b, containsEdge a b s.gs = .ok true s.gs ↔ (a, b) ∈ ps ∨ (b, a) ∈ ps) ∧
        (fs.Nodup ∧ ∀ f, f ∈ fs ↔ containsFrame f s.gs = true) ∧
        (∀ f ∈ fs, ∃ p, getFrameProperty f s.gs = .ok p s.gs ∧ items f = p.items.flatMap (fun e => e.2)) := by
  obtain ⟨s', ps, a1, a2, a3, a4, a5⟩ := clear_events hw hp hsub m3
  have hnv : numVertices s'.gs = 0 := by rw [a3.numVertices]; rfl
  have hne : numEdges s'.gs = 0 := by
    rw [a3.numEdges]
    simp only [AGraph.pairs, AGraph.empty, Finset.card_eq_zero, Finset.product_empty, Finset.filter_empty]
  have hfs : ∀ f ∈ names s.gs.g, ∃ lf : List ItemId, (EG.leaving s.gs.g f = lf.map (fun i => .itemRemoved f i) ++ [.frameRemoved f]) ∧
      ∃ p, getFrameProperty f s.gs = .ok p s.gs ∧ lf = p.items.flatMap (fun e => e.2) := by
    intro f hf
    obtain ⟨v, hv⟩ := Option.isSome_iff_exists.1 ((mem_names hw).1 hf)
    obtain ⟨r, hr, -⟩ := hw.live_of_vertexOf hv
    refine ⟨r.prop.visit, ?_, r.prop, by simp only [getFrameProperty, hv, hr], rfl⟩
    simp only [EG.leaving, EG.find_name hw hv hr, Option.map_some, Option.getD_some]
  choose! items hi1 hi2 using hfs
  refine ⟨s', a1, fun f => ?_, hnv, hne, a2, ps, names s.gs.g, items, ?_, ⟨a5.nodup, ?_, ?_⟩,
    ⟨names_nodup hw, fun f => mem_names hw⟩, hi2⟩
  · have := a3.vertex_none (f := f) (by simp [AGraph.empty])
    simp [containsFrame, this]
  · rw [a4]
    congr 1
    exact List.flatMap_congr hi1
  · intro a b hab
    exact a5.noswap (a, b) hab
  · intro a b; rw [containsEdge_iff]; exact a5.iff a b

/-- After every history without self edges (views may have come and gone, items may have been removed through iterators, frames may
have been created with items): if no tree view is subscribed, `clear()` returns, no frame and edge is left and so no item, the
item objects are untouched, and the published events are, in this order, one `EdgeRemovedEvent` per connection (in one of its
directions) and, frame by frame, one `ItemRemovedEvent` per item followed by the `FrameRemovedEvent`. -/
theorem C45_clear (heap : ItemId → ItemObj) (cs : List (EG.Cmd E)) (hns : ∀ c ∈ cs, c.noSelf)
    {s : EG E} (hs : EG.run cs (EG.init heap) = some s) (hsub : s.gs.subs = []) :
    ∃ s', EG.clear s = .ok () s' ∧
      (∀ f, containsFrame f s'.gs = false) ∧ numVertices s'.gs = 0 ∧ numEdges s'.gs = 0 ∧ s'.heap = s.heap ∧
      ∃ (ps : List (FrameId × FrameId)) (fs : List FrameId) (items : FrameId → List ItemId),
        s'.gs.trace.map Prod.fst = s.gs.trace.map Prod.fst ++ ps.map (fun p => .edgeRemoved p.1 p.2) ++
          fs.flatMap (fun f => (items f).map (fun i => .itemRemoved f i) ++ [.frameRemoved f]) ∧
        (ps.Nodup ∧ (∀ a b, (a, b) ∈ ps → (b, a) ∉ ps) ∧
          ∀ a b, containsEdge a b s.gs = .ok true s.gs ↔ (a, b) ∈ ps ∨ (b, a) ∈ ps) ∧
        (fs.Nodup ∧ ∀ f, f ∈ fs ↔ containsFrame f s.gs = true) ∧
        (∀ f ∈ fs, ∃ p, getFrameProperty f s.gs = .ok p s.gs ∧ items f = p.items.flatMap (fun e => e.2)) := by
  obtain ⟨l', m1, m2⟩ := Chain.mirror (run_chain (fun c hc => (hns c hc).within) hs) WF.empty Paired.empty
  obtain ⟨m, -, m3⟩ := m2 Mirror.empty MirrorOf.empty
  exact clear_core (EG.run_wf hs) (EG.run_paired hns hs) m3 hsub

/-- a frame made with two items of different types, and one frame without items -/
example : ∃ s s' : EG Int, EG.run [.graph (.emplaceFrame "a" ⟨"", [(7, [0, 1]), (8, [5])]⟩), .graph (.addEdge "b" "a" 1)]
      (EG.init (fun i => ⟨if i < 5 then 7 else 8, ""⟩)) = some s ∧ EG.clear s = .ok () s' ∧ numVertices s'.gs = 0 ∧
    s'.gs.trace.map Prod.fst = s.gs.trace.map Prod.fst ++ [.edgeRemoved "a" "b", .itemRemoved "a" 0, .itemRemoved "a" 1,
      .itemRemoved "a" 5, .frameRemoved "a", .frameRemoved "b"] := ⟨_, _, rfl, rfl, rfl, rfl⟩

/-- The same with subscribed tree views, if they are correct and the graph has no cycle (after removing a connection its two frames
are not connected any more).  The views stay subscribed; each of them has only its root left, although that vertex does not exist
any more. -/
theorem C45_clear_views (heap : ItemId → ItemObj) (cs : List (EG.Cmd E)) (hns : ∀ c ∈ cs, c.noSelf)
    {s : EG E} (hs : EG.run cs (EG.init heap) = some s)
    (hf : ∀ u v, s.gs.g.Adj u v → ¬ (s.gs.g.cut u v).Reach u v)
    (hok : ∀ q ∈ s.gs.subs, ∃ root, IsTreeView s.gs.g root (s.gs.views q)) :
    ∃ s', EG.clear s = .ok () s' ∧ s'.gs.subs = s.gs.subs ∧
      (∀ q ∈ s.gs.subs, ∀ root, IsTreeView s.gs.g root (s.gs.views q) → (s'.gs.views q).root = some root ∧
        (s'.gs.views q).crossEdges = [] ∧ ∀ v, (s'.gs.views q).vertexExists v = true ↔ v = root) ∧
      (∀ f, containsFrame f s'.gs = false) ∧ numVertices s'.gs = 0 ∧ numEdges s'.gs = 0 ∧ s'.heap = s.heap ∧
      ∃ (ps : List (FrameId × FrameId)) (fs : List FrameId) (items : FrameId → List ItemId),
        s'.gs.trace.map Prod.fst = s.gs.trace.map Prod.fst ++ ps.map (fun p => .edgeRemoved p.1 p.2) ++
          fs.flatMap (fun f => (items f).map (fun i => .itemRemoved f i) ++ [.frameRemoved f]) ∧
        (ps.Nodup ∧ (∀ a b, (a, b) ∈ ps → (b, a) ∉ ps) ∧
          ∀ a b, containsEdge a b s.gs = .ok true s.gs ↔ (a, b) ∈ ps ∨ (b, a) ∈ ps) ∧
        (fs.Nodup ∧ ∀ f, f ∈ fs ↔ containsFrame f s.gs = true) ∧
        (∀ f ∈ fs, ∃ p, getFrameProperty f s.gs = .ok p s.gs ∧ items f = p.items.flatMap (fun e => e.2)) := by
  have hw := EG.run_wf hs
  have hp : Paired s.gs.g := EG.run_paired hns hs
  obtain ⟨l', m1, m2⟩ := Chain.mirror (run_chain (fun c hc => (hns c hc).within) hs) WF.empty Paired.empty
  obtain ⟨m, -, m3⟩ := m2 Mirror.empty MirrorOf.empty
  obtain ⟨t, a1, a2⟩ := clear_core (s := EG.blind s) hw hp ⟨m3.frames, m3.conns⟩ rfl
  obtain ⟨s', b1, rfl, b2, b3⟩ := clear_forest hw hp hf ⟨(EG.run_subsInv hs).1, hok⟩ a1
  have he : s'.gs.g.edges = [] := by
    have : numEdges (EG.blind s').gs = 0 := a2.2.2.1
    exact List.length_eq_zero_iff.1 this
  have hadj : ∀ u v, ¬ s'.gs.g.Adj u v := by
    rintro u v ⟨e, h, -⟩; rw [he] at h; cases h
  refine ⟨s', b1, b2, fun q hq root hr => ?_, ?_⟩
  · have h1 := b3 q hq root hr
    refine ⟨h1.root_eq, ?_, fun v => ?_⟩
    · cases hc : (s'.gs.views q).crossEdges with
      | nil => rfl
      | cons c cs =>
        obtain ⟨e, h, -⟩ := h1.cross_edge c (by rw [hc]; simp)
        rw [he] at h; cases h
    · rw [h1.span]
      constructor
      · intro h
        induction h with
        | refl => rfl
        | tail _ h _ => exact absurd h (hadj _ _)
      · rintro rfl; exact .refl
  · obtain ⟨x1, x2, x3, x4, ps, fs, items, x5, x6, x7, x8⟩ := a2
    refine ⟨x1, x2, x3, x4, ps, fs, items, x5, ⟨x6.1, x6.2.1, fun a b => ?_⟩, x7, fun f hf => ?_⟩
    · rw [← x6.2.2 a b, containsEdge_iff, containsEdge_iff]; rfl
    · obtain ⟨p, y1, y2⟩ := x8 f hf
      exact ⟨p, (getFrameProperty_blind f p s).1 y1, y2⟩

/-- two views with different roots on a chain -/
example : ∃ (s s' : EG Int),
    EG.run [.graph (.addEdge "a" "b" 1), .graph (.addEdge "b" "c" 2), .graph (.getTree "a" true 0), .graph (.getTree "c" true 1)]
      (EG.init (fun _ => ⟨7, ""⟩)) = some s ∧ (s.gs.views 1).tree.map Prod.fst = [2, 1, 0] ∧ EG.clear s = .ok () s' ∧ s'.gs.subs = s.gs.subs ∧
    ((s'.gs.views 0).tree.map Prod.fst, (s'.gs.views 1).tree.map Prod.fst) = ([0], [2]) :=
  ⟨_, _, rfl, rfl, rfl, rfl, rfl⟩

/-- In histories that remove items by pointer and create frames empty, the announced items of each frame are exactly those that
`getItems` lists for the types. -/
theorem C45_announced_items (heap : ItemId → ItemObj) (cs : List (EG.Cmd E)) (hcs : ∀ c ∈ cs, c.byPointer)
    {s : EG E} (hs : EG.run cs (EG.init heap) = some s) {f : FrameId} {p : EFrame} (hp : getFrameProperty f s.gs = .ok p s.gs) :
    ∀ t, getItemsT f t s = .ok ((p.items.flatMap (fun e => e.2)).filter (fun i => (heap i).type = t)) s := by
  obtain ⟨hg, l, h1, h2⟩ := run_follows hcs (EG.Good.init heap) hs
  have hM := h2 Shelf.empty (EG.Stocked.init _ heap)
  have H : HSim (fun i => (heap i).type) s ⟨Shelf.empty.replay (l.map Prod.fst), fun i => (s.heap i).frame⟩ := ⟨hg, hM, fun _ => rfl⟩
  intro t
  cases hv : s.gs.g.vertexOf f with
  | none => simp [getFrameProperty, hv] at hp
  | some v =>
    have A := H.answers (f := f) (by rw [hv]; rfl)
    obtain ⟨lv, b1, b2, b3⟩ := A.visit
    obtain ⟨r, hr, -⟩ := hg.wf.live_of_vertexOf hv
    have hrp : r.prop = p := by simpa [getFrameProperty, hv, hr] using hp
    have hlv : lv = p.items.flatMap (fun e => e.2) := by
      simp only [visitItems, readFrame, hv, hr, Res.ok.injEq, and_true] at b1
      rw [← b1, hrp]; rfl
    rw [A.itemsT t, ← b3 t, hlv]

example : ∃ (s : EG Int) (p : EFrame),
    EG.run [.graph (.addFrame "a"), .addItemToFrame "a" 0, .addItemToFrame "a" 5, .addItemToFrame "a" 1, .removeItem 0]
      (EG.init (fun i => ⟨if i < 5 then 7 else 8, ""⟩)) = some s ∧ getFrameProperty "a" s.gs = .ok p s.gs ∧
    p.items.flatMap (fun e => e.2) = [1, 5] ∧ getItemsT "a" 7 s = .ok [1] s ∧ getItemsT "a" 8 s = .ok [5] s :=
  ⟨_, _, rfl, rfl, rfl, rfl, rfl⟩

def C45_heap (i : ItemId) : ItemObj := ⟨if i < 5 then 7 else 8, ""⟩

example : ∃ s s' : EG Int,
    EG.run [.graph (.addEdge "a" "b" 1), .addItemToFrame "a" 0, .graph (.addEdge "c" "b" 1), .graph (.addEdge "c" "a" 1),
      .addItemToFrame "b" 1, .addItemToFrame "b" 5] (EG.init C45_heap) = some s ∧ EG.clear s = .ok () s' ∧
    s'.gs.trace.map Prod.fst = s.gs.trace.map Prod.fst ++
      [.edgeRemoved "a" "b", .edgeRemoved "a" "c", .edgeRemoved "b" "c", .itemRemoved "a" 0, .frameRemoved "a",
       .itemRemoved "b" 1, .itemRemoved "b" 5, .frameRemoved "b", .frameRemoved "c"] := ⟨_, _, rfl, rfl, rfl⟩

/-- With a cycle it does not hold: a triangle with a correct view from "a".  `clear()` throws after the first connection has been
removed from the graph; the other connections, the frames and the item are still there. -/
theorem C45_cycle_fails : ∃ (s s' : EG Int),
    EG.run [.graph (.addEdge "a" "b" 1), .graph (.addEdge "b" "c" 2), .graph (.addEdge "c" "a" 3), .addItemToFrame "a" 0,
      .graph (.getTree "a" true 0)] (EG.init C45_heap) = some s ∧ EG.clear s = .throw (.runtimeError "NOT IMPLEMENTED") s' ∧
    numVertices s'.gs = 3 ∧ numEdges s'.gs = 4 ∧ EG.visitItems "a" s' = .ok [0] s' ∧ (s'.gs.views 0).tree.map Prod.fst = [0, 2] :=
  ⟨_, _, rfl, rfl, rfl, rfl, rfl, rfl⟩

/-- a chain with a view from its middle: the view keeps its root and nothing else -/
example : ∃ (s s' : EG Int),
    EG.run [.graph (.addEdge "a" "b" 1), .graph (.addEdge "b" "c" 2), .graph (.getTree "b" true 0)] (EG.init C45_heap) = some s ∧
    (s.gs.views 0).tree.map Prod.fst = [1, 0, 2] ∧ EG.clear s = .ok () s' ∧ numVertices s'.gs = 0 ∧ s'.gs.subs = [0] ∧
    (s'.gs.views 0).root = some 1 ∧ (s'.gs.views 0).tree.map Prod.fst = [1] :=
  ⟨_, _, rfl, rfl, rfl, rfl, rfl, rfl, rfl⟩

end Verif
