import Verif.Lemmas.Slots
import Verif.Spec.Demo
/-! # C46: filtered copies contain exactly the selected item types -/

namespace Verif
open EG
variable {E : Type} [EdgeProp E]

/-- does type `t` pass the filter?  (`none` is the null pointer for the list) -/
def C46_passes (list : Option (List TypeIdx)) (inclusive : Bool) (t : TypeIdx) : Prop :=
  ∀ l, list = some l → (inclusive = true ↔ t ∈ l)

/-- Missing compared to C46: graphs with a frame that was created after a frame that was removed since (see `C46_exact`).  After every
other history the filtering constructor succeeds.  The result has the same frames and the same edges.  A type that passes
the filter has the same list in every frame, a type that does not pass has no list.  Nothing is published, no view is subscribed,
the item objects are shared. -/
theorem C46_filtered_copy_partial (heap : ItemId → ItemObj) (cs : List (EG.Cmd E)) {s : EG E} (hs : EG.run cs (EG.init heap) = some s)
    (hg : ¬ Gap (slots (s.gs.trace.map Prod.fst))) (list : Option (List TypeIdx)) (inclusive : Bool) :
    ∃ c, filterCopy list inclusive s = some c ∧ c.heap = s.heap ∧ c.gs.trace = [] ∧ c.gs.subs = [] ∧
      (∀ f, GS.containsFrame f c.gs = GS.containsFrame f s.gs) ∧
      (∀ a b p, GS.getEdgeProperty a b c.gs = .ok p c.gs ↔ GS.getEdgeProperty a b s.gs = .ok p s.gs) ∧
      GS.numVertices c.gs = GS.numVertices s.gs ∧ GS.numEdges c.gs = GS.numEdges s.gs ∧
      (∀ f t, C46_passes list inclusive t → ∀ l, getItems f t c = .ok l c ↔ getItems f t s = .ok l s) ∧
      (∀ f t, C46_passes list inclusive t → ∀ b, containsItems f t c = .ok b c ↔ containsItems f t s = .ok b s) ∧
      (∀ f t, ¬ C46_passes list inclusive t → GS.containsFrame f s.gs = true →
        getItems f t c = .throw (.noItemsOfType f) c ∧ containsItems f t c = .ok false c) ∧
      (∀ f ts, getItemTypes f s = .ok ts s → ∃ ts', getItemTypes f c = .ok ts' c ∧ ts'.Sublist ts ∧
        ∀ t, t ∈ ts' ↔ t ∈ ts ∧ C46_passes list inclusive t) := by
  have hw := EG.run_wf hs
  have hd : s.gs.g.Dense := ((EG.slotted_run hs).dense_iff hw).2 hg
  obtain ⟨c, q, hc, hheap, htr, hsub, hverts, hlab, hedges, hq⟩ : ∃ (c : EG E) (q : TypeIdx → Bool), filterCopy list inclusive s = some c ∧
      c.heap = s.heap ∧ c.gs.trace = [] ∧ c.gs.subs = [] ∧
      c.gs.g.verts = (s.gs.g.copied.modAll (fun fr => { fr with items := fr.items.filter (fun e => q e.1) })).verts ∧
      c.gs.g.labels = s.gs.g.copied.labels ∧ c.gs.g.edges = s.gs.g.copied.edges ∧
      ∀ t, q t = true ↔ C46_passes list inclusive t := by
    unfold filterCopy EG.copy
    rw [GS.copy_eq hw hd]
    cases list with
    | none =>
      refine ⟨_, fun _ => true, rfl, rfl, rfl, rfl, ?_, rfl, rfl, ?_⟩
      · simp only [G.modAll, List.filter_true]
        exact (List.map_id _).symm
      · simp [C46_passes]
    | some l =>
      refine ⟨_, fun t => if inclusive then decide (t ∈ l) else !decide (t ∈ l), rfl, rfl, rfl, rfl, rfl, rfl, rfl, ?_⟩
      intro t
      cases inclusive <;> simp [C46_passes]
  have hvo : ∀ f, c.gs.g.vertexOf f = (s.gs.g.vertexOf f).map s.gs.g.pos := by
    intro f
    rw [← copied_vertexOf hw]
    simp only [G.vertexOf, hlab]
  have hed : ∀ u v, c.gs.g.edge u v = s.gs.g.copied.edge u v := by
    intro u v; simp only [edge_eq_find, hedges]
  have hfv : ∀ {v : VId} {r : VRec EFrame}, s.gs.g.findV v = some r → ∃ r', c.gs.g.findV (s.gs.g.pos v) = some r' ∧
      r'.prop.items = r.prop.items.filter (fun e => q e.1) := by
    intro v r hv
    have h1 : c.gs.g.findV (s.gs.g.pos v) =
        (s.gs.g.copied.modAll (fun fr => { fr with items := fr.items.filter (fun e => q e.1) })).findV (s.gs.g.pos v) := by
      simp only [G.findV, hverts]
    rw [G.findV_modAll, copied_findV hw hv] at h1
    exact ⟨_, h1, rfl⟩
  refine ⟨c, hc, hheap, htr, hsub, ?_, ?_, ?_, ?_, ?_, ?_, ?_, ?_⟩
  · intro f; simp only [GS.containsFrame, hvo, Option.isSome_map]
  · intro a b p
    simp only [GS.getEdgeProperty, GS.getEdge, hvo]
    cases s.gs.g.vertexOf a with
    | none => simp
    | some u =>
      cases s.gs.g.vertexOf b with
      | none => simp
      | some v =>
        have := copied_edge hw u v
        simp only [Option.map_some, hed]
        cases h1 : s.gs.g.edge u v <;> cases h2 : s.gs.g.copied.edge (s.gs.g.pos u) (s.gs.g.pos v) <;> simp [h1, h2] at this ⊢
        rw [this]
  · simp [GS.numVertices, hverts, G.modAll, G.copied]
  · simp [GS.numEdges, hedges, G.copied]
  · intro f t ht l
    simp only [getItems, hvo]
    cases hv : s.gs.g.vertexOf f with
    | none => simp
    | some v =>
      obtain ⟨r, hr, -⟩ := hw.live_of_vertexOf hv
      obtain ⟨r', h1, h2⟩ := hfv hr
      have := AMap.get_filter_key q t r.prop.items
      rw [if_pos ((hq t).2 ht)] at this
      simp only [Option.map_some, h1, hr, h2, this]
      cases AMap.get r.prop.items t <;> simp
  · intro f t ht b
    simp only [containsItems, readFrame, hvo]
    cases hv : s.gs.g.vertexOf f with
    | none => simp
    | some v =>
      obtain ⟨r, hr, -⟩ := hw.live_of_vertexOf hv
      obtain ⟨r', h1, h2⟩ := hfv hr
      have := AMap.get_filter_key q t r.prop.items
      rw [if_pos ((hq t).2 ht)] at this
      simp only [Option.map_some, h1, hr, h2, this]
      simp
  · intro f t ht hf
    obtain ⟨v, hv⟩ := Option.isSome_iff_exists.1 hf
    obtain ⟨r, hr, -⟩ := hw.live_of_vertexOf hv
    obtain ⟨r', h1, h2⟩ := hfv hr
    have := AMap.get_filter_key q t r.prop.items
    rw [if_neg (fun h => ht ((hq t).1 h))] at this
    simp [getItems, containsItems, readFrame, hvo, hv, h1, h2, this]
  · intro f ts hts
    simp only [getItemTypes, readFrame] at hts ⊢
    cases hv : s.gs.g.vertexOf f with
    | none => simp [hv] at hts
    | some v =>
      obtain ⟨r, hr, -⟩ := hw.live_of_vertexOf hv
      obtain ⟨r', h1, h2⟩ := hfv hr
      simp only [hv, hr, Res.ok.injEq, and_true] at hts
      subst hts
      refine ⟨r'.prop.itemTypes, by simp only [hvo, hv, Option.map_some, h1], ?_, ?_⟩
      · simp only [EFrame.itemTypes, h2, AMap.keys]
        exact (List.filter_sublist).map _
      · intro t
        simp only [EFrame.itemTypes, h2, AMap.keys, List.mem_map, List.mem_filter, ← hq]
        constructor
        · rintro ⟨e, ⟨he, hqe⟩, rfl⟩; exact ⟨⟨e, he, rfl⟩, hqe⟩
        · rintro ⟨⟨e, he, rfl⟩, hqe⟩; exact ⟨e, ⟨he, hqe⟩, rfl⟩

/-- Exactly when the filtering constructor has undefined behaviour, whatever the filter: if a frame of the graph was created after a
frame that was removed since. -/
theorem C46_exact (heap : ItemId → ItemObj) (cs : List (EG.Cmd E)) {s : EG E} (hs : EG.run cs (EG.init heap) = some s)
    (list : Option (List TypeIdx)) (inclusive : Bool) :
    filterCopy list inclusive s = none ↔ Gap (slots (s.gs.trace.map Prod.fst)) := by
  have hw := EG.run_wf hs
  have hd := (EG.slotted_run hs).dense_iff hw
  constructor
  · intro hc
    by_contra hg
    obtain ⟨c, h1, -⟩ := C46_filtered_copy_partial heap cs hs hg list inclusive
    rw [hc] at h1
    cases h1
  · intro hg
    have := (G.copyGraph_none hw).2 (fun hh => hd.1 hh hg)
    simp only [filterCopy, EG.copy, GS.copy, this, Option.map_none]

/-- The property fails after a frame that was not the youngest one was removed: the constructor has undefined behaviour. -/
theorem C46_removed_frame_fails : ∃ s : EG Int,
    EG.run [.graph (.addFrame "a"), .graph (.addFrame "b"), .addItemToFrame "b" 3, .graph (.removeFrame "a")]
      (EG.init (fun _ => ⟨7, ""⟩)) = some s ∧ ∀ list inclusive, (filterCopy list inclusive s).isNone :=
  ⟨_, rfl, fun list inclusive => by cases list <;> cases inclusive <;> rfl⟩

def C46_heap (i : ItemId) : ItemObj := ⟨if i < 5 then 7 else 8, ""⟩

/-- inclusive, exclusive and no filter -/
example : ∃ s c d e : EG Int,
    EG.run [.graph (.addEdge "a" "b" 1), .addItemToFrame "a" 0, .addItemToFrame "a" 5, .addItemToFrame "a" 1] (EG.init C46_heap) = some s ∧
    ¬ Gap (slots (s.gs.trace.map Prod.fst)) ∧
    filterCopy (some [7]) true s = some c ∧ getItems "a" 7 c = .ok [0, 1] c ∧ containsItems "a" 8 c = .ok false c ∧
    filterCopy (some [7]) false s = some d ∧ containsItems "a" 7 d = .ok false d ∧ getItems "a" 8 d = .ok [5] d ∧
    filterCopy none true s = some e ∧ getItemTypes "a" e = .ok [7, 8] e ∧ GS.getEdgeProperty "b" "a" e.gs = .ok (-1) e.gs :=
  ⟨_, _, _, _, rfl, by rw [gap_iff]; decide +kernel, rfl, rfl, rfl, rfl, rfl, rfl, rfl, rfl, rfl⟩

/-- an item of the copy can be removed from the copy -/
example : (EG.run [.graph (.addEdge "a" "b" (1 : Int)), .addItemToFrame "a" 0, .addItemToFrame "a" 1] (EG.init C46_heap)).bind (fun s =>
    (filterCopy none true s).bind fun c => (EG.run [.removeItem 0] c).map fun c' => ((getItems "a" 7 c').val?, (c.heap 1).frame)) =
    some (some [1], "a") := by decide +kernel

end Verif
