import Verif.Props.C51
import Verif.Lemmas.ItemTyped
import Verif.Spec.Demo
/-! # C53: saving and loading a graph gives the same graph back -/

namespace Verif
open EG
variable {D E : Type} [EdgeProp E]

/-- For every history of an `EnvireGraph` (frames added with a property must have a proper item map), whatever was removed and
whatever views are subscribed: saving succeeds, loading into an empty graph succeeds and reads everything that was written.  The
loaded graph has the same frames, the same edges with the same properties, and every lookup by name works.  In every frame each type
that the saver has a handle for has the same items in the same order with the same members, other types are missing.  One item is one
object again, even if it was in several frames.  `heap` gives all members of the items, `heap'` is any heap for the new graph. -/
theorem C53_round_trip (R : Registry) (H : String → Bool) (hH : ∀ c, R.hasHandle c = true → H c = true) (heap : ItemId → SObj D)
    (h0 heap' : ItemId → ItemObj) (cs : List (EG.Cmd E)) {s : EG E} (hs : EG.run cs (EG.init h0) = some s)
    (hh : ∀ i, (heap i).item = s.heap i) (hcs : ∀ f p, EG.Cmd.graph (.emplaceFrame f p) ∈ cs → C51_Map heap p.items) :
    ∃ w g a ρ, OArchive.saveGraph R heap s.gs.g OArchive.new = .ok () w ∧ IArchive.loadGraph H (IArchive.new w.out) = .ok g a ∧
      a.toks = [] ∧
      ∀ s' : EG E, s' = ⟨⟨g, [], fun _ => TreeView.empty, []⟩, heap'⟩ →
        (∀ f, GS.containsFrame f s'.gs = GS.containsFrame f s.gs) ∧
        (∀ x y p, GS.getEdgeProperty x y s'.gs = .ok p s'.gs ↔ GS.getEdgeProperty x y s.gs = .ok p s.gs) ∧
        GS.numVertices s'.gs = GS.numVertices s.gs ∧ GS.numEdges s'.gs = GS.numEdges s.gs ∧
        (∀ f, GS.containsFrame f s.gs = true → ∃ v, GS.getVertex f s'.gs = .ok v s'.gs ∧ GS.getFrameId (some v) s'.gs = .ok f s'.gs) ∧
        (∀ f t l, R.serializable t = true → getItems f t s = .ok l s →
          getItems f t s' = .ok (l.map ρ) s' ∧ ∀ i ∈ l, a.objs[ρ i]? = some (heap i)) ∧
        (∀ f t, GS.containsFrame f s.gs = true → (R.serializable t = false ∨ getItems f t s = .throw (.noItemsOfType f) s) →
          getItems f t s' = .throw (.noItemsOfType f) s') ∧
        (∀ f ts, getItemTypes f s = .ok ts s → getItemTypes f s' = .ok (ts.filter R.serializable) s') ∧
        (∀ f t l i f' t' l' j, R.serializable t = true → getItems f t s = .ok l s → i ∈ l → R.serializable t' = true →
          getItems f' t' s = .ok l' s → j ∈ l' → ρ i = ρ j → i = j) := by
  have htidy : ∀ c ∈ cs, c.tidy := by
    intro c hc
    cases c with
    | graph c =>
      cases c with
      | emplaceFrame f p => exact ⟨(hcs f p hc).oneList, fun q hq => (hcs f p hc).noEmpty q.1 q.2 hq⟩
      | _ => trivial
    | _ => trivial
  have hty : ∀ i, (h0 i).type = (heap i).type := by
    intro i
    rw [← (EG.run_good htidy (EG.Good.init h0) hs).types i, ← hh i]; rfl
  have htyped : ∀ c ∈ cs, c.typed (fun i => (h0 i).type) := by
    intro c hc
    cases c with
    | graph c =>
      cases c with
      | emplaceFrame f p =>
        have := hcs f p hc
        exact ⟨⟨this.oneList, fun q hq => this.noEmpty q.1 q.2 hq⟩, fun q hq i hi => (hty i).trans (this.types q.1 q.2 i hq hi)⟩
      | _ => trivial
    | _ => trivial
  obtain ⟨hg, hy⟩ := EG.run_typed htyped (EG.Good.init h0) (EG.AllTyped.init h0) hs
  have hw := hg.wf
  have hp : ∀ r ∈ s.gs.g.verts, OArchive.Proper heap r.prop.items := fun r hr =>
    ⟨(hg.tidy r hr).nodup, (hg.tidy r hr).full, fun p hp i hi => (hty i).symm.trans (hy r hr p hp i hi)⟩
  obtain ⟨w, h1, -, -⟩ := OArchive.saveGraph_goes (S := []) (H := H) (R := R) (fun t c _ h => hH c h) hw hp OArchive.new
  obtain ⟨w', h1', h2, h3⟩ := OArchive.saveGraph_goes (S := w.saved) (H := H) (R := R) (fun t c _ h => hH c h) hw hp OArchive.new
  obtain rfl : w = w' := by rw [h1] at h1'; simpa using h1'
  have hr := h2.reads List.prefix_rfl w.out [] rfl
  rw [List.append_nil] at hr
  have hmod := OArchive.modAll_wf hw (φ := OArchive.loadedFrame R w.saved.idxOf) (fun _ => rfl)
  have hpos : ∀ v, (s.gs.g.modAll (OArchive.loadedFrame R w.saved.idxOf)).pos v = s.gs.g.pos v := by
    intro v; simp [G.modAll, G.pos, Function.comp_def]
  refine ⟨w, _, _, w.saved.idxOf, h1, hr, rfl, ?_⟩
  rintro s' rfl
  have hv : ∀ f, (s.gs.g.modAll (OArchive.loadedFrame R w.saved.idxOf)).copied.vertexOf f = (s.gs.g.vertexOf f).map s.gs.g.pos := by
    intro f
    rw [copied_vertexOf hmod]
    congr 1
    exact funext hpos
  have hfv : ∀ {v : VId} {r : VRec EFrame}, s.gs.g.findV v = some r →
      (s.gs.g.modAll (OArchive.loadedFrame R w.saved.idxOf)).copied.findV (s.gs.g.pos v) =
        some ⟨s.gs.g.pos v, s.gs.g.pos v, OArchive.loadedFrame R w.saved.idxOf r.prop⟩ := by
    intro v r hvr
    have := copied_findV hmod (v := v) (r := { r with prop := OArchive.loadedFrame R w.saved.idxOf r.prop })
      (by rw [G.findV_modAll, hvr]; rfl)
    rwa [hpos] at this
  have hed : ∀ u v, ((s.gs.g.modAll (OArchive.loadedFrame R w.saved.idxOf)).copied.edge (s.gs.g.pos u) (s.gs.g.pos v)).map ERec.prop =
      (s.gs.g.edge u v).map ERec.prop := by
    intro u v
    have := copied_edge hmod u v
    rw [hpos, hpos] at this
    rw [this]; rfl
  -- the frame property in the two graphs
  have hget : ∀ {f t l}, getItems f t s = .ok l s → ∃ v r, s.gs.g.vertexOf f = some v ∧ s.gs.g.findV v = some r ∧ r ∈ s.gs.g.verts ∧
      r.prop.items.get t = some l := by
    intro f t l h
    unfold getItems at h
    split at h
    · cases h
    · rename_i v hv1
      split at h
      · cases h
      · rename_i r hr1
        split at h
        · cases h
        · rename_i l' hl
          cases h
          exact ⟨v, r, hv1, hr1, (G.findV_some hr1).1, hl⟩
  have hmem : ∀ {f t l i}, R.serializable t = true → getItems f t s = .ok l s → i ∈ l → i ∈ w.saved := by
    intro f t l i ht h hi
    obtain ⟨v, r, -, -, hrm, hl⟩ := hget h
    exact h3 r hrm _ (AMap.mem_of_get hl) ht i hi
  refine ⟨?_, ?_, ?_, ?_, ?_, ?_, ?_, ?_, ?_⟩
  · intro f; simp only [GS.containsFrame, hv, Option.isSome_map]
  · intro a b p
    simp only [GS.getEdgeProperty, GS.getEdge, hv]
    cases s.gs.g.vertexOf a with
    | none => simp
    | some u =>
      cases s.gs.g.vertexOf b with
      | none => simp
      | some v =>
        have := hed u v
        simp only [Option.map_some]
        cases h1 : s.gs.g.edge u v <;>
          cases h2 : (s.gs.g.modAll (OArchive.loadedFrame R w.saved.idxOf)).copied.edge (s.gs.g.pos u) (s.gs.g.pos v) <;>
          simp [h1, h2] at this ⊢
        rw [this]
  · simp [GS.numVertices, G.modAll, G.copied]
  · simp [GS.numEdges, G.modAll, G.copied]
  · intro f hf
    obtain ⟨v, hv1⟩ := Option.isSome_iff_exists.1 hf
    obtain ⟨r, hr1, hf1⟩ := hw.live_of_vertexOf hv1
    refine ⟨s.gs.g.pos v, by simp only [GS.getVertex, hv, hv1, Option.map_some], ?_⟩
    simp only [GS.getFrameId, hfv hr1]
    have : FrameProp.getId (OArchive.loadedFrame R w.saved.idxOf r.prop) = f := hf1
    rw [this]
  · intro f t l ht h
    obtain ⟨v, r, hv1, hr1, -, hl⟩ := hget h
    refine ⟨?_, fun i hi => ?_⟩
    · simp only [getItems, hv, hv1, Option.map_some, hfv hr1, OArchive.loadedFrame, OArchive.get_renameMap, AMap.get_filter_key, ht, if_true, hl]
    · have hlt : w.saved.idxOf i < w.saved.length := List.idxOf_lt_length_iff.2 (hmem ht h hi)
      simp [List.getElem?_map, List.getElem?_eq_getElem hlt]
  · intro f t hf h
    obtain ⟨v, hv1⟩ := Option.isSome_iff_exists.1 hf
    obtain ⟨r, hr1, hf1⟩ := hw.live_of_vertexOf hv1
    simp only [getItems, hv, hv1, Option.map_some, hfv hr1, OArchive.loadedFrame, OArchive.get_renameMap, AMap.get_filter_key]
    rcases h with h | h
    · simp [h]
    · have : r.prop.items.get t = none := by
        simp only [getItems, hv1, hr1] at h
        split at h
        · assumption
        · cases h
      simp [this]
  · intro f ts h
    unfold getItemTypes readFrame at h
    split at h
    · cases h
    · rename_i v hv1
      split at h
      · cases h
      · rename_i r hr1
        simp only [Res.ok.injEq, and_true] at h
        subst h
        simp only [getItemTypes, readFrame, hv, hv1, Option.map_some, hfv hr1, Res.ok.injEq, and_true]
        simp only [EFrame.itemTypes, AMap.keys, OArchive.loadedFrame, OArchive.renameMap, List.map_map, List.filter_map]
        rfl
  · intro f t l i f' t' l' j ht h hi ht' h' hj he
    exact (List.idxOf_inj (hmem ht h hi)).1 he

/-- the items 1 and 2 of type 7, item 3 of type 8 -/
def C53_heap (i : ItemId) : SObj Int := ⟨if i = 3 then 8 else 7, 50, i, if i = 3 then "b" else "a", 10 * i⟩
def C53_reg : Registry := ⟨fun t => if t = 7 then some "A" else some "B", fun c => c = "A"⟩

/-- Frame "x" is removed again, "a" has a self edge, item 2 is in two frames, and there is no handle for type 8. -/
def C53_history : List (EG.Cmd Int) := [.graph (.addFrame "x"), .graph (.addFrame "b"), .graph (.addEdge "a" "b" 5),
  .graph (.addEdge "a" "a" 9), .graph (.removeFrame "x"), .addItemToFrame "b" 2, .addItemToFrame "a" 1, .addItemToFrame "a" 2,
  .addItemToFrame "b" 3]

example : (EG.run C53_history (EG.init (fun i => (C53_heap i).item))).isSome = true := by decide +kernel

/-- the frames of the loaded graph, its edges, the loaded objects, what is left in the archive -/
def C53_loaded : Option (List (Nat × String × List (Nat × List Nat)) × List (Nat × Nat × Int) × List Nat × Nat) :=
  (EG.run C53_history (EG.init (fun i => (C53_heap i).item))).bind fun s =>
    match OArchive.saveGraph C53_reg C53_heap s.gs.g OArchive.new with
    | .ok _ w =>
      match IArchive.loadGraph (fun _ => true) (IArchive.new w.out) with
      | .ok g a => some (g.verts.map (fun r => (r.id, r.prop.id, r.prop.items)), g.edges.map (fun e => (e.src, e.tgt, e.prop)),
          a.objs.map SObj.uuid, a.toks.length)
      | _ => none
    | _ => none

example : (C53_loaded.map (fun x => x.1)).getD [] = [(0, "b", [(7, [0])]), (1, "a", [(7, [1, 0])])] ∧
    C53_loaded.map (fun x => x.2) = some ([(1, 0, 5), (0, 1, -5), (1, 1, 9), (1, 1, -9)], [2, 1], 0) := by decide +kernel

/-- the names of the loaded graph, the numbers of its vertices, and a frame and an edge added to it afterwards -/
example : ((EG.run C53_history (EG.init (fun i => (C53_heap i).item))).bind fun s =>
    match OArchive.saveGraph C53_reg C53_heap s.gs.g OArchive.new with
    | .ok _ w =>
      match IArchive.loadGraph (fun _ => true) (IArchive.new w.out) with
      | .ok g _ => some (g.vertexOf "a", g.vertexOf "b", g.vertexOf "c", g.verts.map VRec.idx)
      | _ => none
    | _ => none) = some (some 1, some 0, none, [0, 1]) := by decide +kernel

end Verif
