import Verif.Props.C51
import Verif.Props.C08
import Verif.Lemmas.LoadInto
import Verif.Spec.Demo
/-! # C79: loading a file into a graph that already contains data

The full property: afterwards every frame name belongs to one vertex, everything in the file can be found, everything else is as before,
and the event stream describes the new content. -/

namespace Verif
open EG
variable {D E : Type} [EdgeProp E]

/-- `ts` was written by `saveToFile` of some graph that was built by calls (`heap`: all members of its items), by a program that knows no
more classes than the reader `H`. -/
def C79_File (H : String → Bool) (ts : List (Tok D E)) : Prop :=
  ∃ (R : Registry) (heap : ItemId → SObj D) (h0 : ItemId → ItemObj) (cs : List (EG.Cmd E)) (s : EG E) (w : OArchive D E),
    (∀ c, R.hasHandle c = true → H c = true) ∧ EG.run cs (EG.init h0) = some s ∧ (∀ i, (heap i).item = s.heap i) ∧
    (∀ f p, EG.Cmd.graph (.emplaceFrame f p) ∈ cs → C51_Map heap p.items) ∧
    OArchive.saveGraph R heap s.gs.g OArchive.new = .ok () w ∧ ts = w.out

/-- `t` is the file loaded into a new graph, whose items are called 0, 1, ... as the objects `objs` in the file -/
def C79_New (H : String → Bool) (ts : List (Tok D E)) (t : EG E) (objs : List (SObj D)) : Prop :=
  ∃ g a, IArchive.loadGraph H (IArchive.new ts) = .ok g a ∧ a.objs = objs ∧ t.gs = ⟨g, [], fun _ => TreeView.empty, []⟩

private theorem file_loads {H : String → Bool} {ts : List (Tok D E)} (h : C79_File H ts) :
    ∃ g a, IArchive.loadGraph H (IArchive.new ts) = .ok g a ∧ WF g := by
  obtain ⟨R, heap, h0, cs, s, w, hH, hs, hh, hcs, h1, rfl⟩ := h
  have htidy : ∀ c ∈ cs, c.tidy := by
    intro c hc
    cases c with
    | graph c =>
      cases c with
      | emplaceFrame f p => exact ⟨(hcs f p hc).oneList, fun q hq => (hcs f p hc).noEmpty q.1 q.2 hq⟩
      | _ => trivial
    | _ => trivial
  have hty : ∀ i, (h0 i).type = (heap i).type := by
    intro i
    rw [← (EG.run_good htidy (EG.Good.init h0) hs).types i, ← hh i]; rfl
  have htyped : ∀ c ∈ cs, c.typed (fun i => (h0 i).type) := by
    intro c hc
    cases c with
    | graph c =>
      cases c with
      | emplaceFrame f p =>
        have := hcs f p hc
        exact ⟨⟨this.oneList, fun q hq => this.noEmpty q.1 q.2 hq⟩, fun q hq i hi => (hty i).trans (this.types q.1 q.2 i hq hi)⟩
      | _ => trivial
    | _ => trivial
  obtain ⟨hg, hy⟩ := EG.run_typed htyped (EG.Good.init h0) (EG.AllTyped.init h0) hs
  have hp : ∀ r ∈ s.gs.g.verts, OArchive.Proper heap r.prop.items := fun r hr =>
    ⟨(hg.tidy r hr).nodup, (hg.tidy r hr).full, fun p hp i hi => (hty i).symm.trans (hy r hr p hp i hi)⟩
  obtain ⟨w', g, a, h1', h2, h3, -⟩ := EG.saved_loads R H hH heap hg.wf hp
  obtain rfl : w = w' := by rw [h1] at h1'; simpa using h1'
  exact ⟨g, a, h2, h3⟩

/-- Loading a saved file never fails, whatever the graph contains already. -/
theorem C79_loads {H : String → Bool} {ts : List (Tok D E)} (hf : C79_File H ts) (off : Nat) (s : EG E) :
    ∃ t objs s' a, C79_New H ts t objs ∧ EG.loadFromFile H off ts s = .ok s' a := by
  obtain ⟨g, a, h1, -⟩ := file_loads hf
  have : EG.loadFromFile H off ts s = .ok ⟨{ s.gs with g := (s.gs.g.sum off g).regenerateLabelMap }, EG.heapAfter off s.heap a.objs⟩ a := by
    unfold EG.loadFromFile
    rw [IArchive.loadGraphInto_eq s.gs.g h1]
    rfl
  exact ⟨⟨⟨g, [], fun _ => TreeView.empty, []⟩, s.heap⟩, a.objs, _, a, ⟨g, a, h1, rfl, rfl⟩, this⟩

private theorem known {H : String → Bool} {ts : List (Tok D E)} (hf : C79_File H ts) {off : Nat} {h0 : ItemId → ItemObj}
    {cs : List (EG.Cmd E)} {s t s' : EG E} {objs : List (SObj D)} {a : IArchive D E} (hs : EG.run cs (EG.init h0) = some s)
    (ht : C79_New H ts t objs) (h : EG.loadFromFile H off ts s = .ok s' a) :
    WF s.gs.g ∧ WF t.gs.g ∧ s' = ⟨{ s.gs with g := (s.gs.g.sum off t.gs.g).regenerateLabelMap }, EG.heapAfter off s.heap objs⟩ := by
  obtain ⟨g, b, h1, h2⟩ := file_loads hf
  obtain ⟨g', b', h1', rfl, h3⟩ := ht
  rw [h1] at h1'
  simp only [Res.ok.injEq] at h1'
  obtain ⟨rfl, rfl⟩ := h1'
  unfold EG.loadFromFile at h
  rw [IArchive.loadGraphInto_eq s.gs.g h1] at h
  simp only [IArchive.bind, Res.ok.injEq] at h
  have hg : t.gs.g = g := by rw [h3]
  exact ⟨EG.run_wf hs, hg ▸ h2, by rw [hg]; exact h.1.symm⟩

section
variable {H : String → Bool} {ts : List (Tok D E)} (hf : C79_File H ts) {off : Nat} {h0 : ItemId → ItemObj}
    {cs : List (EG.Cmd E)} {s t s' : EG E} {objs : List (SObj D)} {a : IArchive D E} (hs : EG.run cs (EG.init h0) = some s)
    (ht : C79_New H ts t objs) (h : EG.loadFromFile H off ts s = .ok s' a)
include hf hs ht h

/-- What can be found by name afterwards, for every history of the graph and every saved file.  All frames of the graph and of the file
are there.  A name that is in the file means the loaded frame, with its loaded items; any other name means the same frame with the same
items as before.  Edges are found between two loaded frames as in the file, and between two frames that are not in the file as before;
between other pairs no edge is found.  The loaded items are new objects with the members in the file, the old items are untouched. -/
theorem C79_found_partial :
    (∀ f, GS.containsFrame f s'.gs = true ↔ GS.containsFrame f t.gs = true ∨ GS.containsFrame f s.gs = true) ∧
    (∀ x y p, GS.getEdgeProperty x y s'.gs = .ok p s'.gs ↔
      GS.getEdgeProperty x y t.gs = .ok p t.gs ∨
      GS.containsFrame x t.gs = false ∧ GS.containsFrame y t.gs = false ∧ GS.getEdgeProperty x y s.gs = .ok p s.gs) ∧
    (∀ f ty l, GS.containsFrame f t.gs = true → (getItems f ty s' = .ok l s' ↔ ∃ k, getItems f ty t = .ok k t ∧ l = k.map (· + off))) ∧
    (∀ f ty l, GS.containsFrame f t.gs = false → (getItems f ty s' = .ok l s' ↔ getItems f ty s = .ok l s)) ∧
    (∀ i, i < off → s'.heap i = s.heap i) ∧ ∀ (k : Nat) o, objs[k]? = some o → s'.heap (k + off) = o.item := by
  obtain ⟨hw0, hw, rfl⟩ := known hf hs ht h
  have hvo := G.sum_vertexOf (off := off) hw0 hw
  have hfV : ∀ v, (s.gs.g.sum off t.gs.g).regenerateLabelMap.findV v = (s.gs.g.sum off t.gs.g).findV v := fun _ => rfl
  have hed : ∀ u v, (s.gs.g.sum off t.gs.g).regenerateLabelMap.edge u v = (s.gs.g.sum off t.gs.g).edge u v := fun _ _ => rfl
  refine ⟨?_, ?_, ?_, ?_, ?_, ?_⟩
  · intro f
    simp only [GS.containsFrame, hvo]
    cases t.gs.g.vertexOf f <;> simp
  · intro x y p
    simp only [GS.getEdgeProperty, GS.getEdge, GS.containsFrame, hvo, hed]
    cases hx : t.gs.g.vertexOf x with
    | none =>
      simp only
      cases hx0 : s.gs.g.vertexOf x with
      | none => simp
      | some u =>
        simp only
        cases hy : t.gs.g.vertexOf y with
        | none =>
          simp only
          cases hy0 : s.gs.g.vertexOf y with
          | none => simp
          | some v =>
            simp only [G.sum_edge_old hw0 (hw0.live hx0)]
            cases s.gs.g.edge u v <;> simp
        | some v =>
          simp only [(G.sum_edge_mixed hw0 (hw0.live hx0) v).1]
          simp
    | some u =>
      simp only
      cases hy : t.gs.g.vertexOf y with
      | none =>
        simp only
        cases hy0 : s.gs.g.vertexOf y with
        | none => simp
        | some v =>
          simp only [(G.sum_edge_mixed hw0 (hw0.live hy0) u).2]
          simp
      | some v =>
        simp only [G.sum_edge_new hw0]
        cases t.gs.g.edge u v <;> simp
  · intro f ty l hc
    obtain ⟨v, hv⟩ := Option.isSome_iff_exists.1 hc
    obtain ⟨r, hr, -⟩ := hw.live_of_vertexOf hv
    simp only [getItems, hvo, hv, hfV, G.sum_findV_new hw0, hr, Option.map_some, EFrame.shift]
    have : AMap.get (r.prop.items.map (fun p => (p.1, p.2.map (· + off)))) ty = (r.prop.items.get ty).map (fun l => l.map (· + off)) :=
      OArchive.get_renameMap _ _ _
    rw [this]
    cases r.prop.items.get ty with
    | none => simp
    | some k => simp [eq_comm]
  · intro f ty l hc
    have hv : t.gs.g.vertexOf f = none := by simpa [GS.containsFrame] using hc
    simp only [getItems, hvo, hv, hfV]
    cases hv0 : s.gs.g.vertexOf f with
    | none => simp
    | some v =>
      simp only [G.sum_findV_old hw0 (hw0.live hv0)]
      cases s.gs.g.findV v with
      | none => simp
      | some r => cases hr : r.prop.items.get ty <;> simp [hr]
  · intro i hi
    simp [EG.heapAfter, hi]
  · intro k o hk
    have : ¬ k + off < off := by omega
    simp [EG.heapAfter, this, hk]

/-- Nothing is removed: vertices and edges are those of the graph and those of the file.  Subscribed views are not touched and stay
correct. -/
theorem C79_kept_partial :
    GS.numVertices s'.gs = GS.numVertices s.gs + GS.numVertices t.gs ∧ GS.numEdges s'.gs = GS.numEdges s.gs + GS.numEdges t.gs ∧
    s'.gs.subs = s.gs.subs ∧ s'.gs.views = s.gs.views ∧
    ∀ p f v, GS.getVertex f s.gs = .ok v s.gs → IsTreeView s.gs.g v (s.gs.views p) → IsTreeView s'.gs.g v (s'.gs.views p) := by
  obtain ⟨hw0, hw, rfl⟩ := known hf hs ht h
  refine ⟨by simp [GS.numVertices, G.regenerateLabelMap, G.sum], by simp [GS.numEdges, G.regenerateLabelMap, G.sum], rfl, rfl, ?_⟩
  intro p f v hv hview
  have hv' : s.gs.g.vertexOf f = some v := by
    unfold GS.getVertex at hv
    cases hx : s.gs.g.vertexOf f with
    | none => rw [hx] at hv; cases hv
    | some u => rw [hx] at hv; cases hv; rfl
  have := G.sum_isTreeView (off := off) (g := t.gs.g) hw0 (hw0.live hv') hview
  exact ⟨this.root_eq, this.span, this.root_parent, this.parent, this.children, this.rank, this.cross_edge, this.tree_not_cross, this.cross_once⟩

/-- If the graph and the file have no frame name in common, every vertex can be found by its name. -/
theorem C79_disjoint_partial (hd : ∀ f, GS.containsFrame f s.gs = true → GS.containsFrame f t.gs = false) :
    ∀ v ∈ GS.getVertices s'.gs, ∃ f, GS.getFrameId (some v) s'.gs = .ok f s'.gs ∧ GS.getVertex f s'.gs = .ok v s'.gs := by
  obtain ⟨hw0, hw, rfl⟩ := known hf hs ht h
  intro v hv
  have hvo := G.sum_vertexOf (off := off) hw0 hw
  have hfV : ∀ v, (s.gs.g.sum off t.gs.g).regenerateLabelMap.findV v = (s.gs.g.sum off t.gs.g).findV v := fun _ => rfl
  obtain ⟨r, hr, rfl⟩ := List.mem_map.1 hv
  rcases List.mem_append.1 hr with hr | hr
  · have h1 : s.gs.g.findV r.id = some r := hw0.findV_iff.2 ⟨hr, rfl⟩
    have h2 : s.gs.g.vertexOf (FrameProp.getId r.prop) = some r.id := hw0.vertexOf_iff.2 ⟨r, hr, rfl, rfl⟩
    have h3 : t.gs.g.vertexOf (FrameProp.getId r.prop) = none := by
      simpa [GS.containsFrame] using hd _ (by simp [GS.containsFrame, h2])
    refine ⟨FrameProp.getId r.prop, ?_, ?_⟩
    · simp only [GS.getFrameId, hfV, G.sum_findV_old hw0 ⟨r, hr, rfl⟩, h1]
    · simp only [GS.getVertex, hvo, h3, h2]
  · obtain ⟨q, hq, rfl⟩ := List.mem_map.1 hr
    have h1 : t.gs.g.findV q.id = some q := hw.findV_iff.2 ⟨hq, rfl⟩
    have h2 : t.gs.g.vertexOf (FrameProp.getId q.prop) = some q.id := hw.vertexOf_iff.2 ⟨q, hq, rfl, rfl⟩
    refine ⟨FrameProp.getId q.prop, ?_, ?_⟩
    · simp only [GS.getFrameId, hfV, G.sum_findV_new hw0, h1, Option.map_some]
      rfl
    · simp only [GS.getVertex, hvo, h2]

/-- C79 is false whenever the graph and the file have a frame name in common: then there are two vertices with this name, and the old one
cannot be found any more. -/
theorem C79_shared_fails (f : FrameId) (h1 : GS.containsFrame f s.gs = true) (h2 : GS.containsFrame f t.gs = true) :
    ∃ v w, v ≠ w ∧ v ∈ GS.getVertices s'.gs ∧ w ∈ GS.getVertices s'.gs ∧ GS.getFrameId (some v) s'.gs = .ok f s'.gs ∧
      GS.getFrameId (some w) s'.gs = .ok f s'.gs ∧ GS.getVertex f s.gs = .ok v s.gs ∧ ∀ x, GS.getVertex x s'.gs ≠ .ok v s'.gs := by
  obtain ⟨hw0, hw, rfl⟩ := known hf hs ht h
  have hvo := G.sum_vertexOf (off := off) hw0 hw
  have hfV : ∀ v, (s.gs.g.sum off t.gs.g).regenerateLabelMap.findV v = (s.gs.g.sum off t.gs.g).findV v := fun _ => rfl
  obtain ⟨v, hv⟩ := Option.isSome_iff_exists.1 h1
  obtain ⟨w, hw1⟩ := Option.isSome_iff_exists.1 h2
  obtain ⟨r, hr, hrf⟩ := hw0.live_of_vertexOf hv
  obtain ⟨q, hq, hqf⟩ := hw.live_of_vertexOf hw1
  obtain ⟨hr1, hr2⟩ := G.findV_some hr
  obtain ⟨hq1, hq2⟩ := G.findV_some hq
  have hlt : (v : Nat) < s.gs.g.nextV := hr2 ▸ hw0.vlt r hr1
  refine ⟨v, (s.gs.g.nextV + w : Nat), ne_shift hlt, ?_, ?_, ?_, ?_, ?_, ?_⟩
  · exact List.mem_map.2 ⟨r, List.mem_append_left _ hr1, hr2⟩
  · exact List.mem_map.2 ⟨⟨s.gs.g.nextV + q.id, s.gs.g.nextIdx + q.idx, q.prop.shift off⟩, List.mem_append_right _ (List.mem_map.2 ⟨q, hq1, rfl⟩), by simp [hq2]⟩
  · simp only [GS.getFrameId, hfV, G.sum_findV_old hw0 ⟨r, hr1, hr2⟩, hr, hrf]
  · simp only [GS.getFrameId, hfV, G.sum_findV_new hw0, hq, Option.map_some]
    have : FrameProp.getId (q.prop.shift off) = f := hqf
    rw [this]
  · simp only [GS.getVertex, hv]
  · intro x hx
    simp only [GS.getVertex, hvo] at hx
    cases hxt : t.gs.g.vertexOf x with
    | some u =>
      simp only [hxt, Res.ok.injEq, and_true] at hx
      exact ne_shift hlt hx.symm
    | none =>
      simp only [hxt] at hx
      cases hxs : s.gs.g.vertexOf x with
      | none => simp [hxs] at hx
      | some u =>
        simp only [hxs, Res.ok.injEq, and_true] at hx
        subst hx
        have := hw0.vertexOf_inj hxs hv
        rw [this, hw1] at hxt
        cases hxt

/-- C79 is false whenever the file has a frame that the graph did not have: no event is published. -/
theorem C79_silent_fails (f : FrameId) (h1 : GS.containsFrame f s.gs = false) (h2 : GS.containsFrame f t.gs = true) :
    GS.containsFrame f s'.gs ≠ GS.containsFrame f s.gs ∧ s'.gs.trace = s.gs.trace := by
  obtain ⟨a1, -⟩ := C79_found_partial hf hs ht h
  have h3 := (a1 f).2 (.inl h2)
  obtain ⟨-, -, rfl⟩ := known hf hs ht h
  exact ⟨by rw [h1, h3]; simp, rfl⟩

end

/-- the file: frames a and b, connected, with item 1 of type 7 in a -/
def C79_heap (i : ItemId) : SObj Int := ⟨7, 50, i, "a", 10 * i⟩
def C79_reg : Registry := ⟨fun _ => some "A", fun _ => true⟩
def C79_demo (cs : List (EG.Cmd Int)) : Option (EG Int) :=
  (EG.run [.graph (.addEdge "a" "b" 5), .addItemToFrame "a" 1] (EG.init (fun i => (C79_heap i).item))).bind fun s2 =>
    match OArchive.saveGraph C79_reg C79_heap s2.gs.g OArchive.new with
    | .ok _ w =>
      (EG.run cs (EG.init (fun i => ⟨7, if i = 0 then "c" else "a"⟩))).bind fun s =>
        match EG.loadFromFile (fun _ => true) 10 w.out s with
        | .ok s' _ => some s'
        | _ => none
    | _ => none

/-- loaded into a graph with the edge c-d and item 0 in c: all is found -/
example : (C79_demo [.graph (.addEdge "c" "d" 1), .addItemToFrame "c" 0]).map (fun s => s.gs.g.verts.map (fun r => r.prop)) =
      some [⟨"c", [(7, [0])]⟩, ⟨"d", []⟩, ⟨"a", [(7, [10])]⟩, ⟨"b", []⟩] ∧
    (C79_demo [.graph (.addEdge "c" "d" 1), .addItemToFrame "c" 0]).map (fun s => s.gs.g.edges.map (fun e => (e.src, e.tgt, e.prop))) =
      some [(0, 1, 1), (1, 0, -1), (2, 3, 5), (3, 2, -5)] := by
  decide +kernel

/-- loaded into a graph with the edge a-c: a is there twice, and its edge to c is not found any more -/
example : (C79_demo [.graph (.addEdge "a" "c" 1)]).map (fun s =>
      (s.gs.g.verts.map (fun r => r.prop.id), (GS.containsEdge "a" "c" s.gs).val?, s.gs.trace.length)) =
    some (["a", "c", "a", "b"], some false, 3) := by
  decide +kernel

/-- ... and removing a leaves a frame that nobody can find -/
example : ((C79_demo [.graph (.addFrame "a")]).bind (fun s => EG.run [.graph (.disconnectFrame "a"), .clearFrame "a", .graph (.removeFrame "a")] s)).map
      (fun s => (s.gs.g.verts.map (fun r => r.prop.id), GS.containsFrame "a" s.gs)) =
    some (["a", "b"], false) := by
  decide +kernel

/-- what is known about the loaded item; the subscribed views -/
example : (C79_demo [.setItemFrame 10 "z", .setItemFrame 3 "y"]).map (fun s => ((s.heap 10).frame, (s.heap 3).frame)) = some ("a", "y") ∧
    (C79_demo [.graph (.addEdge "c" "d" 1), .graph (.getTree "c" true 0)]).map (fun s => (s.gs.subs, (s.gs.views 0).tree.map Prod.fst)) =
      some ([0], [0, 1]) := by
  decide +kernel

end Verif
