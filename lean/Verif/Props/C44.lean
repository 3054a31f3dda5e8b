import Verif.Lemmas.ItemRestore
/-! # C44: EnvireGraph::removeFrame is all or nothing -/

namespace Verif
open EG
variable {E : Type} [EdgeProp E]

def C44_heap (_ : ItemId) : ItemObj := ⟨7, ""⟩

/-- The property fails: removing a connected frame throws, but its items are gone by then and their removal was announced. -/
theorem C44_items_lost_fails : ∃ s s' : EG Int,
    run [.graph (.addEdge "a" "b" 1), .addItemToFrame "a" 0, .addItemToFrame "a" 1] (init C44_heap) = some s ∧
    removeFrame "a" s = .throw (.frameStillConnected "a") s' ∧
    getItems "a" 7 s = .ok [0, 1] s ∧ getItems "a" 7 s' = .throw (.noItemsOfType "a") s' ∧
    s'.gs.trace.map Prod.fst = s.gs.trace.map Prod.fst ++ [.itemRemoved "a" 0, .itemRemoved "a" 1] :=
  ⟨_, _, rfl, rfl, rfl, rfl, rfl⟩

/-- Not only in one graph: after every history, removing a connected frame throws and takes exactly the items of that frame away,
so it is all or nothing exactly if the frame had no items. -/
theorem C44_what_a_failed_call_changes (heap : ItemId → ItemObj) (cs : List (Cmd E)) {s : EG E} (hs : run cs (init heap) = some s)
    {f : FrameId} {p : EFrame} (hp : GS.getFrameProperty f s.gs = .ok p s.gs) {x : FrameId}
    (hc : GS.containsEdge f x s.gs = .ok true s.gs ∨ GS.containsEdge x f s.gs = .ok true s.gs) :
    ∃ s', removeFrame f s = .throw (.frameStillConnected f) s' ∧
      GS.getFrameProperty f s'.gs = .ok ⟨f, []⟩ s'.gs ∧
      s'.gs.trace.map Prod.fst = s.gs.trace.map Prod.fst ++ (p.items.flatMap (fun e => e.2)).map (fun i => .itemRemoved f i) := by
  have hw := run_wf hs
  cases hv : s.gs.g.vertexOf f with
  | none => simp [GS.getFrameProperty, hv] at hp
  | some v =>
    obtain ⟨r, tr, h1, h2, h3⟩ := clearFrame_eq hw hv
    have hrp : r.prop = p := by simpa [GS.getFrameProperty, hv, h1] using hp
    obtain ⟨q0, hq0, hid⟩ := hw.live_of_vertexOf hv
    rw [h1] at hq0; cases hq0
    have hid : r.prop.id = f := hid
    have hrid := (G.findV_some h1).2
    have hdeg : s.gs.g.degree v ≠ 0 := by
      rw [ne_eq, G.degree_eq_zero]
      intro hall
      rcases hc with hc | hc <;> unfold GS.containsEdge at hc <;> cases hx : s.gs.g.vertexOf x with
      | none => simp [hv, hx] at hc
      | some w =>
        simp only [hv, hx, Res.ok.injEq, and_true] at hc
        obtain ⟨e, he, e1, e2⟩ := G.edge_isSome.1 hc
        first
        | exact (hall e he).1 e1
        | exact (hall e he).2 e2
    refine ⟨{ s with gs := { s.gs with g := s.gs.g.modV v wipe, trace := s.gs.trace ++ tr } }, ?_, ?_, ?_⟩
    · unfold removeFrame
      rw [h2]
      simp only [GS.removeFrame, G.modV_vertexOf, hv]
      have : 0 < (s.gs.g.modV v wipe).degree v := Nat.pos_of_ne_zero hdeg
      rw [if_pos this]; rfl
    · simp only [GS.getFrameProperty, G.modV_vertexOf, hv, G.findV_modV, h1, Option.map_some, hrid, if_true, wipe, hid]
    · simp only [List.map_append, h3, ← hrp]; rfl

/-- the item of the connected frame is gone, that of its neighbour is not -/
example : ∃ s s' : EG Int, run [.graph (.addEdge "a" "b" 1), .addItemToFrame "b" 0, .addItemToFrame "a" 1] (init C44_heap) = some s ∧
    removeFrame "b" s = .throw (.frameStillConnected "b") s' ∧ GS.getFrameProperty "b" s'.gs = .ok ⟨"b", []⟩ s'.gs ∧
    getItems "a" 7 s' = .ok [1] s' ∧ (s'.gs.trace.map Prod.fst).drop 5 = [.itemRemoved "b" 0] :=
  ⟨_, _, rfl, rfl, rfl, rfl, rfl⟩

/-- Missing compared to C44: the items of a connected frame, see `C44_items_lost_fails`.  If the call throws, no frame, edge,
label, view or item object has changed and no frame or edge event was published; if moreover the frame had no items, or is not
contained, nothing at all has changed. -/
theorem C44_failed_call_partial (heap : ItemId → ItemObj) (cs : List (Cmd E)) {s s' : EG E} (hs : run cs (init heap) = some s)
    {f : FrameId} {x : Exn} (h : removeFrame f s = .throw x s') :
    (x = .unknownFrame f ∧ GS.containsFrame f s.gs = false ∧ s' = s ∨
      x = .frameStillConnected f ∧ GS.containsFrame f s.gs = true) ∧
    GS.getEdges s'.gs = GS.getEdges s.gs ∧ (∀ y, s'.gs.g.vertexOf y = s.gs.g.vertexOf y) ∧
    (∀ y q, y ≠ f → (GS.getFrameProperty y s'.gs = .ok q s'.gs ↔ GS.getFrameProperty y s.gs = .ok q s.gs)) ∧
    s'.gs.views = s.gs.views ∧ s'.gs.subs = s.gs.subs ∧ s'.heap = s.heap ∧
    (∃ l : List ItemId, s'.gs.trace.map Prod.fst = s.gs.trace.map Prod.fst ++ l.map (fun i => .itemRemoved f i)) ∧
    (GS.getFrameProperty f s.gs = .ok ⟨f, []⟩ s.gs → s' = s) := by
  have hw := run_wf hs
  cases hv : s.gs.g.vertexOf f with
  | none =>
    have : removeFrame f s = .throw (.unknownFrame f) s := by unfold removeFrame clearFrame; simp only [hv]
    rw [this] at h
    simp only [Res.throw.injEq] at h
    obtain ⟨rfl, rfl⟩ := h
    exact ⟨Or.inl ⟨rfl, by simp [GS.containsFrame, hv], rfl⟩, rfl, fun _ => rfl, fun _ _ _ => Iff.rfl, rfl, rfl, rfl,
      ⟨[], by simp⟩, fun _ => rfl⟩
  | some v =>
    obtain ⟨r, tr, h1, h2, h3⟩ := clearFrame_eq hw hv
    have hrid := (G.findV_some h1).2
    unfold removeFrame at h
    rw [h2] at h
    simp only [GS.removeFrame, G.modV_vertexOf, hv] at h
    split at h
    · simp only [base, Res.throw.injEq] at h
      obtain ⟨rfl, rfl⟩ := h
      refine ⟨Or.inr ⟨rfl, by simp [GS.containsFrame, hv]⟩, rfl, fun _ => rfl, ?_, rfl, rfl, rfl,
        ⟨r.prop.visit, by simp only [List.map_append, h3]⟩, ?_⟩
      · intro y q hy
        simp only [GS.getFrameProperty, G.modV_vertexOf]
        cases hvy : s.gs.g.vertexOf y with
        | none => simp
        | some u =>
          have hne : u ≠ v := by rintro rfl; exact hy (hw.vertexOf_inj hvy hv)
          obtain ⟨ru, hru, -⟩ := hw.live_of_vertexOf hvy
          have := (G.findV_some hru).2
          simp only [G.findV_modV, hru, Option.map_some, this, hne, if_false, Res.ok.injEq, and_true]
      · intro hp
        have hrp : r.prop = ⟨f, []⟩ := by simpa [GS.getFrameProperty, hv, h1] using hp
        have htr : tr = [] := by
          rw [hrp] at h3; simpa [EFrame.visit] using h3
        subst htr
        have hg : s.gs.g.modV v wipe = s.gs.g := by
          apply G.modV_id
          intro q hq hqv
          rw [map_inj_of_nodup hw.vnodup hq (G.findV_some h1).1 (hqv.trans hrid.symm), hrp]
          rfl
        rw [hg]
        simp
    · simp [base] at h

/-- the two exceptions, on a frame without items and on an unknown one -/
example : ∃ s : EG Int, run [.graph (.addEdge "a" "b" 1), .addItemToFrame "b" 0] (init C44_heap) = some s ∧
    removeFrame "a" s = .throw (.frameStillConnected "a") s ∧ removeFrame "c" s = .throw (.unknownFrame "c") s :=
  ⟨_, rfl, rfl, rfl⟩

end Verif
