import Verif.Lemmas.StructSelf
import Verif.Spec.SelfView
import Verif.Spec.Demo
/-! # C47 in graphs with self edges: a structural copy has the same frames and transforms and no items -/

namespace Verif
open EG
variable {E : Type} [EdgeProp E]

private theorem structural_self {s d : EG E} (hw : WF s.gs.g) (hp : Paired s.gs.g.ns) (hwd : WF d.gs.g) (hpd : Paired d.gs.g.ns) (htd : SelfTwo d.gs.g)
    (hok : GS.ViewsLoops d.gs) (hdis : ∀ f, GS.containsFrame f s.gs = true → GS.containsFrame f d.gs = false) :
    ∃ d', createStructuralCopy s.gs.g d = .ok () d' ∧ d'.heap = d.heap ∧ GS.FollowsLoops d.gs d'.gs ∧
      (∀ f, GS.containsFrame f d'.gs = true ↔ GS.containsFrame f d.gs = true ∨ GS.containsFrame f s.gs = true) ∧
      (∀ f p, GS.getFrameProperty f d.gs = .ok p d.gs → GS.getFrameProperty f d'.gs = .ok p d'.gs) ∧
      (∀ f, GS.containsFrame f s.gs = true → GS.getFrameProperty f d'.gs = .ok ⟨f, []⟩ d'.gs) ∧
      (∀ a b p, GS.getEdgeProperty a b d.gs = .ok p d.gs → GS.getEdgeProperty a b d'.gs = .ok p d'.gs) ∧
      (∀ a b p, a ≠ b → GS.getEdgeProperty a b s.gs = .ok p s.gs →
        (GS.getEdgeProperty a b d'.gs = .ok p d'.gs ∧ GS.getEdgeProperty b a d'.gs = .ok (EdgeProp.inverse p) d'.gs) ∨
        ∃ q, GS.getEdgeProperty b a s.gs = .ok q s.gs ∧ GS.getEdgeProperty b a d'.gs = .ok q d'.gs ∧
          GS.getEdgeProperty a b d'.gs = .ok (EdgeProp.inverse q) d'.gs) ∧
      (∀ a p, GS.getEdgeProperty a a s.gs = .ok p s.gs → GS.getEdgeProperty a a d'.gs = .ok p d'.gs) ∧
      (∀ a b p, GS.getEdgeProperty a b d'.gs = .ok p d'.gs →
        GS.getEdgeProperty a b d.gs = .ok p d.gs ∨ ∃ q, GS.getEdgeProperty a b s.gs = .ok q s.gs) := by
  have hsim : SimS d.gs ⟨(GS.names d.gs.g).toFinset, absEdge d.gs.g⟩ :=
    ⟨hwd, hpd, htd, hok, fun f => by rw [List.mem_toFinset, GS.mem_names hwd], fun _ _ => rfl⟩
  have hcont : ∀ f, (∃ r ∈ s.gs.g.verts, FrameProp.getId r.prop = f) ↔ GS.containsFrame f s.gs = true := by
    intro f
    rw [GS.containsFrame, Option.isSome_iff_exists]
    constructor
    · rintro ⟨r, hr, h⟩; exact ⟨r.id, hw.vertexOf_iff.2 ⟨r, hr, rfl, h⟩⟩
    · rintro ⟨v, hv⟩
      obtain ⟨r, hr, -, h⟩ := hw.vertexOf_iff.1 hv
      exact ⟨r, hr, h⟩
  have hcd : ∀ f, f ∈ (GS.names d.gs.g).toFinset ↔ GS.containsFrame f d.gs = true := by
    intro f; rw [List.mem_toFinset, GS.mem_names hwd]; rfl
  obtain ⟨d1, A1, a1, a2, a3, af, a4, a5, a6⟩ := copyFrames_simS s.gs.g.verts hsim (GS.names_nodup hw) (by
    intro r hr h
    rw [hcd, hdis _ ((hcont _).1 ⟨r, hr, rfl⟩)] at h
    cases h)
  have hfr : ∀ f, f ∈ A1.frames ↔ GS.containsFrame f d.gs = true ∨ GS.containsFrame f s.gs = true := by
    intro f; rw [a6, hcont, hcd]
  have hnone : ∀ x y, (absEdge s.gs.g x y).isSome → absEdge d.gs.g x y = none ∧ absEdge d.gs.g y x = none := by
    intro x y h
    obtain ⟨u, v, e, hu, hv, -⟩ := absEdge_isSome h
    have hx := hdis x (by simp [GS.containsFrame, hu])
    have : d.gs.g.vertexOf x = none := by simpa [GS.containsFrame] using hx
    exact ⟨absEdge_none_left this, absEdge_none_right this⟩
  have hmid : MidL (absEdge s.gs.g) A1 A1 := by
    refine ⟨rfl, fun _ _ _ => rfl, fun x y q _ h => Or.inl ?_, fun x q h => Or.inl ?_⟩ <;> rw [a5]
    · exact hnone x y (by rw [h]; rfl)
    · exact (hnone x x (by rw [h]; rfl)).1
  obtain ⟨d', A, b1, b2, b3, bf, b4, b5, -, b6⟩ := copyEdges_simS hw hp (A0 := A1) (fun f h => (hfr f).2 (Or.inr h)) s.gs.g.edges
    (fun _ h => h) a4 hmid
  have hk := a3.trans b3
  have hvd : ∀ {f v}, d.gs.g.vertexOf f = some v → d'.gs.g.vertexOf f = some v := fun h => hk.vertexOf hwd b4.wf h
  have hprop : ∀ f p, GS.getFrameProperty f d'.gs = .ok p d'.gs ↔ ∃ r ∈ d'.gs.g.verts, FrameProp.getId r.prop = f ∧ r.prop = p := by
    intro f p
    simp only [GS.getFrameProperty]
    cases hv : d'.gs.g.vertexOf f with
    | none =>
      simp only [reduceCtorEq, false_iff]
      rintro ⟨r, hr, h, -⟩
      rw [b4.wf.vertexOf_iff.2 ⟨r, hr, rfl, h⟩] at hv; cases hv
    | some v =>
      obtain ⟨r, hr, h⟩ := b4.wf.live_of_vertexOf hv
      simp only [hr, Res.ok.injEq, and_true]
      constructor
      · rintro rfl; exact ⟨r, (G.findV_some hr).1, h, rfl⟩
      · rintro ⟨r', hr', h1, rfl⟩
        have := b4.wf.vertexOf_iff.2 ⟨r', hr', rfl, h1⟩
        rw [hv] at this
        have h2 := b4.wf.findV_iff.2 ⟨hr', (Option.some.inj this).symm⟩
        rw [hr] at h2; cases h2; rfl
  refine ⟨d', by simp only [createStructuralCopy, a1, b1], b2.trans a2, af.trans bf, ?_, ?_, ?_, ?_, ?_, ?_, ?_⟩
  · intro f
    have := b4.rep.frames f
    rw [b5.frames, hfr] at this
    exact this
  · intro f p h
    rw [hprop]
    cases hv : d.gs.g.vertexOf f with
    | none => simp [GS.getFrameProperty, hv] at h
    | some v =>
      obtain ⟨r, hr, hid⟩ := hwd.live_of_vertexOf hv
      simp only [GS.getFrameProperty, hv, hr, Res.ok.injEq, and_true] at h
      exact ⟨r, hk.1 r (G.findV_some hr).1, hid, h⟩
  · intro f hf
    rw [hprop]
    have h1 : (d'.gs.g.vertexOf f).isSome := (b4.rep.frames f).2 (by rw [b5.frames, hfr]; exact Or.inr hf)
    obtain ⟨v, hv⟩ := Option.isSome_iff_exists.1 h1
    obtain ⟨r, hr, -, hid⟩ := b4.wf.vertexOf_iff.1 hv
    refine ⟨r, hr, hid, ?_⟩
    rcases hk.2 r hr with h2 | h2
    · have := hwd.vertexOf_iff.2 ⟨r, h2, rfl, hid⟩
      have h3 := hdis f hf
      rw [GS.containsFrame, this] at h3; cases h3
    · have h3 : r.prop.id = f := hid
      calc r.prop = ⟨r.prop.id, r.prop.items⟩ := rfl
        _ = ⟨f, []⟩ := by rw [h2, h3]
  · intro a b p h
    rw [getEdgeProperty_iff] at h ⊢
    rw [b4.rep.edges]
    cases hB : absEdge s.gs.g a b with
    | none => rw [b5.other _ _ hB, a5]; exact h
    | some q =>
      have := (hnone a b (by rw [hB]; rfl)).1
      rw [h] at this; cases this
  · intro a b p hne h
    rw [getEdgeProperty_iff] at h
    have hsome : (A.edges a b).isSome := by
      obtain ⟨u, v, e, hu, hv, he⟩ := absEdge_isSome (g := s.gs.g) (a := a) (b := b) (by rw [h]; rfl)
      obtain ⟨m, m1, m2⟩ := G.edge_some he
      exact b6 e m a b (by rw [hu, m1]) (by rw [hv, m2])
    simp only [getEdgeProperty_iff, b4.rep.edges]
    rcases b5.conn a b p hne h with ⟨h1, -⟩ | h1 | h1
    · rw [h1] at hsome; cases hsome
    · exact Or.inl h1
    · exact Or.inr h1
  · intro a p h
    rw [getEdgeProperty_iff] at h ⊢
    have hsome : (A.edges a a).isSome := by
      obtain ⟨u, v, e, hu, hv, he⟩ := absEdge_isSome (g := s.gs.g) (a := a) (b := a) (by rw [h]; rfl)
      obtain ⟨m, m1, m2⟩ := G.edge_some he
      exact b6 e m a a (by rw [hu, m1]) (by rw [hv, m2])
    rw [b4.rep.edges]
    rcases b5.self a p h with h1 | h1
    · rw [h1] at hsome; cases hsome
    · exact h1
  · intro a b p h
    rw [getEdgeProperty_iff] at h ⊢
    rw [b4.rep.edges] at h
    cases hB : absEdge s.gs.g a b with
    | none => rw [b5.other _ _ hB, a5] at h; exact Or.inl h
    | some q => exact Or.inr ⟨q, (getEdgeProperty_iff _ _ _ _).2 hB⟩

private theorem exists_self {s d : EG E} (hw : WF s.gs.g) (hwd : WF d.gs.g) (hpd : Paired d.gs.g.ns) (htd : SelfTwo d.gs.g)
    (hok : GS.ViewsLoops d.gs) {f : FrameId} (h1 : GS.containsFrame f s.gs = true) (h2 : GS.containsFrame f d.gs = true) :
    ∃ x d', createStructuralCopy s.gs.g d = .throw (.frameAlreadyExists x) d' ∧ GS.containsFrame x s.gs = true ∧
      GS.containsFrame x d.gs = true ∧ d'.heap = d.heap ∧ GS.FollowsLoops d.gs d'.gs ∧
      (∀ y, GS.containsFrame y d'.gs = true → GS.containsFrame y d.gs = true ∨ GS.containsFrame y s.gs = true) ∧
      (∀ y, GS.containsFrame y d.gs = true → GS.containsFrame y d'.gs = true) ∧
      (∀ a b p, GS.getEdgeProperty a b d'.gs = .ok p d'.gs ↔ GS.getEdgeProperty a b d.gs = .ok p d.gs) := by
  have hsim : SimS d.gs ⟨(GS.names d.gs.g).toFinset, absEdge d.gs.g⟩ :=
    ⟨hwd, hpd, htd, hok, fun f => by rw [List.mem_toFinset, GS.mem_names hwd], fun _ _ => rfl⟩
  have hcd : ∀ f, f ∈ (GS.names d.gs.g).toFinset ↔ GS.containsFrame f d.gs = true := by
    intro f; rw [List.mem_toFinset, GS.mem_names hwd]; rfl
  have hcs' : ∀ r ∈ s.gs.g.verts, GS.containsFrame (FrameProp.getId r.prop) s.gs = true := by
    intro r hr
    rw [GS.containsFrame, hw.vertexOf_iff.2 ⟨r, hr, rfl, rfl⟩]; rfl
  obtain ⟨v, hv⟩ := Option.isSome_iff_exists.1 h1
  obtain ⟨r, hr, -, hid⟩ := hw.vertexOf_iff.1 hv
  obtain ⟨d', A, pre, post, x, a1, a2, -, af, a3, a4, a5, a6, -, a7⟩ := copyFrames_simS_throw s.gs.g.verts hsim (GS.names_nodup hw)
    ⟨r, hr, by rw [hid, hcd]; exact h2⟩
  refine ⟨_, d', by simp only [createStructuralCopy, a1], hcs' x (by rw [a5]; simp), (hcd _).1 a6, a2, af, ?_, ?_, ?_⟩
  · intro y hy
    rcases (a7 y).1 ((a3.rep.frames y).1 hy) with h | ⟨q, hq, rfl⟩
    · exact Or.inl ((hcd y).1 h)
    · exact Or.inr (hcs' q (by rw [a5]; simp [hq]))
  · intro y hy
    exact (a3.rep.frames y).2 ((a7 y).2 (Or.inl ((hcd y).2 hy)))
  · intro a b p
    rw [getEdgeProperty_iff, getEdgeProperty_iff, a3.rep.edges, a4]

/-- Source and destination are the results of arbitrary histories, self edges included; both may have views, those subscribed to
the destination are correct tree views apart from self edges.  If they have no frame in common, the call returns; the destination has
afterwards exactly its own and the copied frames.  Its own frames and edges are as before, items included; the copied frames have no items.
For each connection of two different frames of the source one direction has the same transform and the other one the inverse of it.
A self edge is copied with the transform that the source answers; it is not inverted.  Nothing else is added.
The views of the destination stay subscribed and are correct apart from self edges, with the same roots. -/
theorem C47_with_self_edges (heap heap' : ItemId → ItemObj) (cs ds : List (EG.Cmd E)) {s d : EG E}
    (hs : EG.run cs (EG.init heap) = some s) (hd : EG.run ds (EG.init heap') = some d)
    (hok : ∀ q ∈ d.gs.subs, ∃ root, IsTreeViewLoops d.gs.g root (d.gs.views q))
    (hdis : ∀ f, GS.containsFrame f s.gs = true → GS.containsFrame f d.gs = false) :
    ∃ d', createStructuralCopy s.gs.g d = .ok () d' ∧ d'.heap = d.heap ∧ d'.gs.subs = d.gs.subs ∧
      (∀ q ∈ d.gs.subs, ∀ root, IsTreeViewLoops d.gs.g root (d.gs.views q) → IsTreeViewLoops d'.gs.g root (d'.gs.views q)) ∧
      (∀ f, GS.containsFrame f d'.gs = true ↔ GS.containsFrame f d.gs = true ∨ GS.containsFrame f s.gs = true) ∧
      (∀ f p, GS.getFrameProperty f d.gs = .ok p d.gs → GS.getFrameProperty f d'.gs = .ok p d'.gs) ∧
      (∀ f, GS.containsFrame f s.gs = true → GS.getFrameProperty f d'.gs = .ok ⟨f, []⟩ d'.gs) ∧
      (∀ a b p, GS.getEdgeProperty a b d.gs = .ok p d.gs → GS.getEdgeProperty a b d'.gs = .ok p d'.gs) ∧
      (∀ a b p, a ≠ b → GS.getEdgeProperty a b s.gs = .ok p s.gs →
        (GS.getEdgeProperty a b d'.gs = .ok p d'.gs ∧ GS.getEdgeProperty b a d'.gs = .ok (EdgeProp.inverse p) d'.gs) ∨
        ∃ q, GS.getEdgeProperty b a s.gs = .ok q s.gs ∧ GS.getEdgeProperty b a d'.gs = .ok q d'.gs ∧
          GS.getEdgeProperty a b d'.gs = .ok (EdgeProp.inverse q) d'.gs) ∧
      (∀ a p, GS.getEdgeProperty a a s.gs = .ok p s.gs → GS.getEdgeProperty a a d'.gs = .ok p d'.gs) ∧
      (∀ a b p, GS.getEdgeProperty a b d'.gs = .ok p d'.gs →
        GS.getEdgeProperty a b d.gs = .ok p d.gs ∨ ∃ q, GS.getEdgeProperty a b s.gs = .ok q s.gs) := by
  obtain ⟨hp, -⟩ := run_loops hs
  obtain ⟨hpd, htd⟩ := run_loops hd
  obtain ⟨d', h1, h2, h3, h4⟩ := structural_self (EG.run_wf hs) hp (EG.run_wf hd) hpd htd ⟨(EG.run_subsInv hd).1, hok⟩ hdis
  exact ⟨d', h1, h2, h3.1, h3.2, h4⟩

/-- If the destination already contains one of the frames, the call throws, self edges or not; see `C47_frame_exists`. -/
theorem C47_frame_exists_with_self_edges (heap heap' : ItemId → ItemObj) (cs ds : List (EG.Cmd E)) {s d : EG E}
    (hs : EG.run cs (EG.init heap) = some s) (hd : EG.run ds (EG.init heap') = some d)
    (hok : ∀ q ∈ d.gs.subs, ∃ root, IsTreeViewLoops d.gs.g root (d.gs.views q))
    {f : FrameId} (h1 : GS.containsFrame f s.gs = true) (h2 : GS.containsFrame f d.gs = true) :
    ∃ x d', createStructuralCopy s.gs.g d = .throw (.frameAlreadyExists x) d' ∧ GS.containsFrame x s.gs = true ∧
      GS.containsFrame x d.gs = true ∧ d'.heap = d.heap ∧ d'.gs.subs = d.gs.subs ∧
      (∀ q ∈ d.gs.subs, ∀ root, IsTreeViewLoops d.gs.g root (d.gs.views q) → IsTreeViewLoops d'.gs.g root (d'.gs.views q)) ∧
      (∀ y, GS.containsFrame y d'.gs = true → GS.containsFrame y d.gs = true ∨ GS.containsFrame y s.gs = true) ∧
      (∀ y, GS.containsFrame y d.gs = true → GS.containsFrame y d'.gs = true) ∧
      (∀ a b p, GS.getEdgeProperty a b d'.gs = .ok p d'.gs ↔ GS.getEdgeProperty a b d.gs = .ok p d.gs) := by
  obtain ⟨hpd, htd⟩ := run_loops hd
  obtain ⟨x, d', a1, a2, a3, a4, a5, a6⟩ := exists_self (EG.run_wf hs) (EG.run_wf hd) hpd htd ⟨(EG.run_subsInv hd).1, hok⟩ h1 h2
  exact ⟨x, d', a1, a2, a3, a4, a5.1, a5.2, a6⟩

def C47_self_heap (_ : ItemId) : ItemObj := ⟨7, ""⟩

/-- A self edge that was written to answers the inverse of the written transform; the copy answers the same.  The destination has a self edge
and a view, too. -/
example : ∃ s d d' : EG Int,
    EG.run [.graph (.addEdge "a" "b" 1), .graph (.addEdge "b" "b" 2), .graph (.setEdge "b" "b" 5), .graph (.addEdge "a" "a" 4)]
      (EG.init C47_self_heap) = some s ∧
    EG.run [.graph (.addEdge "x" "x" 3), .graph (.addEdge "x" "y" 6), .graph (.getTree "x" true 0)] (EG.init C47_self_heap) = some d ∧
    d.gs.subs = [0] ∧ GS.getEdgeProperty "b" "b" s.gs = .ok (-5) s.gs ∧ GS.getEdgeProperty "a" "a" s.gs = .ok 4 s.gs ∧
    createStructuralCopy s.gs.g d = .ok () d' ∧ GS.getEdgeProperty "b" "b" d'.gs = .ok (-5) d'.gs ∧
    GS.getEdgeProperty "a" "a" d'.gs = .ok 4 d'.gs ∧ GS.getEdgeProperty "b" "a" d'.gs = .ok (-1) d'.gs ∧
    GS.getEdgeProperty "x" "x" d'.gs = .ok 3 d'.gs ∧ d'.gs.g.edges.length = 10 ∧ d'.gs.subs = [0] ∧
    (d'.gs.views 0).tree.map Prod.fst = [0, 1] :=
  ⟨_, _, _, rfl, rfl, rfl, rfl, rfl, rfl, rfl, rfl, rfl, rfl, rfl, rfl, rfl⟩

example : ∃ s d d' : EG Int,
    EG.run [.graph (.addEdge "a" "b" 1), .graph (.addEdge "b" "b" 2)] (EG.init C47_self_heap) = some s ∧
    EG.run [.graph (.addEdge "b" "b" 3)] (EG.init C47_self_heap) = some d ∧
    createStructuralCopy s.gs.g d = .throw (.frameAlreadyExists "b") d' ∧ GS.containsFrame "a" d'.gs = true ∧
    GS.getEdgeProperty "b" "b" d'.gs = .ok 3 d'.gs :=
  ⟨_, _, _, rfl, rfl, rfl, rfl, rfl⟩

end Verif
