import Verif.Lemmas.ItemStructural
import Verif.Lemmas.StructViews
import Verif.Lemmas.ItemClear
import Verif.Spec.Demo
/-! # C47: a structural copy has the same frames and transforms and no items -/

namespace Verif
open EG
variable {E : Type} [EdgeProp E]

private theorem structural_core {s d : EG E} (hw : WF s.gs.g) (hp : Paired s.gs.g) (hwd : WF d.gs.g) (hpd : Paired d.gs.g)
    (hsub : d.gs.subs = []) (hdis : ∀ f, GS.containsFrame f s.gs = true → GS.containsFrame f d.gs = false) :
    ∃ d', createStructuralCopy s.gs.g d = .ok () d' ∧ d'.heap = d.heap ∧
      (∀ f, GS.containsFrame f d'.gs = true ↔ GS.containsFrame f d.gs = true ∨ GS.containsFrame f s.gs = true) ∧
      (∀ f p, GS.getFrameProperty f d.gs = .ok p d.gs → GS.getFrameProperty f d'.gs = .ok p d'.gs) ∧
      (∀ f, GS.containsFrame f s.gs = true → GS.getFrameProperty f d'.gs = .ok ⟨f, []⟩ d'.gs) ∧
      (∀ a b p, GS.getEdgeProperty a b d.gs = .ok p d.gs → GS.getEdgeProperty a b d'.gs = .ok p d'.gs) ∧
      (∀ a b p, GS.getEdgeProperty a b s.gs = .ok p s.gs →
        (GS.getEdgeProperty a b d'.gs = .ok p d'.gs ∧ GS.getEdgeProperty b a d'.gs = .ok (EdgeProp.inverse p) d'.gs) ∨
        ∃ q, GS.getEdgeProperty b a s.gs = .ok q s.gs ∧ GS.getEdgeProperty b a d'.gs = .ok q d'.gs ∧
          GS.getEdgeProperty a b d'.gs = .ok (EdgeProp.inverse q) d'.gs) ∧
      (∀ a b p, GS.getEdgeProperty a b d'.gs = .ok p d'.gs →
        GS.getEdgeProperty a b d.gs = .ok p d.gs ∨ ∃ q, GS.getEdgeProperty a b s.gs = .ok q s.gs) := by
  have hsim : Sim d.gs ⟨(GS.names d.gs.g).toFinset, absEdge d.gs.g⟩ :=
    ⟨hwd, hpd, hsub, fun f => by rw [List.mem_toFinset, GS.mem_names hwd], fun _ _ => rfl⟩
  have hcont : ∀ f, (∃ r ∈ s.gs.g.verts, FrameProp.getId r.prop = f) ↔ GS.containsFrame f s.gs = true := by
    intro f
    rw [GS.containsFrame, Option.isSome_iff_exists]
    constructor
    · rintro ⟨r, hr, h⟩; exact ⟨r.id, hw.vertexOf_iff.2 ⟨r, hr, rfl, h⟩⟩
    · rintro ⟨v, hv⟩
      obtain ⟨r, hr, -, h⟩ := hw.vertexOf_iff.1 hv
      exact ⟨r, hr, h⟩
  have hcd : ∀ f, f ∈ (GS.names d.gs.g).toFinset ↔ GS.containsFrame f d.gs = true := by
    intro f; rw [List.mem_toFinset, GS.mem_names hwd]; rfl
  obtain ⟨d1, A1, a1, a2, a3, a4, a5, a6⟩ := copyFrames_ok s.gs.g.verts hsim (GS.names_nodup hw) (by
    intro r hr h
    rw [hcd, hdis _ ((hcont _).1 ⟨r, hr, rfl⟩)] at h
    cases h)
  have hfr : ∀ f, f ∈ A1.frames ↔ GS.containsFrame f d.gs = true ∨ GS.containsFrame f s.gs = true := by
    intro f; rw [a6, hcont, hcd]
  have hnone : ∀ x y, (absEdge s.gs.g x y).isSome → absEdge d.gs.g x y = none ∧ absEdge d.gs.g y x = none := by
    intro x y h
    obtain ⟨u, v, e, hu, hv, -⟩ := absEdge_isSome h
    have hx := hdis x (by simp [GS.containsFrame, hu])
    have : d.gs.g.vertexOf x = none := by simpa [GS.containsFrame] using hx
    exact ⟨absEdge_none_left this, absEdge_none_right this⟩
  have hmid : Mid (absEdge s.gs.g) A1 A1 := by
    refine ⟨rfl, fun _ _ _ => rfl, fun x y q h => Or.inl ?_⟩
    rw [a5]
    exact hnone x y (by rw [h]; rfl)
  obtain ⟨d', A, b1, b2, b3, b4, b5, -, b6⟩ := copyEdges_ok hw hp (A0 := A1) (fun f h => (hfr f).2 (Or.inr h)) s.gs.g.edges
    (fun _ h => h) a4 hmid
  have hk := a3.trans b3
  have hvd : ∀ {f v}, d.gs.g.vertexOf f = some v → d'.gs.g.vertexOf f = some v := fun h => hk.vertexOf hwd b4.wf h
  have hprop : ∀ f p, GS.getFrameProperty f d'.gs = .ok p d'.gs ↔ ∃ r ∈ d'.gs.g.verts, FrameProp.getId r.prop = f ∧ r.prop = p := by
    intro f p
    simp only [GS.getFrameProperty]
    cases hv : d'.gs.g.vertexOf f with
    | none =>
      simp only [reduceCtorEq, false_iff]
      rintro ⟨r, hr, h, -⟩
      rw [b4.wf.vertexOf_iff.2 ⟨r, hr, rfl, h⟩] at hv; cases hv
    | some v =>
      obtain ⟨r, hr, h⟩ := b4.wf.live_of_vertexOf hv
      simp only [hr, Res.ok.injEq, and_true]
      constructor
      · rintro rfl; exact ⟨r, (G.findV_some hr).1, h, rfl⟩
      · rintro ⟨r', hr', h1, rfl⟩
        have := b4.wf.vertexOf_iff.2 ⟨r', hr', rfl, h1⟩
        rw [hv] at this
        have h2 := b4.wf.findV_iff.2 ⟨hr', (Option.some.inj this).symm⟩
        rw [hr] at h2; cases h2; rfl
  refine ⟨d', by simp only [createStructuralCopy, a1, b1], b2.trans a2, ?_, ?_, ?_, ?_, ?_, ?_⟩
  · intro f
    have := b4.frames f
    rw [b5.frames, hfr] at this
    exact this
  · intro f p h
    rw [hprop]
    cases hv : d.gs.g.vertexOf f with
    | none => simp [GS.getFrameProperty, hv] at h
    | some v =>
      obtain ⟨r, hr, hid⟩ := hwd.live_of_vertexOf hv
      simp only [GS.getFrameProperty, hv, hr, Res.ok.injEq, and_true] at h
      exact ⟨r, hk.1 r (G.findV_some hr).1, hid, h⟩
  · intro f hf
    rw [hprop]
    have h1 : (d'.gs.g.vertexOf f).isSome := (b4.frames f).2 (by rw [b5.frames, hfr]; exact Or.inr hf)
    obtain ⟨v, hv⟩ := Option.isSome_iff_exists.1 h1
    obtain ⟨r, hr, -, hid⟩ := b4.wf.vertexOf_iff.1 hv
    refine ⟨r, hr, hid, ?_⟩
    rcases hk.2 r hr with h2 | h2
    · have := hwd.vertexOf_iff.2 ⟨r, h2, rfl, hid⟩
      have h3 := hdis f hf
      rw [GS.containsFrame, this] at h3; cases h3
    · have h3 : r.prop.id = f := hid
      calc r.prop = ⟨r.prop.id, r.prop.items⟩ := rfl
        _ = ⟨f, []⟩ := by rw [h2, h3]
  · intro a b p h
    rw [getEdgeProperty_iff] at h ⊢
    rw [b4.edges]
    cases hB : absEdge s.gs.g a b with
    | none => rw [b5.other _ _ hB, a5]; exact h
    | some q =>
      have := (hnone a b (by rw [hB]; rfl)).1
      rw [h] at this; cases this
  · intro a b p h
    rw [getEdgeProperty_iff] at h
    have hsome : (A.edges a b).isSome := by
      obtain ⟨u, v, e, hu, hv, he⟩ := absEdge_isSome (g := s.gs.g) (a := a) (b := b) (by rw [h]; rfl)
      obtain ⟨m, m1, m2⟩ := G.edge_some he
      exact b6 e m a b (by rw [hu, m1]) (by rw [hv, m2])
    simp only [getEdgeProperty_iff, b4.edges]
    rcases b5.conn a b p h with ⟨h1, -⟩ | h1 | h1
    · rw [h1] at hsome; cases hsome
    · exact Or.inl h1
    · exact Or.inr h1
  · intro a b p h
    rw [getEdgeProperty_iff] at h ⊢
    rw [b4.edges] at h
    cases hB : absEdge s.gs.g a b with
    | none => rw [b5.other _ _ hB, a5] at h; exact Or.inl h
    | some q => exact Or.inr ⟨q, (getEdgeProperty_iff _ _ _ _).2 hB⟩

private theorem mapSt_ok {σ α : Type} {f : σ → σ} {x : Res σ α} {a : α} {t : σ} (h : x.mapSt f = .ok a t) :
    ∃ s, x = .ok a s ∧ f s = t := by
  cases x <;> simp [Res.mapSt] at h
  obtain ⟨rfl, rfl⟩ := h; exact ⟨_, rfl, rfl⟩

private theorem mapSt_throw {σ α : Type} {f : σ → σ} {x : Res σ α} {e : Exn} {t : σ} (h : x.mapSt f = .throw e t) :
    ∃ s, x = .throw e s ∧ f s = t := by
  cases x <;> simp [Res.mapSt] at h
  obtain ⟨rfl, rfl⟩ := h; exact ⟨_, rfl, rfl⟩

/-- Source and destination are the results of arbitrary histories without self edges; both may have views, those subscribed to
the destination are correct tree views.  If they have no frame in common, the call returns; the destination has afterwards exactly its own
and the copied frames.  Its own frames and edges are as before, items included; the copied frames have no items.  For each
connection of the source one direction has the same transform and the other one the inverse of it.  Nothing else is added.
The views of the destination stay subscribed and become correct tree views of the new graph with the same roots.
The source is a `const` object; in the model it is a value. -/
theorem C47_structural_copy (heap heap' : ItemId → ItemObj) (cs ds : List (EG.Cmd E)) (hcs : ∀ c ∈ cs, c.noSelf)
    (hds : ∀ c ∈ ds, c.noSelf) {s d : EG E} (hs : EG.run cs (EG.init heap) = some s) (hd : EG.run ds (EG.init heap') = some d)
    (hok : ∀ q ∈ d.gs.subs, ∃ root, IsTreeView d.gs.g root (d.gs.views q))
    (hdis : ∀ f, GS.containsFrame f s.gs = true → GS.containsFrame f d.gs = false) :
    ∃ d', createStructuralCopy s.gs.g d = .ok () d' ∧ d'.heap = d.heap ∧ d'.gs.subs = d.gs.subs ∧
      (∀ q ∈ d.gs.subs, ∀ root, IsTreeView d.gs.g root (d.gs.views q) → IsTreeView d'.gs.g root (d'.gs.views q)) ∧
      (∀ f, GS.containsFrame f d'.gs = true ↔ GS.containsFrame f d.gs = true ∨ GS.containsFrame f s.gs = true) ∧
      (∀ f p, GS.getFrameProperty f d.gs = .ok p d.gs → GS.getFrameProperty f d'.gs = .ok p d'.gs) ∧
      (∀ f, GS.containsFrame f s.gs = true → GS.getFrameProperty f d'.gs = .ok ⟨f, []⟩ d'.gs) ∧
      (∀ a b p, GS.getEdgeProperty a b d.gs = .ok p d.gs → GS.getEdgeProperty a b d'.gs = .ok p d'.gs) ∧
      (∀ a b p, GS.getEdgeProperty a b s.gs = .ok p s.gs →
        (GS.getEdgeProperty a b d'.gs = .ok p d'.gs ∧ GS.getEdgeProperty b a d'.gs = .ok (EdgeProp.inverse p) d'.gs) ∨
        ∃ q, GS.getEdgeProperty b a s.gs = .ok q s.gs ∧ GS.getEdgeProperty b a d'.gs = .ok q d'.gs ∧
          GS.getEdgeProperty a b d'.gs = .ok (EdgeProp.inverse q) d'.gs) ∧
      (∀ a b p, GS.getEdgeProperty a b d'.gs = .ok p d'.gs →
        GS.getEdgeProperty a b d.gs = .ok p d.gs ∨ ∃ q, GS.getEdgeProperty a b s.gs = .ok q s.gs) := by
  have hw := EG.run_wf hs
  have hp := EG.run_paired hcs hs
  have hwd := EG.run_wf hd
  have hpd := EG.run_paired hds hd
  obtain ⟨b1, b2⟩ := createStructuralCopy_blind hw hp hwd hpd ⟨(EG.run_subsInv hd).1, hok⟩
  obtain ⟨d', h1, h2, h3⟩ := structural_core (d := EG.blind d) hw hp hwd hpd rfl hdis
  rw [b1] at h1
  obtain ⟨d1, h4, rfl⟩ := mapSt_ok h1
  obtain ⟨f1, f2⟩ := b2 d1 (by rw [h4]; rfl)
  refine ⟨d1, h4, h2, f1, f2, ?_⟩
  simp only [getFrameProperty_blind, getEdgeProperty_iff] at h3 ⊢
  exact h3

/-- If the inverse of the inverse of a transform is the transform itself, exactly the transforms of both graphs are there. -/
theorem C47_same_transforms (hinv : ∀ p : E, EdgeProp.inverse (EdgeProp.inverse p) = p) (heap heap' : ItemId → ItemObj)
    (cs ds : List (EG.Cmd E)) (hcs : ∀ c ∈ cs, c.noSelf) (hds : ∀ c ∈ ds, c.noSelf) {s d : EG E}
    (hs : EG.run cs (EG.init heap) = some s) (hd : EG.run ds (EG.init heap') = some d)
    (hok : ∀ q ∈ d.gs.subs, ∃ root, IsTreeView d.gs.g root (d.gs.views q))
    (hdis : ∀ f, GS.containsFrame f s.gs = true → GS.containsFrame f d.gs = false) :
    ∃ d', createStructuralCopy s.gs.g d = .ok () d' ∧ ∀ a b p, GS.getEdgeProperty a b d'.gs = .ok p d'.gs ↔
      GS.getEdgeProperty a b d.gs = .ok p d.gs ∨ GS.getEdgeProperty a b s.gs = .ok p s.gs := by
  obtain ⟨d', h1, -, -, -, -, -, -, h2, h3, h4⟩ := C47_structural_copy heap heap' cs ds hcs hds hs hd hok hdis
  have hp := EG.run_paired hcs hs
  have key : ∀ a b p, GS.getEdgeProperty a b s.gs = .ok p s.gs → GS.getEdgeProperty a b d'.gs = .ok p d'.gs := by
    intro a b p h
    rcases h3 a b p h with ⟨h5, -⟩ | ⟨q, h5, -, h6⟩
    · exact h5
    · have : EdgeProp.inverse q = p := by
        rw [getEdgeProperty_iff] at h h5
        obtain ⟨u, v, e, hu, hv, he⟩ := absEdge_isSome (g := s.gs.g) (a := a) (b := b) (by rw [h]; rfl)
        obtain ⟨e', he', hh⟩ := hp.inverse he
        rw [absEdge_of hu hv, he] at h
        rw [absEdge_of hv hu, he'] at h5
        simp only [Option.map_some, Option.some.injEq] at h h5
        rw [h, h5] at hh
        rcases hh with rfl | hh
        · exact hinv p
        · exact hh.symm
      rw [← this]; exact h6
  refine ⟨d', h1, fun a b p => ⟨fun h => ?_, fun h => h.elim (h2 a b p) (key a b p)⟩⟩
  rcases h4 a b p h with h5 | ⟨q, h5⟩
  · exact Or.inl h5
  · have := key a b q h5
    rw [getEdgeProperty_iff] at this h
    rw [this] at h; cases h
    exact Or.inr h5

private theorem exists_core {s d : EG E} (hw : WF s.gs.g) (hwd : WF d.gs.g) (hpd : Paired d.gs.g)
    (hsub : d.gs.subs = []) {f : FrameId} (h1 : GS.containsFrame f s.gs = true) (h2 : GS.containsFrame f d.gs = true) :
    ∃ x d', createStructuralCopy s.gs.g d = .throw (.frameAlreadyExists x) d' ∧ GS.containsFrame x s.gs = true ∧
      GS.containsFrame x d.gs = true ∧ d'.heap = d.heap ∧
      (∀ y, GS.containsFrame y d'.gs = true → GS.containsFrame y d.gs = true ∨ GS.containsFrame y s.gs = true) ∧
      (∀ y, GS.containsFrame y d.gs = true → GS.containsFrame y d'.gs = true) ∧
      (∀ a b p, GS.getEdgeProperty a b d'.gs = .ok p d'.gs ↔ GS.getEdgeProperty a b d.gs = .ok p d.gs) := by
  have hsim : Sim d.gs ⟨(GS.names d.gs.g).toFinset, absEdge d.gs.g⟩ :=
    ⟨hwd, hpd, hsub, fun f => by rw [List.mem_toFinset, GS.mem_names hwd], fun _ _ => rfl⟩
  have hcd : ∀ f, f ∈ (GS.names d.gs.g).toFinset ↔ GS.containsFrame f d.gs = true := by
    intro f; rw [List.mem_toFinset, GS.mem_names hwd]; rfl
  have hcs' : ∀ r ∈ s.gs.g.verts, GS.containsFrame (FrameProp.getId r.prop) s.gs = true := by
    intro r hr
    rw [GS.containsFrame, hw.vertexOf_iff.2 ⟨r, hr, rfl, rfl⟩]; rfl
  obtain ⟨v, hv⟩ := Option.isSome_iff_exists.1 h1
  obtain ⟨r, hr, -, hid⟩ := hw.vertexOf_iff.1 hv
  obtain ⟨d', A, pre, post, x, a1, a2, -, a3, a4, a5, a6, -, a7⟩ := copyFrames_throw s.gs.g.verts hsim (GS.names_nodup hw)
    ⟨r, hr, by rw [hid, hcd]; exact h2⟩
  refine ⟨_, d', by simp only [createStructuralCopy, a1], hcs' x (by rw [a5]; simp), (hcd _).1 a6, a2, ?_, ?_, ?_⟩
  · intro y hy
    rcases (a7 y).1 ((a3.frames y).1 hy) with h | ⟨q, hq, rfl⟩
    · exact Or.inl ((hcd y).1 h)
    · exact Or.inr (hcs' q (by rw [a5]; simp [hq]))
  · intro y hy
    exact (a3.frames y).2 ((a7 y).2 (Or.inl ((hcd y).2 hy)))
  · intro a b p
    rw [getEdgeProperty_iff, getEdgeProperty_iff, a3.edges, a4]

/-- If the destination already contains one of the frames, the call throws; the frame named is common to both.  The call is not
undone: the frames that come before it in the source stay in the destination, without items and edges; nothing else is changed.
The subscribed views stay correct. -/
theorem C47_frame_exists (heap heap' : ItemId → ItemObj) (cs ds : List (EG.Cmd E)) (hcs : ∀ c ∈ cs, c.noSelf)
    (hds : ∀ c ∈ ds, c.noSelf) {s d : EG E} (hs : EG.run cs (EG.init heap) = some s) (hd : EG.run ds (EG.init heap') = some d)
    (hok : ∀ q ∈ d.gs.subs, ∃ root, IsTreeView d.gs.g root (d.gs.views q))
    {f : FrameId} (h1 : GS.containsFrame f s.gs = true) (h2 : GS.containsFrame f d.gs = true) :
    ∃ x d', createStructuralCopy s.gs.g d = .throw (.frameAlreadyExists x) d' ∧ GS.containsFrame x s.gs = true ∧
      GS.containsFrame x d.gs = true ∧ d'.heap = d.heap ∧ d'.gs.subs = d.gs.subs ∧
      (∀ q ∈ d.gs.subs, ∀ root, IsTreeView d.gs.g root (d.gs.views q) → IsTreeView d'.gs.g root (d'.gs.views q)) ∧
      (∀ y, GS.containsFrame y d'.gs = true → GS.containsFrame y d.gs = true ∨ GS.containsFrame y s.gs = true) ∧
      (∀ y, GS.containsFrame y d.gs = true → GS.containsFrame y d'.gs = true) ∧
      (∀ a b p, GS.getEdgeProperty a b d'.gs = .ok p d'.gs ↔ GS.getEdgeProperty a b d.gs = .ok p d.gs) := by
  have hw := EG.run_wf hs
  have hwd := EG.run_wf hd
  have hpd := EG.run_paired hds hd
  obtain ⟨b1, b2⟩ := createStructuralCopy_blind hw (EG.run_paired hcs hs) hwd hpd ⟨(EG.run_subsInv hd).1, hok⟩
  obtain ⟨x, d', a1, a2, a3, a4, a5, a6, a7⟩ := exists_core (d := EG.blind d) hw hwd hpd rfl h1 h2
  rw [b1] at a1
  obtain ⟨d1, h4, rfl⟩ := mapSt_throw a1
  obtain ⟨f1, f2⟩ := b2 d1 (by rw [h4]; rfl)
  refine ⟨x, d1, h4, a2, a3, a4, f1, f2, a5, a6, ?_⟩
  simp only [getEdgeProperty_iff] at a7 ⊢
  exact a7

def C47_heap (_ : ItemId) : ItemObj := ⟨7, ""⟩

/-- a chain with a replaced transform and an item, copied into a graph with another connection -/
example : ∃ s d d' : EG Int,
    EG.run [.graph (.addEdge "a" "b" 1), .graph (.addEdge "b" "c" 2), .graph (.setEdge "b" "a" 5), .addItemToFrame "a" 0]
      (EG.init C47_heap) = some s ∧
    EG.run [.graph (.addEdge "x" "y" 3), .addItemToFrame "x" 1] (EG.init C47_heap) = some d ∧ d.gs.subs = [] ∧
    createStructuralCopy s.gs.g d = .ok () d' ∧ GS.getEdgeProperty "a" "b" d'.gs = .ok (-5) d'.gs ∧
    GS.getEdgeProperty "b" "a" d'.gs = .ok 5 d'.gs ∧ GS.getEdgeProperty "c" "b" d'.gs = .ok (-2) d'.gs ∧
    GS.getEdgeProperty "x" "y" d'.gs = .ok 3 d'.gs ∧ visitItems "a" d' = .ok [] d' ∧ visitItems "x" d' = .ok [1] d' :=
  ⟨_, _, _, rfl, rfl, rfl, rfl, rfl, rfl, rfl, rfl, rfl, rfl⟩

example : ∃ s d d' : EG Int,
    EG.run [.graph (.addEdge "a" "b" 1)] (EG.init C47_heap) = some s ∧ EG.run [.graph (.addFrame "b")] (EG.init C47_heap) = some d ∧
    createStructuralCopy s.gs.g d = .throw (.frameAlreadyExists "b") d' ∧ GS.containsFrame "a" d'.gs = true :=
  ⟨_, _, _, rfl, rfl, rfl, rfl⟩

/-- the destination has a view of x-y; it is as before, because the copied frames are not connected with it -/
example : ∃ s d d' : EG Int,
    EG.run [.graph (.addEdge "a" "b" 1)] (EG.init C47_heap) = some s ∧
    EG.run [.graph (.addEdge "x" "y" 3), .graph (.getTree "x" true 0)] (EG.init C47_heap) = some d ∧ d.gs.subs = [0] ∧
    createStructuralCopy s.gs.g d = .ok () d' ∧ d'.gs.subs = [0] ∧ (d'.gs.views 0).tree.map Prod.fst = [0, 1] ∧
    GS.getEdgeProperty "b" "a" d'.gs = .ok (-1) d'.gs :=
  ⟨_, _, _, rfl, rfl, rfl, rfl, rfl, rfl, rfl⟩

end Verif
