import Verif.Lemmas.PublishSelf
import Verif.Spec.Demo
/-! # C09: publishing the current state of graphs with self edges

The list of edges that need not be published holds the edge that the lookup of the inverse finds.  For the two stored edges of a frame to itself this
is always the first one, so the second one is published again. -/

namespace Verif
open GS
variable {F E : Type} [FrameProp F] [EdgeProp E]

private theorem pub_length_one {α : Type} {l : List α} {x : α} (hn : l.Nodup) (hx : x ∈ l) (h : ∀ y ∈ l, y = x) : l.length = 1 := by
  have h1 : l.length ≤ [x].length := (hn.subperm (fun y hy => List.mem_singleton.2 (h y hy))).length_le
  have h2 := List.length_pos_of_mem hx
  simp only [List.length_singleton] at h1
  omega

private theorem pub_length_same {α : Type} {l l' : List α} (hn : l.Nodup) (hn' : l'.Nodup) (h : ∀ y, y ∈ l ↔ y ∈ l') : l.length = l'.length :=
  ((List.perm_ext_iff_of_nodup hn hn').2 h).length_eq

private theorem edges_named {s : GS F E} (hw : WF s.g) (hp : Paired s.g.ns) (h2 : SelfTwo s.g) {pub : List (ERec E)} (hsub : pub.Sublist s.g.edges)
    (hA : ∀ e ∈ s.g.edges, e ∉ pub → e.src ≠ e.tgt ∧ ∃ e' ∈ pub, isInv s.g e e')
    (hB : ∀ e ∈ pub, ∀ e' ∈ pub, e.src ≠ e.tgt → ¬ isInv s.g e e') :
    (∀ x ∈ pub.map (pairOf s.g), containsEdge x.1 x.2 s = .ok true s) ∧
    (∀ a b, a ≠ b → containsEdge a b s = .ok true s → ((pub.map (pairOf s.g)).filter (fun x => x = (a, b) ∨ x = (b, a))).length = 1) ∧
    (∀ a, containsEdge a a s = .ok true s → ((pub.map (pairOf s.g)).filter (fun x => x = (a, a))).length = 2) := by
  have hv : ∀ e ∈ s.g.edges, s.g.vertexOf (pairOf s.g e).1 = some e.src ∧ s.g.vertexOf (pairOf s.g e).2 = some e.tgt := fun e he =>
    ⟨vertexOf_nameOf hw (hw.esrc e he), vertexOf_nameOf hw (hw.etgt e he)⟩
  have hname : ∀ e ∈ s.g.edges, ∀ {a b u v}, s.g.vertexOf a = some u → s.g.vertexOf b = some v →
      (pairOf s.g e = (a, b) ↔ e.src = u ∧ e.tgt = v) := by
    intro e he a b u v ha hb
    obtain ⟨k1, k2⟩ := hv e he
    constructor
    · intro hh
      rw [hh] at k1 k2
      exact ⟨Option.some.inj (k1.symm.trans ha), Option.some.inj (k2.symm.trans hb)⟩
    · rintro ⟨rfl, rfl⟩
      exact Prod.ext (hw.vertexOf_inj k1 ha) (hw.vertexOf_inj k2 hb)
  have hnd : pub.Nodup := (List.Nodup.of_map _ hw.enodup).sublist hsub
  refine ⟨?_, ?_, ?_⟩
  · intro x hx
    obtain ⟨e, he, rfl⟩ := List.mem_map.1 hx
    have hem := hsub.subset he
    obtain ⟨k1, k2⟩ := hv e hem
    rw [containsEdge_iff, absEdge_isSome_iff]
    exact ⟨_, _, k1, k2, e, hem, rfl, rfl⟩
  · intro a b hab hc
    rw [containsEdge_iff, absEdge_isSome_iff] at hc
    obtain ⟨u, v, ha, hb, e, he, h3, h4⟩ := hc
    have huv : u ≠ v := by
      rintro rfl
      exact hab (hw.vertexOf_inj ha hb)
    have uniq : ∀ x ∈ s.g.edges, ∀ y ∈ s.g.edges, x.src ≠ x.tgt → x.src = y.src → x.tgt = y.tgt → x = y := fun x hx y hy hn k1 k2 =>
      hp.uniq x (G.mem_ns.2 ⟨hx, hn⟩) y (G.mem_ns.2 ⟨hy, by rw [← k1, ← k2]; exact hn⟩) k1 k2
    have inv : ∀ x ∈ s.g.edges, ∀ y ∈ s.g.edges, x.src ≠ x.tgt → x.src = y.tgt → x.tgt = y.src → isInv s.g x y := by
      intro x hx y hy hn k1 k2
      obtain ⟨y', hy'⟩ := Option.isSome_iff_exists.1 (G.edge_isSome (g := s.g) (u := x.tgt) (v := x.src) |>.2 ⟨y, hy, k2.symm, k1.symm⟩)
      obtain ⟨m, l1, l2⟩ := G.edge_some hy'
      have := uniq y' m y hy (by rw [l1, l2]; exact hn.symm) (l1.trans k2) (l2.trans k1)
      subst this
      exact hy'
    rw [List.filter_map, List.length_map]
    have mem : ∀ x ∈ s.g.edges, ((decide (pairOf s.g x = (a, b) ∨ pairOf s.g x = (b, a))) = true ↔
        (x.src = u ∧ x.tgt = v) ∨ (x.src = v ∧ x.tgt = u)) := by
      intro x hx
      rw [decide_eq_true_eq, hname x hx ha hb, hname x hx hb ha]
    obtain ⟨e0, h0, h0m⟩ : ∃ e0 ∈ pub, (e0.src = u ∧ e0.tgt = v) ∨ (e0.src = v ∧ e0.tgt = u) := by
      by_cases hep : e ∈ pub
      · exact ⟨e, hep, Or.inl ⟨h3, h4⟩⟩
      · obtain ⟨-, e', he', hi⟩ := hA e he hep
        obtain ⟨-, k1, k2⟩ := G.edge_some hi
        exact ⟨e', he', Or.inr ⟨k1.trans h4, k2.trans h3⟩⟩
    have ne0 : e0.src ≠ e0.tgt := by
      rcases h0m with ⟨k1, k2⟩ | ⟨k1, k2⟩
      · rw [k1, k2]; exact huv
      · rw [k1, k2]; exact huv.symm
    refine pub_length_one (x := e0) (hnd.filter _) (List.mem_filter.2 ⟨h0, (mem e0 (hsub.subset h0)).2 h0m⟩) ?_
    intro y hy
    obtain ⟨hy, hym⟩ := List.mem_filter.1 hy
    have hym := (mem y (hsub.subset hy)).1 hym
    have hcase : (e0.src = y.src ∧ e0.tgt = y.tgt) ∨ (e0.src = y.tgt ∧ e0.tgt = y.src) := by
      rcases h0m with ⟨k1, k2⟩ | ⟨k1, k2⟩ <;> rcases hym with ⟨l1, l2⟩ | ⟨l1, l2⟩
      · exact Or.inl ⟨k1.trans l1.symm, k2.trans l2.symm⟩
      · exact Or.inr ⟨k1.trans l2.symm, k2.trans l1.symm⟩
      · exact Or.inr ⟨k1.trans l2.symm, k2.trans l1.symm⟩
      · exact Or.inl ⟨k1.trans l1.symm, k2.trans l2.symm⟩
    rcases hcase with ⟨k1, k2⟩ | ⟨k1, k2⟩
    · exact (uniq e0 (hsub.subset h0) y (hsub.subset hy) ne0 k1 k2).symm
    · exact (hB e0 h0 y hy ne0 (inv e0 (hsub.subset h0) y (hsub.subset hy) ne0 k1 k2)).elim
  · intro a hc
    rw [containsEdge_iff, absEdge_isSome_iff] at hc
    obtain ⟨u, v, ha, hb, e, he, h3, h4⟩ := hc
    obtain rfl : u = v := Option.some.inj (ha.symm.trans hb)
    rw [List.filter_map, List.length_map]
    have h5 : (s.g.selfs u).length = 2 := by
      rcases h2 u with h | h
      · have : e ∈ s.g.selfs u := by simp [G.selfs, he, h3, h4]
        rw [List.length_eq_zero_iff.1 h] at this
        cases this
      · exact h
    rw [← h5]
    refine pub_length_same (hnd.filter _) ((List.Nodup.of_map _ hw.enodup).filter _) ?_
    intro y
    simp only [G.selfs, List.mem_filter, Function.comp, decide_eq_true_eq]
    constructor
    · rintro ⟨hy, hm⟩
      exact ⟨hsub.subset hy, (hname y (hsub.subset hy) ha hb).1 hm⟩
    · rintro ⟨hy, hm⟩
      refine ⟨?_, (hname y hy ha hb).2 hm⟩
      by_contra hh
      exact (hA y hy hh).1 (hm.1.trans hm.2.symm)

/-- what is announced in a state with consistent edges -/
theorem publish_named {s : GS F E} (hw : WF s.g) (hp : Paired s.g.ns) (ht : SelfTwo s.g) :
    ∃ (fs : List FrameId) (es : List (FrameId × FrameId × EId)),
      publishCurrentState s = some (fs.map .frameAdded ++ es.map (fun e => .edgeAdded e.1 e.2.1 e.2.2)) ∧
      fs.Nodup ∧ (∀ f, f ∈ fs ↔ containsFrame f s = true) ∧ (es.map (fun e => e.2.2)).Nodup ∧
      (∀ x ∈ es.map (fun e => (e.1, e.2.1)), containsEdge x.1 x.2 s = .ok true s) ∧
      (∀ a b, a ≠ b → containsEdge a b s = .ok true s →
        ((es.map (fun e => (e.1, e.2.1))).filter (fun x => x = (a, b) ∨ x = (b, a))).length = 1) ∧
      (∀ a, containsEdge a a s = .ok true s → ((es.map (fun e => (e.1, e.2.1))).filter (fun x => x = (a, a))).length = 2) := by
  obtain ⟨st', pub, h1, h2, h3, h4, h5⟩ := publish_fold_ns hw hp (fun o t e => .edgeAdded o t e) s.g.edges [] ([], []) []
    (by simp) (List.Sublist.refl _) (by simp) rfl (by simp) (by simp)
  refine ⟨names s.g, pub.map (fun e => ((pairOf s.g e).1, (pairOf s.g e).2, e.id)), ?_, names_nodup hw, fun f => mem_names hw, ?_, ?_⟩
  · unfold publishCurrentState
    simp only [h1, h3, names, List.map_map]
    rfl
  · rw [List.map_map]
    exact hw.enodup.sublist (h2.map _)
  · have := edges_named hw hp ht h2 h4 h5
    rw [List.map_map]
    exact this

/-- After every history, self edges included, `publishCurrentState` succeeds: it announces every frame once, every connection between two frames
once, in one of the two directions, and every connection of a frame to itself twice; nothing else is announced. -/
theorem C09_publish_self_edges (cs : List (Cmd F E)) (s : GS F E) (h : run cs init = some s) :
    ∃ (fs : List FrameId) (es : List (FrameId × FrameId × EId)),
      publishCurrentState s = some (fs.map .frameAdded ++ es.map (fun e => .edgeAdded e.1 e.2.1 e.2.2)) ∧
      fs.Nodup ∧ (∀ f, f ∈ fs ↔ containsFrame f s = true) ∧ (es.map (fun e => e.2.2)).Nodup ∧
      (∀ x ∈ es.map (fun e => (e.1, e.2.1)), containsEdge x.1 x.2 s = .ok true s) ∧
      (∀ a b, a ≠ b → containsEdge a b s = .ok true s →
        ((es.map (fun e => (e.1, e.2.1))).filter (fun x => x = (a, b) ∨ x = (b, a))).length = 1) ∧
      (∀ a, containsEdge a a s = .ok true s → ((es.map (fun e => (e.1, e.2.1))).filter (fun x => x = (a, a))).length = 2) :=
  publish_named (run_wf WF.empty h) (run_paired_ns h) (run_selfTwo h)

/-- a frame with a self edge and two neighbours -/
example : ∃ s : GS DemoFrame Int, run [.addEdge "a" "a" 1, .addEdge "b" "a" 1, .addEdge "a" "c" 2] init = some s ∧
    publishCurrentState s = some [.frameAdded "a", .frameAdded "b", .frameAdded "c", .edgeAdded "a" "a" 0, .edgeAdded "a" "a" 1,
      .edgeAdded "b" "a" 2, .edgeAdded "a" "c" 4] :=
  ⟨_, rfl, rfl⟩

/-- what is taken back in a state with consistent edges -/
theorem unpublish_named {s : GS F E} (hw : WF s.g) (hp : Paired s.g.ns) (ht : SelfTwo s.g) :
    ∃ (fs : List FrameId) (es : List (FrameId × FrameId)),
      unpublishCurrentState s = some (es.map (fun e => .edgeRemoved e.1 e.2) ++ fs.map .frameRemoved) ∧
      fs.Nodup ∧ (∀ f, f ∈ fs ↔ containsFrame f s = true) ∧
      (∀ x ∈ es, containsEdge x.1 x.2 s = .ok true s) ∧
      (∀ a b, a ≠ b → containsEdge a b s = .ok true s → (es.filter (fun x => x = (a, b) ∨ x = (b, a))).length = 1) ∧
      (∀ a, containsEdge a a s = .ok true s → (es.filter (fun x => x = (a, a))).length = 2) := by
  obtain ⟨st', pub, h1, h2, h3, h4, h5⟩ := publish_fold_ns hw hp (fun o t _ => .edgeRemoved o t) s.g.edges [] ([], []) []
    (by simp) (List.Sublist.refl _) (by simp) rfl (by simp) (by simp)
  refine ⟨names s.g, pub.map (pairOf s.g), ?_, names_nodup hw, fun f => mem_names hw, edges_named hw hp ht h2 h4 h5⟩
  unfold unpublishCurrentState
  simp only [h1, h3, names, List.map_map]
  rfl

/-- The same for `unpublishCurrentState`: the connection of a frame to itself is taken back twice. -/
theorem C09_unpublish_self_edges (cs : List (Cmd F E)) (s : GS F E) (h : run cs init = some s) :
    ∃ (fs : List FrameId) (es : List (FrameId × FrameId)),
      unpublishCurrentState s = some (es.map (fun e => .edgeRemoved e.1 e.2) ++ fs.map .frameRemoved) ∧
      fs.Nodup ∧ (∀ f, f ∈ fs ↔ containsFrame f s = true) ∧
      (∀ x ∈ es, containsEdge x.1 x.2 s = .ok true s) ∧
      (∀ a b, a ≠ b → containsEdge a b s = .ok true s → (es.filter (fun x => x = (a, b) ∨ x = (b, a))).length = 1) ∧
      (∀ a, containsEdge a a s = .ok true s → (es.filter (fun x => x = (a, a))).length = 2) :=
  unpublish_named (run_wf WF.empty h) (run_paired_ns h) (run_selfTwo h)

example : ∃ s : GS DemoFrame Int, run [.addEdge "a" "a" 1, .addEdge "b" "a" 1, .addEdge "a" "c" 2] init = some s ∧
    unpublishCurrentState s = some [.edgeRemoved "a" "a", .edgeRemoved "a" "a", .edgeRemoved "b" "a", .edgeRemoved "a" "c",
      .frameRemoved "a", .frameRemoved "b", .frameRemoved "c"] :=
  ⟨_, rfl, rfl⟩

private theorem take_frames (l : List FrameId) : ∀ (m : Mirror),
    (∀ f, f ∈ ((l.map Event.frameAdded).foldl Mirror.take m).frames ↔ f ∈ m.frames ∨ f ∈ l) ∧
      ((l.map Event.frameAdded).foldl Mirror.take m).conns = m.conns := by
  induction l with
  | nil => intro m; simp
  | cons x l ih =>
    intro m
    obtain ⟨h1, h2⟩ := ih (m.take (.frameAdded x))
    refine ⟨fun f => ?_, h2⟩
    rw [List.map_cons, List.foldl_cons, h1]
    simp only [Mirror.take, Finset.mem_insert, List.mem_cons]
    tauto

private theorem take_edges (l : List (FrameId × FrameId × EId)) : ∀ (m : Mirror),
    (∀ x, x ∈ ((l.map (fun e => Event.edgeAdded e.1 e.2.1 e.2.2)).foldl Mirror.take m).conns ↔
      x ∈ m.conns ∨ x ∈ l.map (fun e => (e.1, e.2.1)) ∨ x.swap ∈ l.map (fun e => (e.1, e.2.1))) ∧
      ((l.map (fun e => Event.edgeAdded e.1 e.2.1 e.2.2)).foldl Mirror.take m).frames = m.frames := by
  induction l with
  | nil => intro m; simp
  | cons y l ih =>
    intro m
    obtain ⟨h1, h2⟩ := ih (m.take (.edgeAdded y.1 y.2.1 y.2.2))
    refine ⟨fun x => ?_, h2⟩
    rw [List.map_cons, List.foldl_cons, h1]
    obtain ⟨a, b⟩ := x
    simp only [Mirror.take, Finset.mem_insert, List.map_cons, List.mem_cons, Prod.swap_prod_mk, Prod.mk.injEq]
    tauto

/-- After every history, self edges included: an observer that keeps sets of names and subscribes with publishing knows exactly the graph. -/
theorem C09_publish_loose_observer (cs : List (Cmd F E)) (s : GS F E) (h : run cs init = some s) :
    ∃ evs, publishCurrentState s = some evs ∧
      (∀ f, f ∈ (evs.foldl Mirror.take Mirror.empty).frames ↔ containsFrame f s = true) ∧
      (∀ a b, (a, b) ∈ (evs.foldl Mirror.take Mirror.empty).conns ↔ containsEdge a b s = .ok true s) := by
  have hsym : ∀ a b, containsEdge a b s = .ok true s → containsEdge b a s = .ok true s := by
    intro a b hab
    rw [containsEdge_iff, absEdge_isSome_iff] at hab ⊢
    obtain ⟨u, v, hu, hv, e, he, k1, k2⟩ := hab
    by_cases huv : u = v
    · subst huv
      exact ⟨u, u, hv, hu, e, he, k1, k2⟩
    · obtain ⟨e', h1, -⟩ := isInv_exists (run_paired_ns h) (G.mem_ns.2 ⟨he, by rw [k1, k2]; exact huv⟩)
      obtain ⟨m, l1, l2⟩ := G.edge_some h1
      exact ⟨v, u, hv, hu, e', (G.mem_ns.1 m).1, l1.trans k2, l2.trans k1⟩
  obtain ⟨fs, es, h1, -, h2, -, h3, h4, h5⟩ := C09_publish_self_edges cs s h
  refine ⟨_, h1, fun f => ?_, fun a b => ?_⟩
  · rw [List.foldl_append, (take_edges es _).2, (take_frames fs _).1, ← h2]
    simp [Mirror.empty]
  · rw [List.foldl_append, (take_edges es _).1, (take_frames fs _).2]
    simp only [Mirror.empty, Finset.notMem_empty, false_or]
    constructor
    · rintro (hm | hm)
      · exact h3 _ hm
      · exact hsym _ _ (h3 _ hm)
    · intro hc
      by_cases hab : a = b
      · subst hab
        have := h5 a hc
        obtain ⟨x, hx⟩ := List.exists_mem_of_length_pos (l := (es.map (fun e => (e.1, e.2.1))).filter (fun x => x = (a, a))) (by omega)
        obtain ⟨hx, hxe⟩ := List.mem_filter.1 hx
        have hxe : x = (a, a) := of_decide_eq_true hxe
        subst hxe
        exact Or.inl hx
      · have := h4 a b hab hc
        obtain ⟨x, hx⟩ := List.exists_mem_of_length_pos (l := (es.map (fun e => (e.1, e.2.1))).filter (fun x => x = (a, b) ∨ x = (b, a))) (by omega)
        obtain ⟨hx, hxe⟩ := List.mem_filter.1 hx
        rcases of_decide_eq_true hxe with rfl | rfl
        · exact Or.inl hx
        · exact Or.inr hx

example : ∃ (s : GS DemoFrame Int) (evs : List Event), run [.addEdge "a" "a" 1, .addEdge "b" "a" 1, .addFrame "c"] init = some s ∧
    publishCurrentState s = some evs ∧ evs.length = 6 ∧ (evs.foldl Mirror.take Mirror.empty).frames = {"a", "b", "c"} ∧
    (evs.foldl Mirror.take Mirror.empty).conns = {("a", "a"), ("a", "b"), ("b", "a")} :=
  ⟨_, _, rfl, rfl, rfl, by decide, by decide⟩

end Verif
