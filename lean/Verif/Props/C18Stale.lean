import Verif.Lemmas.TransformSelf
import Verif.Props.C18
/-! # C18 (continued): what `getTransform` returns for a stale view

`C18_stale` describes the result for every view that was correct for some graph, whatever happened to the connections since, as long as
no frame of the view was removed: each missing connection counts as the identity. -/

namespace Verif
open GS
variable {F T : Type} [FrameProp F] [Group T]

/-- The product of the transforms from `v` up to the root of the view, where connections that are missing in the graph are left out. -/
inductive Climb (s : GS F (Tf T)) (w : TreeView) : VId → T → Prop
  | root {v : VId} : w.root = some v → Climb s w v 1
  | there {v p : VId} {e : ERec (Tf T)} {y : T} : w.root ≠ some v → w.parentOf v = some p → e ∈ s.g.edges → e.src = v → e.tgt = p →
      Climb s w p y → Climb s w v (e.prop.pose * y)
  | gap {v p : VId} {y : T} : w.root ≠ some v → w.parentOf v = some p → (∀ e ∈ s.g.edges, ¬ (e.src = v ∧ e.tgt = p)) →
      Climb s w p y → Climb s w v y

private theorem climb_list {s : GS F (Tf T)} (hw : WF s.g) {root : VId} {w : TreeView} (hr : w.root = some root)
    (hl : ∀ x, w.vertexExists x = true → Live s.g x) {d : VId → Nat} (hd : ∀ v p, w.parentOf v = some p → d v = d p + 1) {v : VId}
    (hu : w.Under v root) : (w.vertexExists v = true) → (∀ x p, w.parentOf x = some p → w.vertexExists p = true) →
    ∃ (l : List VId) (y : T), l.Nodup ∧ (∀ x ∈ l, w.vertexExists x = true ∧ d x ≤ d v) ∧ Climb s w v y ∧
      ∀ n acc, l.length ≤ n → tfToRoot w s n (some v) acc = .ok (acc * y) s := by
  induction hu using Relation.ReflTransGen.head_induction_on with
  | refl =>
    intro _ _
    exact ⟨[], 1, by simp, by simp, .root hr, fun n acc _ => by rw [tfToRoot_root hr, mul_one]⟩
  | @head v p hvp _ ih =>
    intro hv hpe
    by_cases hroot : w.root = some v
    · exact ⟨[], 1, by simp, by simp, .root hroot, fun n acc _ => by rw [tfToRoot_root hroot, mul_one]⟩
    · obtain ⟨l, y, h1, h2, h3, h4⟩ := ih (hpe _ _ hvp) hpe
      have hdv := hd _ _ hvp
      have hnd : (v :: l).Nodup := List.nodup_cons.2 ⟨fun hm => by have := (h2 v hm).2; omega, h1⟩
      have hmem : ∀ x ∈ v :: l, w.vertexExists x = true ∧ d x ≤ d v := by
        intro x hx
        rcases List.mem_cons.1 hx with rfl | hx
        · exact ⟨hv, Nat.le_refl _⟩
        · exact ⟨(h2 x hx).1, by have := (h2 x hx).2; omega⟩
      cases he : s.g.edge v p with
      | some e =>
        obtain ⟨f1, f2, f3⟩ := G.edge_some he
        refine ⟨v :: l, e.prop.pose * y, hnd, hmem, .there hroot hvp f1 f2 f3 h3, ?_⟩
        intro n acc hn
        cases n with
        | zero => simp at hn
        | succ n =>
          rw [tfToRoot_step hw hroot hvp (hl v hv), he]
          simp only
          rw [h4 n _ (by simpa using hn), mul_assoc]
      | none =>
        refine ⟨v :: l, y, hnd, hmem, .gap hroot hvp ?_ h3, ?_⟩
        · rintro e hm ⟨rfl, rfl⟩
          have := G.edge_isSome.2 ⟨e, hm, rfl, rfl⟩
          rw [he] at this
          cases this
        · intro n acc hn
          cases n with
          | zero => simp at hn
          | succ n =>
            rw [tfToRoot_step hw hroot hvp (hl v hv), he]
            simp only
            rw [h4 n _ (by simpa using hn)]

/-- For every history, every view that was correct for some graph `g0` and whose frames are all still in the graph, and two different
frames in it: the result is the product up from `a` times the inverse of the product up from `b`, where each connection of the view that
is missing now is left out.  No exception, no hint that something is missing. -/
theorem C18_stale (cs : List (Cmd F (Tf T))) (s : GS F (Tf T)) (h : run cs init = some s)
    (g0 : G F (Tf T)) (hp0 : Paired g0) (root : VId) (w : TreeView) (hw0 : IsTreeView g0 root w)
    (hl : ∀ x, w.vertexExists x = true → x ∈ getVertices s) (a b : FrameId) (hab : a ≠ b) (u v : VId)
    (hu : getVertex a s = .ok u s) (hv : getVertex b s = .ok v s) (hui : w.vertexExists u = true) (hvi : w.vertexExists v = true) :
    ∃ x y, Climb s w u x ∧ Climb s w v y ∧ getTransformView a b w s = .ok ⟨0, x * y⁻¹⟩ s := by
  have hw : WF s.g := run_wf WF.empty h
  have ha := getVertex_ok hu
  have hb := getVertex_ok hv
  have hne : u ≠ v := fun e => hab (hw.vertexOf_inj ha (e ▸ hb))
  obtain ⟨d, hd⟩ := hw0.rank
  have hl' : ∀ x, w.vertexExists x = true → Live s.g x := by
    intro x hx
    have := hl x hx
    simp only [getVertices, List.mem_map] at this
    obtain ⟨r, hr, hid⟩ := this
    exact ⟨r, hr, hid⟩
  have hpe : ∀ x p, w.parentOf x = some p → w.vertexExists p = true := by
    intro x p hxp
    have := hw0.parent_in hp0 hxp
    simpa [TreeView.vertexExists] using this
  have key : ∀ x, w.vertexExists x = true → ∃ y, Climb s w x y ∧
      ∀ acc, tfToRoot w s (w.tree.length + 1) (some x) acc = .ok (acc * y) s := by
    intro x hx
    obtain ⟨l, y, h1, h2, h3, h4⟩ := climb_list hw hw0.root_eq hl' hd ((hw0.under_root hp0).1 hx) hx hpe
    refine ⟨y, h3, fun acc => h4 _ _ ?_⟩
    have hsub : l ⊆ AMap.keys w.tree := by
      intro z hz
      have := (h2 z hz).1
      rw [TreeView.vertexExists] at this
      exact AMap.mem_keys_iff.2 (Option.isSome_iff_exists.1 this)
    have := (List.subperm_of_subset h1 hsub).length_le
    simp only [AMap.keys, List.length_map] at this
    omega
  obtain ⟨x, hx1, hx2⟩ := key u hui
  obtain ⟨y, hy1, hy2⟩ := key v hvi
  refine ⟨x, y, hx1, hy1, ?_⟩
  simp only [getTransformView, ha, hb, getTransformViewV, if_neg hne, hx2, hy2, one_mul]

/-- chain a-b-c-d, view from a that is not subscribed, then b-c is removed and a-b changed: the transform from d to a uses the new a-b, c-d
and nothing for b-c -/
example : (run [.addEdge "a" "b" ⟨1, tn 1⟩, .addEdge "b" "c" ⟨2, sh 3⟩, .addEdge "c" "d" ⟨3, tn 2⟩, .getTree "a" false 0,
      .removeEdge "b" "c", .setEdge "a" "b" ⟨4, sh 10⟩] (init : GS DemoFrame (Tf DemoPose))).map (fun s =>
        ((getTransformView "d" "a" (s.views 0) s).val?, (getTransform "d" "a" s).exn?)) =
    some (some ⟨0, (tn 2)⁻¹ * (sh 10)⁻¹⟩, some (.unknownTransform "d" "a")) := by decide +kernel

/-- For every history, self edges included, every view that was correct for some graph `g0` and whose frames are all still in the graph, and
two different frames in it: the result is the product up from `a` times the inverse of the product up from `b`, where each connection of the
view that is missing now is left out.  No exception, no hint that something is missing. -/
theorem C18_stale_with_self_edges (cs : List (Cmd F (Tf T))) (s : GS F (Tf T)) (h : run cs init = some s)
    (g0 : G F (Tf T)) (hp0 : Paired g0.ns) (root : VId) (w : TreeView) (hw0 : IsTreeViewLoops g0 root w)
    (hl : ∀ x, w.vertexExists x = true → x ∈ getVertices s) (a b : FrameId) (hab : a ≠ b) (u v : VId)
    (hu : getVertex a s = .ok u s) (hv : getVertex b s = .ok v s) (hui : w.vertexExists u = true) (hvi : w.vertexExists v = true) :
    ∃ x y, Climb s w u x ∧ Climb s w v y ∧ getTransformView a b w s = .ok ⟨0, x * y⁻¹⟩ s := by
  have hw : WF s.g := run_wf WF.empty h
  have ha := getVertex_ok hu
  have hb := getVertex_ok hv
  have hne : u ≠ v := fun e => hab (hw.vertexOf_inj ha (e ▸ hb))
  obtain ⟨d, hd⟩ := (IsTreeView.rank hw0.view)
  have hl' : ∀ x, w.vertexExists x = true → Live s.g x := by
    intro x hx
    have := hl x hx
    simp only [getVertices, List.mem_map] at this
    obtain ⟨r, hr, hid⟩ := this
    exact ⟨r, hr, hid⟩
  have hpe : ∀ x p, w.parentOf x = some p → w.vertexExists p = true := by
    intro x p hxp
    have := IsTreeView.parent_in hp0 hw0.view hxp
    simpa [TreeView.vertexExists] using this
  have key : ∀ x, w.vertexExists x = true → ∃ y, Climb s w x y ∧
      ∀ acc, tfToRoot w s (w.tree.length + 1) (some x) acc = .ok (acc * y) s := by
    intro x hx
    obtain ⟨l, y, h1, h2, h3, h4⟩ := climb_list (w := w) hw hw0.view.root_eq hl' hd ((IsTreeViewLoops.under_root hp0 hw0).1 hx) hx hpe
    refine ⟨y, h3, fun acc => h4 _ _ ?_⟩
    have hsub : l ⊆ AMap.keys w.tree := by
      intro z hz
      have := (h2 z hz).1
      rw [TreeView.vertexExists] at this
      exact AMap.mem_keys_iff.2 (Option.isSome_iff_exists.1 this)
    have := (List.subperm_of_subset h1 hsub).length_le
    simp only [AMap.keys, List.length_map] at this
    omega
  obtain ⟨x, hx1, hx2⟩ := key u hui
  obtain ⟨y, hy1, hy2⟩ := key v hvi
  refine ⟨x, y, hx1, hy1, ?_⟩
  simp only [getTransformView, ha, hb, getTransformViewV, if_neg hne, hx2, hy2, one_mul]

/-- the same chain with a self edge at `b` and at `c`, made before the view: the same result -/
example : (run [.addEdge "a" "b" ⟨1, tn 1⟩, .addEdge "b" "c" ⟨2, sh 3⟩, .addEdge "c" "d" ⟨3, tn 2⟩, .addEdge "b" "b" ⟨5, tn 7⟩,
      .addEdge "c" "c" ⟨5, sh 9⟩, .getTree "a" false 0, .removeEdge "b" "c", .setEdge "a" "b" ⟨4, sh 10⟩]
      (init : GS DemoFrame (Tf DemoPose))).map (fun s =>
        ((getTransformView "d" "a" (s.views 0) s).val?, (getTransform "d" "a" s).exn?)) =
    some (some ⟨0, (tn 2)⁻¹ * (sh 10)⁻¹⟩, some (.unknownTransform "d" "a")) := by decide +kernel

end Verif
