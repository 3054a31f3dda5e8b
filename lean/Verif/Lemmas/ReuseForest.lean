import Verif.Lemmas.ReuseRun
import Verif.Lemmas.ForestHistory

set_option linter.unusedSectionVars false
/-! In a history without cycles the views mention only what exists, except for roots that were removed. -/

namespace Verif
open Equiv
namespace GS
open TreeView
variable {F E : Type} [FrameProp F] [EdgeProp E]

theorem reach_ids {g : G F E} (hw : WF g) {u v : VId} (hu : u ∈ g.verts.map VRec.id) (h : g.Reach u v) : v ∈ g.verts.map VRec.id := by
  by_cases he : u = v
  · exact he ▸ hu
  · obtain ⟨r, h1, h2⟩ := (reach_live hw h he).2
    exact List.mem_map.2 ⟨r, h1, h2⟩

theorem isTreeView_upToDate {g : G F E} (hw : WF g) {root : VId} {w : TreeView} (h : IsTreeView g root w)
    (hr : root ∈ g.verts.map VRec.id) (hn : (AMap.keys w.tree).Nodup) : w.UpToDate g := by
  have hv : ∀ v, w.vertexExists v = true → v ∈ g.verts.map VRec.id := fun v hv => reach_ids hw hr ((h.span v).1 hv)
  have hpar : ∀ v p, w.vertexExists v = true → w.parentOf v = some p → p ∈ g.verts.map VRec.id := by
    intro v p hve hp
    have hne : v ≠ root := by rintro rfl; rw [h.root_parent] at hp; cases hp
    obtain ⟨q, hq, e, he, h1, -⟩ := h.parent v hve hne
    rw [hp] at hq; cases hq
    obtain ⟨r, hr1, hr2⟩ := hw.esrc e he
    exact List.mem_map.2 ⟨r, hr1, by rw [hr2, h1]⟩
  have hin : In0 (fun x => x ∈ g.verts.map VRec.id) (fun e => e ∈ g.edges.map ERec.id) w := by
    refine ⟨fun x hx => ?_, fun c hc => ?_, fun x hx => ?_⟩
    · have hg : w.tree.get x.1 = some x.2 := AMap.get_of_mem hn hx
      have hex : w.vertexExists x.1 = true := by simp [vertexExists, hg]
      refine ⟨hv _ hex, fun y hy => ?_, fun y hy => ?_⟩
      · refine hpar x.1 y hex ?_
        simp [parentOf, hg, hy]
      · have hp := ((h.children x.1 x.2 hg).2 y).1 hy
        refine hv y ?_
        unfold vertexExists
        cases hgy : w.tree.get y with
        | some _ => rfl
        | none => simp [parentOf, hgy] at hp
    · obtain ⟨e, he, h1, h2, h3, h4⟩ := h.cross_edge c hc
      obtain ⟨r, k1, k2⟩ := hw.esrc e he
      obtain ⟨r', k3, k4⟩ := hw.etgt e he
      exact ⟨List.mem_map.2 ⟨r, k1, by rw [k2, h2]⟩, List.mem_map.2 ⟨r', k3, by rw [k4, h3]⟩, List.mem_map.2 ⟨e, he, h1⟩⟩
    · rw [h.root_eq] at hx; cases hx; exact hr
  exact ⟨hin.vertexIds, hin.edgeIds⟩

theorem empty_before {c : Cmd F E} {s s' : GS F E} (h : TreeInv s) (h' : TreeInv s') (hx : (exec c s).st? = some s') {p : Nat}
    (hp : p ∉ treeTargets [c]) (he : s'.views p = TreeView.empty) : s.views p = TreeView.empty := by
  have hn : p ∉ s'.subs := by
    intro hm
    have := (h'.subs.2 p).1 hm
    rw [he] at this; cases this
  by_cases hm : p ∈ s.subs
  · exfalso
    obtain ⟨root, hr⟩ := h.views.2 p hm
    have key : c.noView → False := fun hc => hn ((exec_safe hc hx).1 ▸ hm)
    cases c with
    | getTree f k q =>
      refine hn ?_
      simp only [exec, getTree] at hx
      split at hx
      · cases hx; exact hm
      · split at hx
        · cases hx
        · cases hx; exact hm
        · split at hx
          · unfold subscribeTreeView at hx
            split at hx
            · cases hx
            · cases hx; exact List.mem_append_left _ hm
          · cases hx; exact hm
    | unsubscribeView q =>
      simp only [exec, Res.st?, Option.some.injEq] at hx
      subst hx
      have : ((unsubscribeView q s).views p).root = (s.views p).root := by
        unfold unsubscribeView
        split
        · simp only [setView]; split
          · rename_i e; rw [e]
          · rfl
        · rfl
      rw [he, hr.root_eq] at this
      cases this
    | _ => exact key trivial
  · by_cases hc : c.notOn p
    · rw [← (exec_other_view hc hm hx).1]; exact he
    · cases c with
      | getTree f k q =>
        simp only [Cmd.notOn, ne_eq, not_not] at hc
        exact absurd (by simp [treeTargets, hc]) hp
      | unsubscribeView q =>
        simp only [Cmd.notOn, ne_eq, not_not] at hc
        subst hc
        simp only [exec, Res.st?, Option.some.injEq] at hx
        subst hx
        have hpub : ¬ (s.views q).publisher = true := fun hh => hm ((h.subs.2 q).2 hh)
        simp only [unsubscribeView, hpub] at he
        exact he
      | _ => exact absurd trivial hc

theorem targets_empty {cs : List (Cmd F E)} : ∀ {s : GS F E}, TreeInv s → TreeHistory cs s → ∀ p ∈ treeTargets cs,
    s.views p = TreeView.empty := by
  induction cs with
  | nil => intro s _ _ p hp; cases hp
  | cons c cs ih =>
    intro s h ht p hp
    by_cases h1 : p ∈ treeTargets [c]
    · cases c with
      | getTree f k q =>
        simp only [treeTargets, List.mem_singleton] at h1
        subst h1
        exact ht.1
      | _ => cases h1
    · rw [treeTargets_cons, List.mem_append] at hp
      obtain ⟨s', hx, h'⟩ := h.exec ht.1
      exact empty_before h h' hx h1 (ih h' (ht.cons hx) p (hp.resolve_left h1))

theorem forest_upToDate {cs : List (Cmd F E)} : ∀ {s : GS F E}, TreeInv s → Below s → TreeHistory cs s → RootsKept cs s → UpToDateAll cs s := by
  induction cs with
  | nil => intro s _ _ _ _; trivial
  | cons c cs ih =>
    intro s h hb ht hr
    refine ⟨fun p hp => ?_, fun s' hs' => ?_⟩
    · rcases hp with hp | hp
      · obtain ⟨root, hv⟩ := h.views.2 p hp
        exact isTreeView_upToDate h.wf hv (hr.1 p hp root hv.root_eq) (hb p).nodup
      · rw [targets_empty h ht p hp]
        exact ⟨fun x hx => (by cases hx), fun x hx => (by cases hx)⟩
    · have hx : (exec c s).st? = some s' := by rcases hs' with h | ⟨x, h⟩ <;> rw [h] <;> rfl
      obtain ⟨s1, h1, h2⟩ := h.exec ht.1
      rw [hx] at h1; cases h1
      exact ih h2 (exec_below h.wf hb hx) (ht.cons hx) (hr.2 s' hs')

end GS
end Verif
