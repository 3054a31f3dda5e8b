import Verif.Lemmas.ItemCalls
import Verif.Lemmas.Publish
/-! # Item events of `publishCurrentState` and `unpublishCurrentState` -/

set_option linter.unusedSectionVars false

namespace Verif
open EG
variable {E : Type} [EdgeProp E]

theorem Mirror.replay_inert {l : List Event} (h : ∀ e ∈ l, (∃ f i, e = .itemAdded f i) ∨ ∃ f i, e = .itemRemoved f i) :
    ∀ m : Mirror, m.replay l = some m := by
  induction l with
  | nil => intro m; rfl
  | cons e l ih =>
    intro m
    have h1 := ih (fun x hx => h x (List.mem_cons_of_mem _ hx)) m
    rcases h e (List.mem_cons_self ..) with ⟨f, i, rfl⟩ | ⟨f, i, rfl⟩ <;> simpa [Mirror.replay, Mirror.apply] using h1

theorem Shelf.replay_added (f : FrameId) (l : List ItemId) : ∀ M : Shelf,
    M.replay (l.map (fun i => Event.itemAdded f i)) = M.put f (M f ++ l) := by
  induction l with
  | nil => intro M; funext x; simp [Shelf.replay, Shelf.put]; rintro rfl; rfl
  | cons i l ih =>
    intro M
    show Shelf.replay (M.put f (M f ++ [i])) _ = _
    rw [ih]
    funext x
    by_cases hx : x = f <;> simp [Shelf.put, hx]

/-- item events of a list of vertices with different names: each name gets the items of its vertex -/
theorem Shelf.replay_frames (rs : List (VRec EFrame)) (hn : (rs.map (fun r => r.prop.id)).Nodup) : ∀ M : Shelf,
    (∀ r ∈ rs, (M.replay (rs.flatMap (fun r => r.prop.visit.map (fun i => .itemAdded r.prop.id i)))) r.prop.id =
      M r.prop.id ++ r.prop.visit) ∧
    (∀ f, (∀ r ∈ rs, r.prop.id ≠ f) → (M.replay (rs.flatMap (fun r => r.prop.visit.map (fun i => .itemAdded r.prop.id i)))) f = M f) := by
  induction rs with
  | nil => intro M; exact ⟨by simp, fun _ _ => rfl⟩
  | cons r rs ih =>
    intro M
    rw [List.map_cons, List.nodup_cons] at hn
    have hnr : ∀ r' ∈ rs, r'.prop.id ≠ r.prop.id := fun r' hr' he => hn.1 (he ▸ List.mem_map.2 ⟨r', hr', rfl⟩)
    obtain ⟨i1, i2⟩ := ih hn.2 (M.put r.prop.id (M r.prop.id ++ r.prop.visit))
    rw [List.flatMap_cons, Shelf.replay_append, Shelf.replay_added]
    constructor
    · intro r' hr'
      rcases List.mem_cons.1 hr' with rfl | hr'
      · rw [i2 _ hnr]; simp [Shelf.put]
      · rw [i1 r' hr']; simp [Shelf.put, hnr r' hr']
    · intro f hf
      rw [i2 f (fun r' hr' => hf r' (List.mem_cons_of_mem _ hr'))]
      have : f ≠ r.prop.id := fun h => hf r (List.mem_cons_self ..) h.symm
      simp [Shelf.put, this]

theorem Shelf.replay_rmFrames (rs : List (VRec EFrame)) (hn : (rs.map (fun r => r.prop.id)).Nodup) : ∀ M : Shelf,
    (∀ r ∈ rs, r.prop.visit.Perm (M r.prop.id) →
      (M.replay (rs.flatMap (fun r => r.prop.visit.map (fun i => .itemRemoved r.prop.id i)))) r.prop.id = []) ∧
    (∀ f, (∀ r ∈ rs, r.prop.id ≠ f) → (M.replay (rs.flatMap (fun r => r.prop.visit.map (fun i => .itemRemoved r.prop.id i)))) f = M f) := by
  induction rs with
  | nil => intro M; exact ⟨by simp, fun _ _ => rfl⟩
  | cons r rs ih =>
    intro M
    rw [List.map_cons, List.nodup_cons] at hn
    have hnr : ∀ r' ∈ rs, r'.prop.id ≠ r.prop.id := fun r' hr' he => hn.1 (he ▸ List.mem_map.2 ⟨r', hr', rfl⟩)
    obtain ⟨i1, i2⟩ := ih hn.2 (M.put r.prop.id (r.prop.visit.foldl List.erase (M r.prop.id)))
    rw [List.flatMap_cons, Shelf.replay_append, Shelf.replay_removed]
    constructor
    · intro r' hr' hp
      rcases List.mem_cons.1 hr' with rfl | hr'
      · rw [i2 _ hnr]; simp [Shelf.put, foldl_erase_perm hp]
      · exact i1 r' hr' (by simpa [Shelf.put, hnr r' hr'] using hp)
    · intro f hf
      rw [i2 f (fun r' hr' => hf r' (List.mem_cons_of_mem _ hr'))]
      have : f ≠ r.prop.id := fun h => hf r (List.mem_cons_self ..) h.symm
      simp [Shelf.put, this]

theorem EG.visitItems_iff {s : EG E} (hw : WF s.gs.g) {f : FrameId} {l : List ItemId} :
    visitItems f s = .ok l s ↔ ∃ r ∈ s.gs.g.verts, r.prop.id = f ∧ r.prop.visit = l := by
  simp only [visitItems, readFrame]
  cases hv : s.gs.g.vertexOf f with
  | none =>
    simp only [reduceCtorEq, false_iff]
    rintro ⟨r, hr, h, -⟩
    rw [hw.vertexOf_iff.2 ⟨r, hr, rfl, h⟩] at hv; cases hv
  | some v =>
    obtain ⟨r, hr, h⟩ := hw.live_of_vertexOf hv
    simp only [hr, Res.ok.injEq, and_true]
    constructor
    · rintro rfl; exact ⟨r, (G.findV_some hr).1, h, rfl⟩
    · rintro ⟨r', hr', h1, rfl⟩
      have := hw.vertexOf_iff.2 ⟨r', hr', rfl, h1⟩
      rw [hv] at this
      obtain rfl := Option.some.inj this
      have := hw.findV_iff.2 ⟨hr', rfl⟩
      rw [this] at hr
      rw [Option.some.inj hr]

end Verif
