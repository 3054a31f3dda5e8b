import Verif.Props.C41
/-! # C41: exactly when the removal through an iterator is right -/

namespace Verif
open EG
variable {E : Type} [EdgeProp E]

/-- After every history, for every valid iterator: the call works as described exactly if the item knows the frame, and is not the last one of
several.  If the item does not know the frame, the assert is violated (EnvireGraph.hpp:376). -/
theorem C41_exact (heap : ItemId → ItemObj) (cs : List (Cmd E)) {s : EG E} (hs : run cs (init heap) = some s)
    {f : FrameId} {t : TypeIdx} {before after : List ItemId} {i : ItemId} (hl : getItems f t s = .ok (before ++ i :: after) s) :
    ((∃ s', removeItemAt f ⟨f, t, before.length⟩ s = .ok after s' ∧ getItemsT f t s' = .ok (before ++ after) s') ↔
      (s.heap i).frame = f ∧ (after ≠ [] ∨ before = [])) ∧
    ((s.heap i).frame ≠ f → ∃ r, removeItemAt f ⟨f, t, before.length⟩ s = .ub r) := by
  have hub : (s.heap i).frame ≠ f → ∃ r, removeItemAt f ⟨f, t, before.length⟩ s = .ub r := by
    intro hne
    unfold getItems at hl
    cases hv : s.gs.g.vertexOf f with
    | none => simp [hv] at hl
    | some v =>
      simp only [hv] at hl
      cases hr : s.gs.g.findV v with
      | none => simp [hr] at hl
      | some r =>
        simp only [hr] at hl
        cases hg : r.prop.items.get t with
        | none => simp [hg] at hl
        | some l0 =>
          simp only [hg, Res.ok.injEq, and_true] at hl
          subst hl
          have hlist : listOf f t s = some (before ++ i :: after) := by simp only [listOf, hv, hr, hg, Option.bind_some]
          have hidx : (before ++ i :: after)[before.length]? = some i := by simp
          refine ⟨"removeItemFromFrame: assert", ?_⟩
          unfold removeItemAt
          simp only [hv, hlist, Option.bind_some, hidx, ne_eq, hne, not_false_eq_true, if_true]
  refine ⟨⟨?_, ?_⟩, hub⟩
  · rintro ⟨s', h1, h2⟩
    have hfr : (s.heap i).frame = f := by
      by_contra hne
      obtain ⟨r, h⟩ := hub hne
      rw [h] at h1; cases h1
    refine ⟨hfr, ?_⟩
    by_cases ha : after = []
    · right
      subst ha
      obtain ⟨s'', h3, h4, -⟩ := C41_last_removes_all heap cs hs hl hfr
      rw [h3] at h1
      cases h1
      unfold getItems at h4
      unfold getItemsT at h2
      cases hv : s'.gs.g.vertexOf f with
      | none => simp [hv] at h2
      | some v =>
        cases hr : s'.gs.g.findV v with
        | none => simp [hv, hr] at h2
        | some r =>
          cases hg : r.prop.items.get t with
          | none => simpa [hv, hr, hg] using h2
          | some l => simp [hv, hr, hg] at h4
    · exact Or.inl ha
  · rintro ⟨hfr, hpos⟩
    obtain ⟨s', h1, h2, -⟩ := C41_remove_by_iterator_partial heap cs hs hl hfr hpos
    exact ⟨s', h1, h2⟩

/-- three items of type 7: the middle one can be removed, and after it was given another name it cannot -/
example : ∃ s s1 s2 : EG Int,
    run [.graph (.addFrame "a"), .addItemToFrame "a" 0, .addItemToFrame "a" 1, .addItemToFrame "a" 2] (init C41_heap) = some s ∧
    getItems "a" 7 s = .ok ([0] ++ 1 :: [2]) s ∧ removeItemAt "a" ⟨"a", 7, 1⟩ s = .ok [2] s1 ∧ getItemsT "a" 7 s1 = .ok [0, 2] s1 ∧
    run [.setItemFrame 1 "b"] s = some s2 ∧ removeItemAt "a" ⟨"a", 7, 1⟩ s2 = .ub "removeItemFromFrame: assert" :=
  ⟨_, _, _, rfl, rfl, rfl, rfl, rfl, rfl⟩

end Verif
