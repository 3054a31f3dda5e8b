import Verif.Lemmas.FollowSelf
/-! # Lemmas: building a view does not depend on its publisher and its signals -/

namespace Verif
open GS TreeView
variable {F E : Type} [FrameProp F] [EdgeProp E]

/-- the view without its record of emitted signals and with a given publisher -/
def TreeView.mute (b : Bool) (w : TreeView) : TreeView := { w with signals := [], publisher := b }

theorem TreeView.mute_buildStep (b : Bool) (w : TreeView) (e : BfsEv) : ((w.mute b).buildStep e).mute b = (w.buildStep e).mute b := by
  cases e <;> rfl

theorem TreeView.mute_build (b : Bool) : ∀ (evs : List BfsEv) (w : TreeView), ((w.mute b).build evs).mute b = (w.build evs).mute b := by
  intro evs
  induction evs with
  | nil => intro w; rfl
  | cons e evs ih =>
    intro w
    show (((w.mute b).buildStep e).build evs).mute b = ((w.buildStep e).build evs).mute b
    rw [← ih, mute_buildStep, ih]

theorem IsTreeViewLoops.of_mute {g : G F E} {root : VId} {w w' : TreeView} (h : IsTreeViewLoops g root w) (h1 : w'.tree = w.tree)
    (h2 : w'.crossEdges = w.crossEdges) (h3 : w'.root = w.root) : IsTreeViewLoops g root w' := by
  refine ⟨h.view.of_view h1 (by simp only [h2]) h3, ?_, ?_⟩
  · rw [h2]; exact h.loops_le
  · rw [h2]
    simp only [TreeView.vertexExists, h1]
    exact h.loops_pos

end Verif
