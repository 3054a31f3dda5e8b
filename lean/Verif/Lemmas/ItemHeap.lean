import Verif.Lemmas.ItemNames
import Verif.Model.TwoGraphs

set_option linter.unusedSectionVars false
set_option linter.unusedSimpArgs false
/-! How far a call depends on the items. -/

namespace Verif

/-- change the state of a result -/
def Res.mapS {S T α : Type} (f : S → T) : Res S α → Res T α
  | .ok a s => .ok a (f s)
  | .throw x s => .throw x (f s)
  | .ub m => .ub m

namespace EG
variable {E : Type} [EdgeProp E]

/-- the same graph with other items -/
def withHeap (h : ItemId → ItemObj) (s : EG E) : EG E := ⟨s.gs, h⟩

theorem base_withHeap {α : Type} (h h' : ItemId → ItemObj) (x : Res (GS EFrame E) α) : base h x = (base h' x).mapS (withHeap h) := by
  cases x <;> rfl

theorem clearList_withHeap (h : ItemId → ItemObj) (f : FrameId) (v : VId) (t : TypeIdx) (l : List ItemId) : ∀ s : EG E,
    clearList f v t l (withHeap h s) = withHeap h (clearList f v t l s) := by
  induction l with
  | nil => intro s; rfl
  | cons i l ih => intro s; simp only [clearList]; rw [← ih]; rfl

theorem clearTypes_withHeap (h : ItemId → ItemObj) (f : FrameId) (v : VId) (m : AMap TypeIdx (List ItemId)) : ∀ s : EG E,
    clearTypes f v m (withHeap h s) = withHeap h (clearTypes f v m s) := by
  induction m with
  | nil => intro s; rfl
  | cons p m ih =>
    obtain ⟨t, l⟩ := p
    intro s
    simp only [clearTypes]
    rw [← ih, clearList_withHeap]; rfl

theorem clearFrame_withHeap (h : ItemId → ItemObj) (f : FrameId) (s : EG E) :
    clearFrame f (withHeap h s) = (clearFrame f s).mapS (withHeap h) := by
  unfold clearFrame
  simp only [withHeap]
  split
  · rfl
  · split
    · rfl
    · rename_i r _
      simp only [Res.mapS]
      congr 1
      exact clearTypes_withHeap h _ _ _ s

theorem removeFrame_withHeap (h : ItemId → ItemObj) (f : FrameId) (s : EG E) :
    removeFrame f (withHeap h s) = (removeFrame f s).mapS (withHeap h) := by
  unfold removeFrame
  rw [clearFrame_withHeap]
  cases clearFrame f s with
  | ok u s' => exact base_withHeap _ _ _
  | throw x s' => rfl
  | ub m => rfl

theorem forFrames_withHeap (h : ItemId → ItemObj) {call : FrameId → EG E → Res (EG E) Unit}
    (hc : ∀ f s, call f (withHeap h s) = (call f s).mapS (withHeap h)) (fs : List FrameId) : ∀ s : EG E,
    forFrames call fs (withHeap h s) = (forFrames call fs s).mapS (withHeap h) := by
  induction fs with
  | nil => intro s; rfl
  | cons f fs ih =>
    intro s
    simp only [forFrames, hc]
    cases call f s with
    | ok u s' => exact ih s'
    | throw x s' => rfl
    | ub m => rfl

theorem clear_withHeap (h : ItemId → ItemObj) (s : EG E) : EG.clear (withHeap h s) = (EG.clear s).mapS (withHeap h) := by
  unfold EG.clear
  simp only
  have h1 := forFrames_withHeap h (call := fun f (s : EG E) => base s.heap (GS.disconnectFrame f s.gs))
    (fun f s => base_withHeap _ _ _) (s.gs.g.verts.map (fun r => FrameProp.getId r.prop)) s
  have h2 : (withHeap h s).gs = s.gs := rfl
  rw [h2, h1]
  cases forFrames (fun f (s : EG E) => base s.heap (GS.disconnectFrame f s.gs)) (s.gs.g.verts.map (fun r => FrameProp.getId r.prop)) s with
  | ok u s' => exact forFrames_withHeap h (removeFrame_withHeap h) _ s'
  | throw x s' => rfl
  | ub m => rfl

/-- what the caller of a graph can see: exception and graph; `none` = undefined behaviour -/
def view {α : Type} : Res (EG E) α → Option (Option Exn × GS EFrame E)
  | .ok _ s => some (none, s.gs)
  | .throw x s => some (some x, s.gs)
  | .ub _ => none

theorem view_mapS {α : Type} (h : ItemId → ItemObj) (x : Res (EG E) α) : view (x.mapS (withHeap h)) = view x := by
  cases x <;> rfl

theorem view_base {α : Type} (h h' : ItemId → ItemObj) (x : Res (GS EFrame E) α) : view (base h x) = view (base h' x) := by
  cases x <;> rfl

theorem view_discard {α : Type} (x : Res (EG E) α) : view (GS.discard x) = view x := by cases x <;> rfl

/-- A call depends on the items only through the item that it is about. -/
theorem exec_view {c : Cmd E} {s : EG E} {h : ItemId → ItemObj} (hc : ∀ i, c.item s = some i → h i = s.heap i) :
    view (exec c (withHeap h s)) = view (exec c s) := by
  cases c with
  | graph c =>
    cases c with
    | removeFrame f => simp only [exec, removeFrame_withHeap, view_mapS]
    | emplaceFrame f p => exact view_base _ _ _
    | addFrame f => exact view_base _ _ _
    | disconnectFrame f => exact view_base _ _ _
    | addEdge o t p => exact view_base _ _ _
    | removeEdge o t => exact view_base _ _ _
    | setEdge o t p => exact view_base _ _ _
    | getTree f k p => exact view_base _ _ _
    | unsubscribeView p => exact view_base h s.heap (GS.exec (.unsubscribeView p) s.gs)
  | addItem i =>
    have := hc i rfl
    simp only [exec, addItem, addItemToFrame, withHeap, this]
    split <;> rfl
  | addItemToFrame f i =>
    have := hc i rfl
    simp only [exec, addItemToFrame, withHeap, this]
    split <;> rfl
  | removeItem i =>
    have := hc i rfl
    simp only [exec, removeItem, withHeap, this]
    split
    · rfl
    · split
      · rfl
      · split
        · rfl
        · split
          · simp only [view]
            split <;> rfl
          · rfl
  | removeItemAt f it =>
    simp only [exec, view_discard]
    have hl : ∀ f t, listOf f t (withHeap h s) = listOf f t s := fun _ _ => rfl
    unfold removeItemAt
    simp only [hl]
    simp only [withHeap]
    split
    · rfl
    · cases hi : (listOf it.frame it.type s).bind (fun l => l[it.pos]?) with
      | none => rfl
      | some i =>
        have := hc i hi
        simp only [this]
        split
        · rfl
        · split
          · rfl
          · split
            · rfl
            · simp only [view]
              split <;> rfl
  | clearFrame f => simp only [exec, clearFrame_withHeap, view_mapS]
  | clear => simp only [exec, clear_withHeap, view_mapS]
  | setItemFrame i f => rfl

end EG
end Verif
