import Verif.Model.Alias
import Verif.Lemmas.ItemRestore
set_option linter.unusedSectionVars false
/-! # Calls with references to names -/

namespace Verif
namespace EG
variable {E : Type} [EdgeProp E]

/-- the string is not in an item that only the graph holds -/
def Steady (held : ItemId → Bool) : NameRef → Prop
  | .item i => held i = true
  | _ => True

/-- the reference can be read and gives `f` -/
def Reads (held : ItemId → Bool) (ref : NameRef) (f : FrameId) (s : EG E) : Prop := ∀ tmp, readRef held tmp ref s = some f

theorem reads_of_steady {held : ItemId → Bool} {ref : NameRef} (hst : Steady held ref) {f : FrameId} {s : EG E} {tmp : Option ItemId}
    (h : readRef held tmp ref s = some f) : Reads held ref f s := by
  intro tmp'
  cases ref with
  | own g => exact h
  | vertex v => exact h
  | item i =>
    have : held i = true := hst
    simp only [readRef, this, true_or, if_true] at h ⊢
    exact h

theorem Reads.modFrame {held : ItemId → Bool} {ref : NameRef} (hst : Steady held ref) {f : FrameId} {s : EG E} (h : Reads held ref f s)
    {v : VId} {k : EFrame → EFrame} (hk : ∀ fr, (k fr).id = fr.id) : Reads held ref f (modFrame v k s) := by
  intro tmp
  have h0 := h tmp
  cases ref with
  | own g => exact h0
  | vertex u =>
    simp only [readRef, EG.modFrame, G.findV_modV, Option.map_map] at h0 ⊢
    rw [← h0]
    congr 1
    funext r
    simp only [Function.comp]
    split
    · exact hk _
    · rfl
  | item i =>
    have : held i = true := hst
    simp only [readRef, this, true_or, if_true] at h0 ⊢
    exact h0

theorem Reads.notify {held : ItemId → Bool} {ref : NameRef} {f : FrameId} {s : EG E} (h : Reads held ref f s) (ev : Event) :
    Reads held ref f (notify ev s) := by
  intro tmp
  have h0 := h tmp
  cases ref <;> exact h0

theorem clearListR_eq {held : ItemId → Bool} {ref : NameRef} (hst : Steady held ref) {f : FrameId} (v : VId) (t : TypeIdx)
    (l : List ItemId) : ∀ {s : EG E}, Reads held ref f s → clearListR held ref v t l s = .ok () (clearList f v t l s) ∧
      Reads held ref f (clearList f v t l s) := by
  induction l with
  | nil => intro s h; exact ⟨rfl, h⟩
  | cons i l ih =>
    intro s h
    have h1 : Reads held ref f (EG.modFrame v (EFrame.setList t l) s) := h.modFrame hst (fun _ => rfl)
    simp only [clearListR, clearList, h1 (some i)]
    exact ih (h1.notify _)

theorem clearTypesR_eq {held : ItemId → Bool} {ref : NameRef} (hst : Steady held ref) {f : FrameId} (v : VId)
    (m : AMap TypeIdx (List ItemId)) : ∀ {s : EG E}, Reads held ref f s → clearTypesR held ref v m s = .ok () (clearTypes f v m s) ∧
      Reads held ref f (clearTypes f v m s) := by
  induction m with
  | nil => intro s h; exact ⟨rfl, h⟩
  | cons p m ih =>
    obtain ⟨t, l⟩ := p
    intro s h
    have h1 := clearListR_eq hst v t l h
    simp only [clearTypesR, clearTypes, h1.1]
    exact ih (h1.2.modFrame hst (fun _ => rfl))

theorem clearFrameR_eq {held : ItemId → Bool} {ref : NameRef} (hst : Steady held ref) {f : FrameId} {s : EG E} (h : Reads held ref f s) :
    clearFrameR held ref s = clearFrame f s ∧ ∀ s', clearFrame f s = .ok () s' → Reads held ref f s' := by
  unfold clearFrameR clearFrame
  simp only [h none]
  cases hv : s.gs.g.vertexOf f with
  | none => exact ⟨rfl, fun s' hs' => by simp at hs'⟩
  | some v =>
    cases hr : s.gs.g.findV v with
    | none => simp only [hr]; exact ⟨trivial, fun s' hs' => by simp at hs'⟩
    | some r =>
      simp only [hr]
      have h1 := clearTypesR_eq hst v r.prop.items h
      refine ⟨h1.1, fun s' hs' => ?_⟩
      simp only [Res.ok.injEq, true_and] at hs'
      exact hs' ▸ h1.2

/-- The string is neither in a vertex nor in an item that only the graph holds. -/
def Outside (held : ItemId → Bool) : NameRef → Prop
  | .vertex _ => False
  | .item i => held i = true
  | .own _ => True

theorem Outside.steady {held : ItemId → Bool} {ref : NameRef} (h : Outside held ref) : Steady held ref := by
  cases ref <;> first | exact h | trivial

theorem baseRemoveFrameR_eq {held : ItemId → Bool} {ref : NameRef} (hst : Outside held ref) {f : FrameId} {s : EG E}
    (h : Reads held ref f s) : baseRemoveFrameR held ref s = base s.heap (GS.removeFrame f s.gs) := by
  unfold baseRemoveFrameR GS.removeFrame
  simp only [h none]
  cases hv : s.gs.g.vertexOf f with
  | none => rfl
  | some v =>
    by_cases hd : s.gs.g.degree v > 0
    · simp only [hd, if_true]; rfl
    · simp only [hd, if_false]
      have h0 := h none
      cases ref with
      | vertex u => exact hst.elim
      | own g =>
        simp only [readRef] at h0 ⊢
        cases h0
        rfl
      | item i =>
        have hh : held i = true := hst
        simp only [readRef, hh, true_or, if_true, Option.some.injEq] at h0 ⊢
        subst h0
        rfl

theorem removeFrameR_eq {held : ItemId → Bool} {ref : NameRef} (hst : Outside held ref) {f : FrameId} {s : EG E}
    (h : Reads held ref f s) : removeFrameR held ref s = removeFrame f s := by
  have h1 := clearFrameR_eq hst.steady h
  unfold removeFrameR removeFrame
  rw [h1.1]
  cases hc : clearFrame f s with
  | throw x s' => rfl
  | ub r => rfl
  | ok a s' => exact baseRemoveFrameR_eq hst (h1.2 s' hc)

/-- the string of the vertex itself: undefined behaviour if the vertex gets removed -/
theorem removeFrameR_vertex {held : ItemId → Bool} {v : VId} {f : FrameId} {s : EG E} (hw : WF s.gs.g) (hv : s.gs.g.vertexOf f = some v) :
    (∀ s', removeFrame f s = .ok () s' → ∃ r, removeFrameR held (.vertex v) s = .ub r) ∧
    (∀ x s', removeFrame f s = .throw x s' → removeFrameR held (.vertex v) s = .throw x s') ∧
    (∀ r, removeFrame f s ≠ .ub r) := by
  obtain ⟨r, hr, hid⟩ := hw.live_of_vertexOf hv
  have h : Reads held (.vertex v) f s := by intro tmp; simp [readRef, hr, hid]
  have h1 := clearFrameR_eq (held := held) (ref := .vertex v) trivial h
  obtain ⟨r', tr, -, h2, -⟩ := clearFrame_eq hw hv
  have h3 := h1.2 _ h2
  unfold removeFrameR removeFrame
  rw [h1.1, h2]
  simp only
  unfold baseRemoveFrameR GS.removeFrame
  simp only [h3 none, G.modV_vertexOf, hv]
  by_cases hd : (s.gs.g.modV v wipe).degree v > 0
  · simp only [hd, if_true]
    refine ⟨fun s' hs' => by simp [base] at hs', fun x s' hs' => ?_, fun r => by simp [base]⟩
    simpa [base] using hs'
  · simp only [hd, if_false]
    refine ⟨fun s' _ => ?_, fun x s' hs' => by simp [base] at hs', fun r => by simp [base]⟩
    have : readRef held none (.vertex v) ({ s with gs := { s.gs with g := { s.gs.g.modV v wipe with verts := (s.gs.g.modV v wipe).verts.filter (fun r => r.id ≠ v) }, trace := s.gs.trace ++ tr } } : EG E) = none := by
      simp only [readRef, Option.map_eq_none_iff, G.findV, List.find?_eq_none, List.mem_filter]
      rintro x ⟨_, hx⟩
      simpa using hx
    rw [this]
    exact ⟨_, rfl⟩

end EG
end Verif
