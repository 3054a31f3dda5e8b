import Verif.Lemmas.ItemChain
import Verif.Lemmas.Copy

set_option linter.unusedSectionVars false
set_option linter.unusedSimpArgs false
/-! Copies of graphs with items: dense indices, change of all frame properties. -/

namespace Verif
namespace EG
variable {E : Type} [EdgeProp E] {P : GS.Cmd EFrame E → Prop}

/-- no frame was removed -/
def NoneRemoved (s : EG E) : Prop := ∀ x ∈ s.gs.trace, x.1.isFrameRemoved = false

theorem Atom.dense {s s' : EG E} (h : Atom P s s') (hw : WF s.gs.g) (hr : s'.NoneRemoved) :
    s.NoneRemoved ∧ (s.gs.g.nextIdx = s.gs.g.verts.length → s'.gs.g.nextIdx = s'.gs.g.verts.length) := by
  cases h with
  | call hc hx =>
    obtain ⟨l, h1, h2⟩ := GS.exec_advances hw hx
    simp only [NoneRemoved, h2, List.mem_append] at hr
    exact ⟨fun x hx => hr x (Or.inl hx), fun hd => h1.dense (fun x hx => hr x (Or.inr hx)) hd⟩
  | mod v hid => exact ⟨hr, fun hd => by simpa [modFrame, G.modV] using hd⟩
  | heap hp => exact ⟨hr, id⟩
  | added f i => exact ⟨fun x hx => hr x (by simp [notify, GS.notify, hx]), id⟩
  | removed f i => exact ⟨fun x hx => hr x (by simp [notify, GS.notify, hx]), id⟩

theorem Chain.dense {s s' : EG E} (h : Chain P s s') (hw : WF s.gs.g) (hr : s'.NoneRemoved) :
    s.NoneRemoved ∧ (s.gs.g.nextIdx = s.gs.g.verts.length → s'.gs.g.nextIdx = s'.gs.g.verts.length) := by
  induction h with
  | refl => exact ⟨hr, id⟩
  | tail h1 h2 ih =>
    obtain ⟨a1, a2⟩ := h2.dense (Chain.wf h1 hw) hr
    obtain ⟨b1, b2⟩ := ih a1
    exact ⟨b1, fun hd => a2 (b2 hd)⟩

theorem Cmd.within_true (c : Cmd E) : c.within (fun _ => True) := by
  cases c <;> simp [Cmd.within]

theorem dense_of_run {cs : List (Cmd E)} {heap : ItemId → ItemObj} {s : EG E} (h : run cs (init heap) = some s)
    (hr : s.NoneRemoved) : s.gs.g.Dense := by
  have hc := run_chain (P := fun _ => True) (fun c _ => c.within_true) h
  have := (Chain.dense hc WF.empty hr).2 rfl
  intro r hr
  rw [← this]
  exact (hc.wf WF.empty).ilt r hr

end EG

/-- all frame properties changed -/
def G.modAll {F E : Type} (g : G F E) (h : F → F) : G F E :=
  { g with verts := g.verts.map (fun r => { r with prop := h r.prop }) }

theorem G.findV_modAll {F E : Type} (g : G F E) (h : F → F) (v : VId) :
    (g.modAll h).findV v = (g.findV v).map (fun r => { r with prop := h r.prop }) := by
  simp only [G.findV, G.modAll, List.find?_map]
  rfl

theorem AMap.get_filter_key {K V : Type} [DecidableEq K] (p : K → Bool) (k : K) : ∀ m : AMap K V,
    AMap.get (m.filter (fun e => p e.1)) k = if p k then AMap.get m k else none := by
  intro m
  induction m with
  | nil => simp
  | cons e m ih =>
    obtain ⟨a, b⟩ := e
    rw [List.filter_cons]
    split
    · rename_i h
      rw [AMap.get_cons, AMap.get_cons, ih]
      by_cases ha : a = k
      · subst ha; simp only at h; simp [h]
      · simp [ha]
    · rename_i h
      rw [ih, AMap.get_cons]
      by_cases ha : a = k
      · subst ha; simp only at h; simp [h]
      · simp [ha]

end Verif
