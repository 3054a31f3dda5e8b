import Verif.Lemmas.ItemChain

set_option linter.unusedSectionVars false
set_option linter.unusedSimpArgs false
/-! Histories keep the item lists tidy, also those that remove through iterators or bring in filled frames. -/

namespace Verif
namespace EG
open GS
variable {E : Type} [EdgeProp E] {ty : ItemId → TypeIdx}

/-- The call does not bring in a frame with a type entry that is empty or doubled. -/
def Cmd.tidy : Cmd E → Prop
  | .graph (.emplaceFrame _ p) => p.Tidy
  | _ => True

theorem removeItemAt_good {f : FrameId} {it : ItemIt} {s s' : EG E} (hg : EG.Good ty s)
    (h : (removeItemAt f it s).st? = some s') : EG.Good ty s' := by
  have hw := (removeItemAt_chain (P := fun _ => True) h).wf hg.wf
  unfold removeItemAt at h
  split at h
  · simp only [Res.st?, Option.some.injEq] at h; subst h; exact hg
  · rename_i v hv
    split at h
    · simp [Res.st?] at h
    · rename_i i hi
      split at h
      · simp [Res.st?] at h
      · split at h
        · simp only [Res.st?, Option.some.injEq] at h; subst h; exact hg
        · rename_i l hl
          split at h
          · simp [Res.st?] at h
          · simp only [Res.st?, Option.some.injEq] at h; subst h
            refine ⟨hw, ?_, ?_⟩
            · split
              · rename_i hrest
                show AllTidy ((s.gs.g.modV v (EFrame.setList it.type (l.eraseIdx it.pos))).modV v (EFrame.eraseType it.type))
                rw [G.modV_modV]
                refine hg.tidy.modV fun r _ _ hT => ?_
                have : (EFrame.eraseType it.type ∘ EFrame.setList it.type (l.eraseIdx it.pos)) r.prop = r.prop.eraseType it.type := by
                  simp only [Function.comp, EFrame.eraseType, EFrame.setList, EFrame.erase_set]
                rw [this]
                exact hT.eraseType _
              · rename_i hrest
                refine hg.tidy.modV (k := EFrame.setList it.type (l.eraseIdx it.pos)) fun r _ _ hT => hT.setList ?_
                intro h0
                exact hrest (by rw [h0]; simp)
            · intro j
              split <;> exact (setItemFrame_type _ _ _ _).trans (hg.types j)

theorem emplaceFrame_good {f : FrameId} {p : EFrame} (hp : p.Tidy) {s s' : EG E} (hg : EG.Good ty s)
    (h : (base s.heap (GS.exec (.emplaceFrame f p) s.gs)).st? = some s') : EG.Good ty s' := by
  have hw := (base_chain (P := fun _ => True) trivial h).wf hg.wf
  cases hv : s.gs.g.vertexOf f with
  | some v =>
    simp only [GS.exec, emplaceFrame, hv, GS.discard, base, Res.st?, Option.some.injEq] at h
    subst h; exact hg
  | none =>
    simp only [GS.exec, emplaceFrame, hv, GS.discard, base, Res.st?, Option.some.injEq] at h
    subst h
    refine ⟨hw, ?_, hg.types⟩
    intro r hr
    simp only [addVertexN, GS.notify, G.addVertex] at hr
    split at hr
    · exact hg.tidy r hr
    · rcases List.mem_append.1 hr with hr | hr
      · exact hg.tidy r hr
      · simp only [List.mem_singleton] at hr
        subst hr; exact ⟨hp.nodup, hp.full⟩

theorem exec_good {c : Cmd E} (hc : c.tidy) {s s' : EG E} (hg : EG.Good ty s) (h : (exec c s).st? = some s') :
    EG.Good ty s' := by
  cases c with
  | graph c =>
    cases c with
    | emplaceFrame f p => exact emplaceFrame_good hc hg h
    | removeFrame f => exact (exec_follows (c := .graph (.removeFrame f)) trivial hg h).1
    | addFrame f => exact (exec_follows (c := .graph (.addFrame f)) trivial hg h).1
    | disconnectFrame f => exact (exec_follows (c := .graph (.disconnectFrame f)) trivial hg h).1
    | addEdge o t p => exact (exec_follows (c := .graph (.addEdge o t p)) trivial hg h).1
    | removeEdge o t => exact (exec_follows (c := .graph (.removeEdge o t)) trivial hg h).1
    | setEdge o t p => exact (exec_follows (c := .graph (.setEdge o t p)) trivial hg h).1
    | getTree f k p => exact (exec_follows (c := .graph (.getTree f k p)) trivial hg h).1
    | unsubscribeView p => exact (exec_follows (c := .graph (.unsubscribeView p)) trivial hg h).1
  | addItem i => exact (exec_follows (c := .addItem i) trivial hg h).1
  | addItemToFrame f i => exact (exec_follows (c := .addItemToFrame f i) trivial hg h).1
  | removeItem i => exact (exec_follows (c := .removeItem i) trivial hg h).1
  | removeItemAt f it => exact removeItemAt_good hg (by simpa only [exec, GS.st?_discard] using h)
  | clearFrame f => exact (exec_follows (c := .clearFrame f) trivial hg h).1
  | clear => exact (exec_follows (c := .clear) trivial hg h).1
  | setItemFrame i f => exact (exec_follows (c := .setItemFrame i f) trivial hg h).1

theorem run_good {cs : List (Cmd E)} (hcs : ∀ c ∈ cs, c.tidy) : ∀ {s s' : EG E}, EG.Good ty s → run cs s = some s' →
    EG.Good ty s' := by
  induction cs with
  | nil =>
    intro s s' hg h
    simp only [run, Option.some.injEq] at h
    subst h; exact hg
  | cons c cs ih =>
    intro s s' hg h
    obtain ⟨s1, h1, h2⟩ := run_cons h
    exact ih (fun c hc => hcs c (by simp [hc])) (exec_good (hcs c (by simp)) hg h1) h2

end EG
end Verif
