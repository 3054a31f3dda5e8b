import Verif.Lemmas.ItemNames
import Verif.Spec.Demo
/-! # C48: an item knows the frame it is in -/

namespace Verif
open EG
variable {E : Type} [EdgeProp E]

/-- The property fails: an item added to two frames carries the name of the last one only; removing it by pointer takes it out of
that frame and the other frame then holds an item without frame name. -/
theorem C48_two_frames_fails : ∃ s s' : EG Int,
    EG.run [.graph (.addFrame "a"), .graph (.addFrame "b"), .addItemToFrame "a" 0, .addItemToFrame "b" 0]
      (EG.init (fun _ => ⟨7, ""⟩)) = some s ∧
    visitItems "a" s = .ok [0] s ∧ (s.heap 0).frame = "b" ∧
    removeItem 0 s = .ok () s' ∧ visitItems "a" s' = .ok [0] s' ∧ (s'.heap 0).frame = "" :=
  ⟨_, _, rfl, rfl, rfl, rfl, rfl, rfl⟩

/-- The caller adds items and sets their frame name only while they are in no frame, and creates frames without items. -/
def C48_careful : List (EG.Cmd E) → EG E → Prop
  | [], _ => True
  | c :: cs, s =>
    (∀ i f, (c = .addItem i ∨ c = .addItemToFrame f i ∨ c = .setItemFrame i f) → ∀ x l, visitItems x s = .ok l s → i ∉ l) ∧
    (∀ f p, c = .graph (.emplaceFrame f p) → p.items = []) ∧
    ∀ s', (EG.exec c s).st? = some s' → C48_careful cs s'

/-- Missing compared to C48: histories in which an item is added to a second frame, or renamed by hand while it is in one.  In all
other histories, removal through iterators, exceptions, self edges and views included, every item in a frame carries the name of the
frame, so it is in no other frame, and it is listed once. -/
theorem C48_knows_frame_partial (heap : ItemId → ItemObj) (cs : List (EG.Cmd E)) (hcs : C48_careful cs (EG.init heap)) {s : EG E}
    (hs : EG.run cs (EG.init heap) = some s) {f : FrameId} {l : List ItemId} (hl : visitItems f s = .ok l s) :
    l.Nodup ∧ ∀ i ∈ l, (s.heap i).frame = f ∧ ∀ f' l', visitItems f' s = .ok l' s → i ∈ l' → f' = f := by
  have hrun : ∀ (cs : List (EG.Cmd E)) (s0 s : EG E), Named s0 → C48_careful cs s0 → EG.run cs s0 = some s → Named s := by
    intro cs
    induction cs with
    | nil =>
      intro s0 s h _ hr
      simp only [EG.run, Option.some.injEq] at hr
      subst hr; exact h
    | cons c cs ih =>
      intro s0 s h hc hr
      obtain ⟨s1, h1, h2⟩ := run_cons hr
      exact ih s1 s (h.exec hc.1 hc.2.1 h1) (hc.2.2 s1 h1) h2
  have hN := hrun cs _ s ⟨WF.empty, by simp [EG.init, GS.init, G.empty], by simp [EG.init, GS.init, G.empty]⟩ hcs hs
  have key : ∀ {f l}, visitItems f s = .ok l s → l.Nodup ∧ ∀ i ∈ l, (s.heap i).frame = f := by
    intro f l hl
    cases hv : s.gs.g.vertexOf f with
    | none => simp [visitItems, readFrame, hv] at hl
    | some v =>
      obtain ⟨r, hr, hid⟩ := hN.wf.live_of_vertexOf hv
      simp only [visitItems, readFrame, hv, hr, Res.ok.injEq, and_true] at hl
      subst hl
      exact ⟨hN.nodup r (G.findV_some hr).1, fun i hi => (hN.name r (G.findV_some hr).1 i hi).trans hid⟩
  refine ⟨(key hl).1, fun i hi => ⟨(key hl).2 i hi, fun f' l' hl' hi' => ?_⟩⟩
  rw [← (key hl).2 i hi, (key hl').2 i hi']

/-- An item that was removed by pointer has no frame name until a call adds it or sets its name.  No restriction on the history. -/
theorem C48_removed_has_no_name (s s1 s2 : EG E) (i : ItemId) (hr : removeItem i s = .ok () s1) (ds : List (EG.Cmd E))
    (hds : ∀ c ∈ ds, ∀ f, c ≠ .addItem i ∧ c ≠ .addItemToFrame f i ∧ c ≠ .setItemFrame i f) (h2 : EG.run ds s1 = some s2) :
    (s2.heap i).frame = "" := by
  have h1 : (s1.heap i).frame = "" := by
    unfold removeItem at hr
    simp only at hr
    split at hr
    · cases hr
    · split at hr
      · cases hr
      · split at hr
        · cases hr
        · split at hr
          · simp only [Res.ok.injEq, true_and] at hr
            subst hr
            split <;> simp [notify, setItemFrame, modFrame]
          · cases hr
  clear hr s
  induction ds generalizing s1 with
  | nil =>
    simp only [EG.run, Option.some.injEq] at h2
    subst h2; exact h1
  | cons c ds ih =>
    obtain ⟨s', e1, e2⟩ := run_cons h2
    refine ih s' (fun c hc => hds c (by simp [hc])) e2 ?_
    by_cases hi : c.item s1 = some i
    · have hc := hds c (by simp)
      cases c with
      | graph c => simp [Cmd.item] at hi
      | addItem j => simp only [Cmd.item, Option.some.injEq] at hi; subst hi; exact absurd rfl (hc "").1
      | addItemToFrame f j => simp only [Cmd.item, Option.some.injEq] at hi; subst hi; exact absurd rfl (hc f).2.1
      | setItemFrame j f => simp only [Cmd.item, Option.some.injEq] at hi; subst hi; exact absurd rfl (hc f).2.2
      | clearFrame f => simp [Cmd.item] at hi
      | clear => simp [Cmd.item] at hi
      | removeItem j =>
        simp only [Cmd.item, Option.some.injEq] at hi
        subst hi
        simp only [EG.exec, removeItem] at e1
        split at e1
        · simp only [Res.st?, Option.some.injEq] at e1; subst e1; exact h1
        · split at e1
          · simp [Res.st?] at e1
          · split at e1
            · simp only [Res.st?, Option.some.injEq] at e1; subst e1; exact h1
            · split at e1
              · simp only [Res.st?, Option.some.injEq] at e1; subst e1
                split <;> simp [notify, setItemFrame, modFrame]
              · simp only [Res.st?, Option.some.injEq] at e1; subst e1; exact h1
      | removeItemAt f it =>
        simp only [Cmd.item] at hi
        simp only [EG.exec, GS.st?_discard, removeItemAt] at e1
        split at e1
        · simp only [Res.st?, Option.some.injEq] at e1; subst e1; exact h1
        · split at e1
          · simp [Res.st?] at e1
          · rename_i j hj
            rw [hj] at hi
            simp only [Option.some.injEq] at hi
            subst hi
            split at e1
            · simp [Res.st?] at e1
            · split at e1
              · simp only [Res.st?, Option.some.injEq] at e1; subst e1; exact h1
              · split at e1
                · simp [Res.st?] at e1
                · simp only [Res.st?, Option.some.injEq] at e1; subst e1
                  split <;> simp [notify, setItemFrame, modFrame]
    · rw [exec_heap e1 hi]; exact h1

/-- An item taken out by `clearFrame` keeps the name of the frame. -/
theorem C48_cleared_keeps_name (s s' : EG E) (f : FrameId) (h : clearFrame f s = .ok () s') : s'.heap = s.heap :=
  clearFrame_heap (by rw [h]; rfl)

/-- a careful history -/
example : ∃ s : EG Int,
    EG.run [.graph (.addFrame "a"), .graph (.addFrame "b"), .addItemToFrame "a" 0, .addItemToFrame "b" 1, .removeItem 0,
      .addItemToFrame "b" 0] (EG.init (fun _ => ⟨7, ""⟩)) = some s ∧
    visitItems "b" s = .ok [1, 0] s ∧ (s.heap 0).frame = "b" ∧ (s.heap 1).frame = "b" := ⟨_, rfl, rfl, rfl, rfl⟩

/-- the careful condition can be met: item 0 is in no frame when it is added -/
example : C48_careful (E := Int) [.graph (.addFrame "a"), .addItemToFrame "a" 0] (EG.init (fun _ => ⟨7, ""⟩)) := by
  refine ⟨by simp, by simp, fun s1 h1 => ⟨?_, by simp, fun s2 _ => trivial⟩⟩
  have : s1 = ⟨(GS.addVertexN "a" ⟨"a", []⟩ GS.init).1, fun _ => ⟨7, ""⟩⟩ := (Option.some.inj h1).symm
  subst this
  intro i f hi x l hl hil
  have hst := (stored_iff (s := (⟨(GS.addVertexN "a" ⟨"a", []⟩ GS.init).1, fun _ => ⟨7, ""⟩⟩ : EG Int))
    (WF.empty.addVertex rfl)).2 ⟨x, l, hl, hil⟩
  obtain ⟨r, hr, hi⟩ := hst
  have : r = ⟨0, 0, ⟨"a", []⟩⟩ := List.mem_singleton.1 hr
  subst this
  simp [EFrame.visit] at hi

example : ∃ s s1 s2 : EG Int,
    EG.run [.graph (.addFrame "a"), .addItemToFrame "a" 0] (EG.init (fun _ => ⟨7, "x"⟩)) = some s ∧ removeItem 0 s = .ok () s1 ∧
    EG.run [.clear, .removeItem 0, .graph (.addFrame "b")] s1 = some s2 ∧ (s2.heap 0).frame = "" :=
  ⟨_, _, _, rfl, rfl, rfl, rfl⟩

example : ∃ s s' : EG Int,
    EG.run [.graph (.addFrame "a"), .addItemToFrame "a" 0] (EG.init (fun _ => ⟨7, "x"⟩)) = some s ∧ clearFrame "a" s = .ok () s' ∧
    visitItems "a" s' = .ok [] s' ∧ (s'.heap 0).frame = "a" := ⟨_, _, rfl, rfl, rfl, rfl⟩

end Verif
