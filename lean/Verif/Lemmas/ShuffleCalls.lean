import Verif.Lemmas.ShuffleRemove
import Verif.Lemmas.Steps
set_option linter.unusedSectionVars false
/-! The calls of the graph on views that differ only in the order of the children. -/

namespace Verif
namespace GS
open TreeView (ShuffleUB Tidy)
variable {F E : Type} [FrameProp F] [EdgeProp E]

theorem Shuffle.refl (s : GS F E) : Shuffle s s := ⟨rfl, rfl, rfl, fun _ => .refl _⟩
theorem Shuffle.symm {s s' : GS F E} (h : Shuffle s s') : Shuffle s' s :=
  ⟨h.g.symm, h.subs.symm, h.trace.symm, fun p => (h.views p).symm⟩
theorem Shuffle.trans {a b c : GS F E} (h : Shuffle a b) (k : Shuffle b c) : Shuffle a c :=
  ⟨k.g.trans h.g, k.subs.trans h.subs, k.trace.trans h.trace, fun p => (h.views p).trans (k.views p)⟩

/-- shuffled view objects -/
def ShuffleV (vs vs' : Nat → TreeView) : Prop := ∀ p, (vs p).Shuffle (vs' p)

theorem ShuffleV.set {vs vs' : Nat → TreeView} (h : ShuffleV vs vs') (p : Nat) {w w' : TreeView} (hw : w.Shuffle w') :
    ShuffleV (setView vs p w) (setView vs' p w') := by
  intro q; unfold setView; split
  · exact hw
  · exact h q

/-- the same outcome up to the order of the children -/
inductive SameW : Res TreeView Unit → Res TreeView Unit → Prop
  | ok {w w'} : w.Shuffle w' → SameW (.ok () w) (.ok () w')
  | throw {x w w'} : w.Shuffle w' → SameW (.throw x w) (.throw x w')
  | ub {m} : SameW (.ub m) (.ub m)

inductive SameV : Res (Nat → TreeView) Unit → Res (Nat → TreeView) Unit → Prop
  | ok {w w'} : ShuffleV w w' → SameV (.ok () w) (.ok () w')
  | throw {x w w'} : ShuffleV w w' → SameV (.throw x w) (.throw x w')
  | ub {m} : SameV (.ub m) (.ub m)

theorem addEdgeToTreeView_shuffle (g : G F E) (e : ERec E) {w w' : TreeView} (h : w.Shuffle w') :
    SameW (addEdgeToTreeView g e w) (addEdgeToTreeView g e w') := by
  have att : ∀ a b, SameW (addEdgeToTreeView.attach g w a b) (addEdgeToTreeView.attach g w' a b) := by
    intro a b
    have h1 := h.addEdge a b
    unfold addEdgeToTreeView.attach
    simp only
    split
    · split
      · split
        · exact .ub
        · exact .ok (.build _ h1)
      · exact .throw h1
    · exact .ok h1
  unfold addEdgeToTreeView
  simp only [h.vertexExists, h.edgeExists]
  split
  · split
    · exact .ub
    · exact .ok h
    · exact .ok (h.addCrossEdge _ _ _)
  · split
    · exact att _ _
    · split
      · exact att _ _
      · exact .ok h

theorem addEdgeToTreeViews_shuffle (g : G F E) (e : ERec E) (ps : List Nat) : ∀ {vs vs' : Nat → TreeView}, ShuffleV vs vs' →
    SameV (addEdgeToTreeViews g e ps vs) (addEdgeToTreeViews g e ps vs') := by
  induction ps with
  | nil => intro vs vs' h; exact .ok h
  | cons p ps ih =>
    intro vs vs' h
    simp only [addEdgeToTreeViews]
    have h1 := addEdgeToTreeView_shuffle g e (h p)
    generalize addEdgeToTreeView g e (vs p) = r1 at h1
    generalize addEdgeToTreeView g e (vs' p) = r2 at h1
    cases h1 with
    | ok hw => exact ih (h.set p hw)
    | throw hw => exact .throw (h.set p hw)
    | ub => exact .ub

/-- like `SameV`, unless one has undefined behaviour; the views `ps` stay tidy -/
inductive SameUV (ps : List Nat) : Res (Nat → TreeView) Unit → Res (Nat → TreeView) Unit → Prop
  | ok {w w'} : ShuffleV w w' → (∀ p ∈ ps, (w p).Tidy) → SameUV ps (.ok () w) (.ok () w')
  | throw {x w w'} : ShuffleV w w' → (∀ p ∈ ps, (w p).Tidy) → SameUV ps (.throw x w) (.throw x w')
  | left {m r} : SameUV ps (.ub m) r
  | right {m r} : SameUV ps r (.ub m)

theorem removeEdgeFromTreeViews_shuffle (o t : VId) (qs ps : List Nat) (hq : ∀ p ∈ ps, p ∈ qs) : ∀ {vs vs' : Nat → TreeView}, ShuffleV vs vs' →
    (∀ p ∈ qs, (vs p).Tidy) → SameUV qs (removeEdgeFromTreeViews o t ps vs) (removeEdgeFromTreeViews o t ps vs') := by
  induction ps with
  | nil => intro vs vs' h k; exact .ok h k
  | cons p ps ih =>
    intro vs vs' h k
    replace ih := @ih (fun q h => hq q (by simp [h]))
    simp only [removeEdgeFromTreeViews]
    rw [(h p).edgeExists]
    cases he : (vs p).edgeExists o t with
    | none => exact .left
    | some b =>
      cases b with
      | false => exact ih h k
      | true =>
        simp only
        have h1 := TreeView.removeEdge_shuffle (h p) (k p (hq p (by simp))) (TreeView.edgeExists_treeEdge he)
        generalize (vs p).removeEdge o t = r1 at h1
        generalize (vs' p).removeEdge o t = r2 at h1
        have ht : ∀ {w : TreeView}, w.Tidy → ∀ q ∈ qs, (setView vs p w q).Tidy := by
          intro w hw q hq
          unfold setView; split
          · exact hw
          · exact k q hq
        cases h1 with
        | ok hw kw => exact ih (h.set p hw) (ht kw)
        | throw hw kw => exact .throw (h.set p hw) (ht kw)
        | left => exact .left
        | right =>
          cases r1 with
          | ok a w => simp only; exact .right
          | throw x w => exact .right
          | ub m => exact .left

/-- all subscribed views are tidy -/
def TidySubs (s : GS F E) : Prop := ∀ p ∈ s.subs, (s.views p).Tidy

theorem Shuffle.tidySubs {s s' : GS F E} (h : Shuffle s s') (k : TidySubs s) : TidySubs s' := by
  intro p hp
  rw [h.subs] at hp
  exact (h.views p).tidy (k p hp)

/-- like `SameOutcome`, unless one has undefined behaviour; the subscribed views stay tidy -/
inductive SameU : Res (GS F E) Unit → Res (GS F E) Unit → Prop
  | ok {s s'} : Shuffle s s' → TidySubs s → SameU (.ok () s) (.ok () s')
  | throw {x s s'} : Shuffle s s' → TidySubs s → SameU (.throw x s) (.throw x s')
  | left {m r} : SameU (.ub m) r
  | right {m r} : SameU r (.ub m)

theorem SameU.same {r r' : Res (GS F E) Unit} (h : SameU r r') : SameOutcome r r' ∨ IsUB r ∨ IsUB r' := by
  cases h with
  | ok h _ => exact Or.inl (.ok h)
  | throw h _ => exact Or.inl (.throw h)
  | left => exact Or.inr (Or.inl trivial)
  | right => exact Or.inr (Or.inr trivial)

theorem removeEdgeBoth_shuffle (o t : FrameId) (vo vt : VId) {s s' : GS F E} (h : Shuffle s s') (k : TidySubs s) :
    SameU (removeEdgeBoth o t vo vt s) (removeEdgeBoth o t vo vt s') := by
  unfold removeEdgeBoth
  rw [h.g]
  split
  · split
    · exact .left
    · simp only
      split
      · exact .left
      · simp only [GS.notify, h.subs]
        have h1 := removeEdgeFromTreeViews_shuffle vo vt s.subs s.subs (fun _ h => h) h.views k
        generalize removeEdgeFromTreeViews vo vt s.subs s.views = r1 at h1
        generalize removeEdgeFromTreeViews vo vt s.subs s'.views = r2 at h1
        cases h1 with
        | ok hv kv => exact .ok ⟨rfl, rfl, by simp [h.trace], hv⟩ kv
        | throw hv kv => exact .throw ⟨rfl, rfl, by simp [h.trace], hv⟩ kv
        | left => exact .left
        | right => exact .right
  · exact .throw h k

theorem removeEdge_shuffle (o t : FrameId) {s s' : GS F E} (h : Shuffle s s') (k : TidySubs s) :
    SameU (GS.removeEdge o t s) (GS.removeEdge o t s') := by
  unfold GS.removeEdge
  rw [h.g]
  split
  · exact .throw h k
  · split
    · exact .throw h k
    · exact removeEdgeBoth_shuffle _ _ _ _ h k

theorem removeEdgeD_shuffle (vo vt : VId) {s s' : GS F E} (h : Shuffle s s') (k : TidySubs s) :
    SameU (removeEdgeD vo vt s) (removeEdgeD vo vt s') := by
  unfold removeEdgeD
  rw [h.g]
  split
  · exact removeEdgeBoth_shuffle _ _ _ _ h k
  · exact .left

theorem disconnectLoop_shuffle (v : VId) (n : Nat) : ∀ {s s' : GS F E}, Shuffle s s' → TidySubs s →
    SameU (disconnectLoop v n s) (disconnectLoop v n s') := by
  induction n with
  | zero =>
    intro s s' h k
    rw [disconnectLoop.eq_def, disconnectLoop.eq_def]
    simp only
    rw [h.g]
    split
    · exact .ok h k
    · exact .left
  | succ n ih =>
    intro s s' h k
    rw [disconnectLoop.eq_def, disconnectLoop.eq_def]
    simp only
    rw [h.g]
    cases s.g.outEdges v with
    | nil => exact .ok h k
    | cons e l =>
      simp only
      have h1 := removeEdgeD_shuffle v e.tgt h k
      generalize removeEdgeD v e.tgt s = r1 at h1
      generalize removeEdgeD v e.tgt s' = r2 at h1
      cases h1 with
      | ok hs ks => exact ih hs ks
      | throw hs ks => exact .throw hs ks
      | left => exact .left
      | right => exact .right

theorem disconnectFrame_shuffle (f : FrameId) {s s' : GS F E} (h : Shuffle s s') (k : TidySubs s) :
    SameU (disconnectFrame f s) (disconnectFrame f s') := by
  unfold disconnectFrame
  rw [h.g]
  split
  · exact .throw h k
  · exact disconnectLoop_shuffle _ _ h k

theorem addVertexN_shuffle (f : FrameId) (p : F) {s s' : GS F E} (h : Shuffle s s') :
    Shuffle (addVertexN f p s).1 (addVertexN f p s').1 ∧ (addVertexN f p s').2 = (addVertexN f p s).2 := by
  unfold addVertexN
  simp only [h.g]
  exact ⟨⟨rfl, h.subs, by simp [GS.notify, h.trace], h.views⟩, trivial⟩

theorem orCreate_shuffle (f : FrameId) (v : Option VId) {s s' : GS F E} (h : Shuffle s s') :
    Shuffle (orCreate f v s).1 (orCreate f v s').1 ∧ (orCreate f v s').2 = (orCreate f v s).2 := by
  cases v with
  | none => exact addVertexN_shuffle f _ h
  | some v => exact ⟨h, rfl⟩

theorem addEdgeD_shuffle (o t : VId) (p : E) {s s' : GS F E} (h : Shuffle s s') : SameOutcome (addEdgeD o t p s) (addEdgeD o t p s') := by
  unfold addEdgeD
  rw [h.g]
  split
  · split
    · exact .throw h
    · simp only [h.subs]
      have h1 := addEdgeToTreeViews_shuffle ((s.g.addEdge o t p).1.addEdge t o (EdgeProp.inverse p)).1 (s.g.addEdge o t p).2 s.subs h.views
      generalize addEdgeToTreeViews ((s.g.addEdge o t p).1.addEdge t o (EdgeProp.inverse p)).1 (s.g.addEdge o t p).2 s.subs s.views = r1 at h1
      generalize addEdgeToTreeViews ((s.g.addEdge o t p).1.addEdge t o (EdgeProp.inverse p)).1 (s.g.addEdge o t p).2 s.subs s'.views = r2 at h1
      cases h1 with
      | ok hv => exact .ok ⟨rfl, rfl, by simp [GS.notify, h.trace], hv⟩
      | throw hv => exact .throw ⟨rfl, rfl, by simp [h.trace], hv⟩
      | ub => exact .ub
  · exact .ub

theorem addEdge_shuffle (o t : FrameId) (p : E) {s s' : GS F E} (h : Shuffle s s') : SameOutcome (GS.addEdge o t p s) (GS.addEdge o t p s') := by
  unfold GS.addEdge
  simp only [h.g]
  obtain ⟨h1, e1⟩ := orCreate_shuffle o (s.g.vertexOf o) h
  obtain ⟨h2, e2⟩ := orCreate_shuffle t (s.g.vertexOf t) h1
  rw [e1, e2]
  exact addEdgeD_shuffle _ _ p h2

theorem Shuffle.setView {s s' : GS F E} (h : Shuffle s s') (p : Nat) {w w' : TreeView} (hw : w.Shuffle w') :
    Shuffle { s with views := GS.setView s.views p w } { s' with views := GS.setView s'.views p w' } :=
  ⟨h.g, h.subs, h.trace, ShuffleV.set h.views p hw⟩

theorem getTree_shuffle (f : FrameId) (keep : Bool) (p : Nat) {s s' : GS F E} (h : Shuffle s s') :
    SameOutcome (getTree f keep p s) (getTree f keep p s') := by
  unfold getTree getTreeInto
  rw [h.g]
  cases s.g.vertexOf f with
  | none => exact .throw h
  | some v =>
    simp only
    cases searchEvents s.g v with
    | none => exact .ub
    | some evs =>
      simp only
      have hw := TreeView.Shuffle.build evs ((h.views p).addRoot v)
      have h1 := h.setView p hw
      have e : (GS.setView s'.views p (((s'.views p).addRoot v).build evs) p).publisher =
        (GS.setView s.views p (((s.views p).addRoot v).build evs) p).publisher := (h1.views p).publisher
      cases keep with
      | false => exact .ok ⟨rfl, h1.subs, h1.trace, h1.views⟩
      | true =>
        simp only [if_true, subscribeTreeView, e]
        split
        · exact .ub
        · have h2 := h1.views p
          refine .ok ⟨rfl, by simp [h.subs], h.trace, ShuffleV.set h1.views p ?_⟩
          exact ⟨h2.get, h2.cross, h2.root, rfl, h2.signals⟩

theorem unsubscribeView_shuffle (p : Nat) {s s' : GS F E} (h : Shuffle s s') : Shuffle (unsubscribeView p s) (unsubscribeView p s') := by
  unfold unsubscribeView
  rw [(h.views p).publisher]
  split
  · have h2 := h.views p
    exact ⟨h.g, by simp [h.subs], h.trace, ShuffleV.set h.views p ⟨h2.get, h2.cross, h2.root, rfl, h2.signals⟩⟩
  · exact h

theorem exec_same (c : Cmd F E) (hc : c.noRemoval) {s s' : GS F E} (h : Shuffle s s') : SameOutcome (exec c s) (exec c s') := by
  cases c with
  | addFrame f =>
    simp only [exec, addFrame, h.g]
    cases s.g.vertexOf f with
    | none => exact .ok (addVertexN_shuffle f _ h).1
    | some v => exact .throw h
  | emplaceFrame f p =>
    simp only [exec, emplaceFrame, h.g]
    cases s.g.vertexOf f with
    | none => exact .ok (addVertexN_shuffle f _ h).1
    | some v => exact .throw h
  | removeFrame f =>
    simp only [exec, removeFrame, h.g]
    cases s.g.vertexOf f with
    | none => exact .throw h
    | some v =>
      simp only
      split
      · exact .throw h
      · exact .ok ⟨rfl, h.subs, by simp [GS.notify, h.trace], h.views⟩
  | disconnectFrame f => exact hc.elim
  | addEdge o t p => exact addEdge_shuffle o t p h
  | removeEdge o t => exact hc.elim
  | setEdge o t p =>
    simp only [exec, setEdgeProperty, h.g]
    split
    · exact .throw h
    · split
      · exact .throw h
      · split
        · exact .throw h
        · split
          · exact .ub
          · exact .ok ⟨rfl, h.subs, by simp [GS.notify, h.trace], h.views⟩
  | getTree f k v => exact getTree_shuffle f k v h
  | unsubscribeView v => exact .ok (unsubscribeView_shuffle v h)

theorem exec_shuffle (c : Cmd F E) {s s' : GS F E} (h : Shuffle s s') (k : TidySubs s) :
    SameOutcome (exec c s) (exec c s') ∨ IsUB (exec c s) ∨ IsUB (exec c s') := by
  cases c with
  | removeEdge o t => exact (removeEdge_shuffle o t h k).same
  | disconnectFrame f => exact (disconnectFrame_shuffle f h k).same
  | addFrame f => exact Or.inl (exec_same (.addFrame f) trivial h)
  | emplaceFrame f p => exact Or.inl (exec_same (.emplaceFrame f p) trivial h)
  | removeFrame f => exact Or.inl (exec_same (.removeFrame f) trivial h)
  | addEdge o t p => exact Or.inl (exec_same (.addEdge o t p) trivial h)
  | setEdge o t p => exact Or.inl (exec_same (.setEdge o t p) trivial h)
  | getTree f k v => exact Or.inl (exec_same (.getTree f k v) trivial h)
  | unsubscribeView v => exact Or.inl (exec_same (.unsubscribeView v) trivial h)

end GS
end Verif
