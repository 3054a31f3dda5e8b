import Verif.Lemmas.Steps

set_option linter.unusedSectionVars false
set_option linter.unusedSimpArgs false
/-! Which views a call can change, and the list of subscribed views. -/

namespace Verif
open GS TreeView
variable {F E : Type} [FrameProp F] [EdgeProp E]

theorem build_publisher (evs : List BfsEv) : ∀ w : TreeView, (w.build evs).publisher = w.publisher := by
  induction evs with
  | nil => intro w; rfl
  | cons e evs ih =>
    intro w
    rw [TreeView.build, List.foldl_cons]
    refine (ih _).trans ?_
    cases e <;> rfl

theorem rmVerts_publisher : ∀ (vs : List VId) (w w' : TreeView), (w.rmVerts vs).st? = some w' → w'.publisher = w.publisher := by
  intro vs
  induction vs with
  | nil => intro w w' h; simp only [rmVerts, Res.st?, Option.some.injEq] at h; rw [← h]
  | cons v vs ih =>
    intro w w' h
    unfold rmVerts at h
    split at h
    · simp [Res.st?] at h
    · simp only at h
      split at h
      · exact (ih _ _ h).trans rfl
      · simp [Res.st?] at h

theorem visitBfs_state (w : TreeView) : ∀ (n : Nat) (q : List VId), ∀ w', (w.visitBfs n q).st? = some w' → w' = w := by
  intro n
  induction n with
  | zero => intro q w' h; cases q <;> simp [visitBfs, Res.st?] at h; exact h.symm
  | succ n ih =>
    intro q w' h
    cases q with
    | nil => simp [visitBfs, Res.st?] at h; exact h.symm
    | cons v q =>
      unfold visitBfs at h
      split at h
      · simp [Res.st?] at h; exact h.symm
      · split at h
        · simp [Res.st?] at h; exact h.symm
        · rename_i e s hx
          simp only [Res.st?, Option.some.injEq] at h
          subst h
          exact ih _ _ (by rw [hx]; rfl)
        · simp [Res.st?] at h

theorem removeEdge_publisher {w w' : TreeView} {o t : VId} (h : (w.removeEdge o t).st? = some w') :
    w'.publisher = w.publisher := by
  unfold TreeView.removeEdge at h
  simp only at h
  generalize (if (w.relOf t).parent = some o then some t else if (w.relOf o).parent = some t then some o else none) = rt at h
  cases rt with
  | none => simp [Res.st?] at h
  | some rt =>
    simp only at h
    split at h
    · simp [Res.st?] at h
    · split at h
      · simp [Res.st?] at h
      · simp only [Res.st?, Option.some.injEq] at h
        subst h
        rfl
    · split at h
      · simp [Res.st?] at h
      · split at h
        · simp [Res.st?] at h
        · rename_i e s hx
          simp only [Res.st?, Option.some.injEq] at h
          subst h
          have := rmVerts_publisher _ _ s (congrArg Res.st? hx)
          exact this
        · rename_i u s hx
          have := rmVerts_publisher _ _ s (congrArg Res.st? hx)
          split at h
          · simp only [Res.st?, Option.some.injEq] at h
            subst h; exact this
          · simp only [Res.st?, Option.some.injEq] at h
            subst h; exact this

theorem attach_publisher {g : G F E} {w w' : TreeView} {i n : VId}
    (h : (addEdgeToTreeView.attach g w i n).st? = some w') : w'.publisher = w.publisher := by
  unfold addEdgeToTreeView.attach at h
  simp only at h
  split at h
  · split at h
    · split at h
      · simp [Res.st?] at h
      · simp only [Res.st?, Option.some.injEq] at h
        subst h
        exact build_publisher _ _
    · simp only [Res.st?, Option.some.injEq] at h
      subst h; rfl
  · simp only [Res.st?, Option.some.injEq] at h
    subst h; rfl

theorem addEdgeToTreeView_publisher {g : G F E} {e : ERec E} {w w' : TreeView}
    (h : (addEdgeToTreeView g e w).st? = some w') : w'.publisher = w.publisher := by
  unfold addEdgeToTreeView at h
  simp only at h
  split at h
  · split at h
    · simp [Res.st?] at h
    · simp only [Res.st?, Option.some.injEq] at h
      subst h; rfl
    · simp only [Res.st?, Option.some.injEq] at h
      subst h; rfl
  · split at h
    · exact attach_publisher h
    · split at h
      · exact attach_publisher h
      · simp only [Res.st?, Option.some.injEq] at h
        subst h; rfl

/-- views outside of `ps` are unchanged, no publisher pointer is changed -/
def SameBut (ps : List Nat) (vs vs' : Nat → TreeView) : Prop :=
  (∀ q, q ∉ ps → vs' q = vs q) ∧ ∀ q, (vs' q).publisher = (vs q).publisher

theorem SameBut.refl (ps : List Nat) (vs : Nat → TreeView) : SameBut ps vs vs := ⟨fun _ _ => rfl, fun _ => rfl⟩

theorem SameBut.trans {ps : List Nat} {a b c : Nat → TreeView} (h : SameBut ps a b) (h' : SameBut ps b c) : SameBut ps a c :=
  ⟨fun q hq => (h'.1 q hq).trans (h.1 q hq), fun q => (h'.2 q).trans (h.2 q)⟩

theorem SameBut.mono {ps ps' : List Nat} {a b : Nat → TreeView} (h : SameBut ps a b) (hs : ∀ p ∈ ps, p ∈ ps') : SameBut ps' a b :=
  ⟨fun q hq => h.1 q (fun hh => hq (hs q hh)), h.2⟩

theorem SameBut.set {ps : List Nat} {vs : Nat → TreeView} {p : Nat} {w : TreeView} (hp : p ∈ ps)
    (hw : w.publisher = (vs p).publisher) : SameBut ps vs (setView vs p w) := by
  constructor
  · intro q hq
    have : q ≠ p := by rintro rfl; exact hq hp
    simp [setView, this]
  · intro q
    by_cases h : q = p
    · subst h; simp [setView, hw]
    · simp [setView, h]

theorem addEdgeToTreeViews_same {g : G F E} {e : ERec E} : ∀ (ps : List Nat) (vs vs' : Nat → TreeView),
    (addEdgeToTreeViews g e ps vs).st? = some vs' → SameBut ps vs vs' := by
  intro ps
  induction ps with
  | nil =>
    intro vs vs' h
    simp only [addEdgeToTreeViews, Res.st?, Option.some.injEq] at h
    subst h; exact .refl _ _
  | cons p ps ih =>
    intro vs vs' h
    unfold addEdgeToTreeViews at h
    split at h
    · rename_i u w hx
      have h1 : SameBut (p :: ps) vs (setView vs p w) :=
        .set (by simp) (addEdgeToTreeView_publisher (g := g) (e := e) (by rw [hx]; rfl))
      exact h1.trans ((ih _ _ h).mono (fun q hq => List.mem_cons_of_mem _ hq))
    · rename_i u w hx
      simp only [Res.st?, Option.some.injEq] at h
      subst h
      exact .set (by simp) (addEdgeToTreeView_publisher (g := g) (e := e) (by rw [hx]; rfl))
    · simp [Res.st?] at h

theorem removeEdgeFromTreeViews_same {o t : VId} : ∀ (ps : List Nat) (vs vs' : Nat → TreeView),
    (removeEdgeFromTreeViews o t ps vs).st? = some vs' → SameBut ps vs vs' := by
  intro ps
  induction ps with
  | nil =>
    intro vs vs' h
    simp only [removeEdgeFromTreeViews, Res.st?, Option.some.injEq] at h
    subst h; exact .refl _ _
  | cons p ps ih =>
    intro vs vs' h
    unfold removeEdgeFromTreeViews at h
    split at h
    · simp [Res.st?] at h
    · exact (ih _ _ h).mono (fun q hq => List.mem_cons_of_mem _ hq)
    · split at h
      · rename_i u w hx
        have h1 : SameBut (p :: ps) vs (setView vs p w) := .set (by simp) (removeEdge_publisher (o := o) (t := t) (by rw [hx]; rfl))
        exact h1.trans ((ih _ _ h).mono (fun q hq => List.mem_cons_of_mem _ hq))
      · rename_i u w hx
        simp only [Res.st?, Option.some.injEq] at h
        subst h
        exact .set (by simp) (removeEdge_publisher (o := o) (t := t) (by rw [hx]; rfl))
      · simp [Res.st?] at h

namespace GS

/-- the same views are subscribed, all other views are unchanged -/
def ViewSafe (s s' : GS F E) : Prop := s'.subs = s.subs ∧ SameBut s.subs s.views s'.views

theorem ViewSafe.refl {s s' : GS F E} (h1 : s'.subs = s.subs) (h2 : s'.views = s.views) : ViewSafe s s' :=
  ⟨h1, by rw [h2]; exact .refl _ _⟩

theorem ViewSafe.trans {s s' s'' : GS F E} (h : ViewSafe s s') (h' : ViewSafe s' s'') : ViewSafe s s'' :=
  ⟨h'.1.trans h.1, h.2.trans (by have := h'.2; rwa [h.1] at this)⟩

theorem addEdgeD_safe {o t : VId} {p : E} {s s' : GS F E} (h : (addEdgeD o t p s).st? = some s') : ViewSafe s s' := by
  unfold addEdgeD at h
  split at h
  · split at h
    · simp only [Res.st?, Option.some.injEq] at h
      subst h; exact .refl rfl rfl
    · simp only at h
      split at h
      · rename_i u vs hx
        simp only [Res.st?, Option.some.injEq] at h
        subst h
        exact ⟨rfl, addEdgeToTreeViews_same _ _ vs (by rw [hx]; rfl)⟩
      · rename_i u vs hx
        simp only [Res.st?, Option.some.injEq] at h
        subst h
        exact ⟨rfl, addEdgeToTreeViews_same _ _ vs (by rw [hx]; rfl)⟩
      · simp [Res.st?] at h
  · simp [Res.st?] at h

theorem orCreate_safe (f : FrameId) (v : Option VId) (s : GS F E) : ViewSafe s (orCreate f v s).1 := by
  cases v <;> exact .refl rfl rfl

theorem addEdge_safe {o t : FrameId} {p : E} {s s' : GS F E} (h : (addEdge o t p s).st? = some s') : ViewSafe s s' :=
  ((orCreate_safe _ _ _).trans (orCreate_safe _ _ _)).trans (addEdgeD_safe h)

theorem removeEdgeBoth_safe {a b : FrameId} {o t : VId} {s s' : GS F E} (h : (removeEdgeBoth a b o t s).st? = some s') :
    ViewSafe s s' := by
  unfold removeEdgeBoth at h
  split at h
  · split at h
    · simp [Res.st?] at h
    · simp only at h
      split at h
      · simp [Res.st?] at h
      · split at h
        · rename_i u vs hx
          simp only [Res.st?, Option.some.injEq] at h
          subst h
          have hx' : (removeEdgeFromTreeViews o t s.subs s.views).st? = some vs := congrArg Res.st? hx
          exact ⟨rfl, removeEdgeFromTreeViews_same _ _ vs hx'⟩
        · rename_i u vs hx
          simp only [Res.st?, Option.some.injEq] at h
          subst h
          have hx' : (removeEdgeFromTreeViews o t s.subs s.views).st? = some vs := congrArg Res.st? hx
          exact ⟨rfl, removeEdgeFromTreeViews_same _ _ vs hx'⟩
        · simp [Res.st?] at h
  · simp only [Res.st?, Option.some.injEq] at h
    subst h; exact .refl rfl rfl

theorem removeEdge_safe {o t : FrameId} {s s' : GS F E} (h : (removeEdge o t s).st? = some s') : ViewSafe s s' := by
  unfold removeEdge at h
  split at h
  · simp only [Res.st?, Option.some.injEq] at h
    subst h; exact .refl rfl rfl
  · split at h
    · simp only [Res.st?, Option.some.injEq] at h
      subst h; exact .refl rfl rfl
    · exact removeEdgeBoth_safe h

theorem removeEdgeD_safe {o t : VId} {s s' : GS F E} (h : (removeEdgeD o t s).st? = some s') : ViewSafe s s' := by
  unfold removeEdgeD at h
  split at h
  · exact removeEdgeBoth_safe h
  · simp [Res.st?] at h

theorem disconnectLoop_safe {v : VId} (n : Nat) : ∀ {s s' : GS F E}, (disconnectLoop v n s).st? = some s' → ViewSafe s s' := by
  induction n with
  | zero =>
    intro s s' h
    unfold disconnectLoop at h
    split at h
    · simp only [Res.st?, Option.some.injEq] at h
      subst h; exact .refl rfl rfl
    · simp [Res.st?] at h
  | succ n ih =>
    intro s s' h
    unfold disconnectLoop at h
    split at h
    · simp only [Res.st?, Option.some.injEq] at h
      subst h; exact .refl rfl rfl
    · simp only at h
      split at h
      · rename_i e _ _ _ a s1 hx
        have h1 : (removeEdgeD v e.tgt s).st? = some s1 := by rw [hx]; rfl
        exact (removeEdgeD_safe h1).trans (ih h)
      · rename_i e _ _ _ a s1 hx
        have h1 : (removeEdgeD v e.tgt s).st? = some s1 := by rw [hx]; rfl
        simp only [Res.st?, Option.some.injEq] at h
        subst h
        exact removeEdgeD_safe h1
      · simp [Res.st?] at h

/-- calls that do not name a view -/
def Cmd.noView : Cmd F E → Prop
  | .getTree _ _ _ => False
  | .unsubscribeView _ => False
  | _ => True

theorem exec_safe {c : Cmd F E} (hc : c.noView) {s s' : GS F E} (h : (exec c s).st? = some s') : ViewSafe s s' := by
  cases c with
  | addFrame f =>
    rw [exec, st?_discard] at h
    unfold addFrame at h
    split at h <;> (simp only [Res.st?, Option.some.injEq] at h; subst h; exact .refl rfl rfl)
  | emplaceFrame f p =>
    rw [exec, st?_discard] at h
    unfold emplaceFrame at h
    split at h <;> (simp only [Res.st?, Option.some.injEq] at h; subst h; exact .refl rfl rfl)
  | removeFrame f =>
    simp only [exec, removeFrame] at h
    split at h
    · simp only [Res.st?, Option.some.injEq] at h; subst h; exact .refl rfl rfl
    · split at h <;> (simp only [Res.st?, Option.some.injEq] at h; subst h; exact .refl rfl rfl)
  | disconnectFrame f =>
    simp only [exec, disconnectFrame] at h
    split at h
    · simp only [Res.st?, Option.some.injEq] at h; subst h; exact .refl rfl rfl
    · exact disconnectLoop_safe _ h
  | addEdge o t p => exact addEdge_safe h
  | removeEdge o t => exact removeEdge_safe h
  | setEdge o t p =>
    simp only [exec, setEdgeProperty] at h
    split at h
    · simp only [Res.st?, Option.some.injEq] at h; subst h; exact .refl rfl rfl
    · split at h
      · simp only [Res.st?, Option.some.injEq] at h; subst h; exact .refl rfl rfl
      · split at h
        · simp only [Res.st?, Option.some.injEq] at h; subst h; exact .refl rfl rfl
        · split at h
          · simp [Res.st?] at h
          · simp only [Res.st?, Option.some.injEq] at h; subst h; exact .refl rfl rfl
  | getTree f k p => exact hc.elim
  | unsubscribeView p => exact hc.elim

/-- calls that do not name the view `q` -/
def Cmd.notOn (q : Nat) : Cmd F E → Prop
  | .getTree _ _ p => p ≠ q
  | .unsubscribeView p => p ≠ q
  | _ => True

theorem exec_other_view {c : Cmd F E} {q : Nat} (hc : c.notOn q) {s s' : GS F E} (hq : q ∉ s.subs)
    (h : (exec c s).st? = some s') : s'.views q = s.views q ∧ q ∉ s'.subs := by
  have key : c.noView → s'.views q = s.views q ∧ q ∉ s'.subs := by
    intro hn
    obtain ⟨h1, h2⟩ := exec_safe hn h
    exact ⟨h2.1 q hq, h1 ▸ hq⟩
  cases c with
  | getTree f k p =>
    have hne : q ≠ p := Ne.symm hc
    simp only [exec, getTree] at h
    split at h
    · simp only [Res.st?, Option.some.injEq] at h; subst h; exact ⟨rfl, hq⟩
    · split at h
      · simp [Res.st?] at h
      · simp only [Res.st?, Option.some.injEq] at h; subst h; simp [setView, hne, hq]
      · split at h
        · unfold subscribeTreeView at h
          split at h
          · simp [Res.st?] at h
          · simp only [Res.st?, Option.some.injEq] at h; subst h
            simp [setView, hne, hq]
        · simp only [Res.st?, Option.some.injEq] at h; subst h; simp [setView, hne, hq]
  | unsubscribeView p =>
    have hne : q ≠ p := Ne.symm hc
    simp only [exec, Res.st?, Option.some.injEq] at h
    subst h
    unfold unsubscribeView
    split
    · simp [setView, hne, hq]
    · exact ⟨rfl, hq⟩
  | _ => exact key trivial

theorem run_other_view {cs : List (Cmd F E)} {q : Nat} : ∀ {s s' : GS F E}, (∀ c ∈ cs, c.notOn q) → q ∉ s.subs →
    run cs s = some s' → s'.views q = s.views q ∧ q ∉ s'.subs := by
  induction cs with
  | nil => intro s s' _ hq h; simp only [run, Option.some.injEq] at h; subst h; exact ⟨rfl, hq⟩
  | cons c cs ih =>
    intro s s' hc hq h
    obtain ⟨s1, h1, h2⟩ := run_cons h
    obtain ⟨a1, a2⟩ := exec_other_view (hc c (by simp)) hq h1
    obtain ⟨b1, b2⟩ := ih (fun c' hc' => hc c' (List.mem_cons_of_mem _ hc')) a2 h2
    exact ⟨b1.trans a1, b2⟩

/-- a view is subscribed once, and iff its publisher is set -/
def SubsInv (s : GS F E) : Prop := s.subs.Nodup ∧ ∀ q, q ∈ s.subs ↔ (s.views q).publisher = true

theorem getTreeInto_publisher {g : G F E} {r : VId} {w w' : TreeView} (h : (getTreeInto g r w).st? = some w') :
    w'.publisher = w.publisher := by
  unfold getTreeInto at h
  split at h
  · simp [Res.st?] at h
  · simp only [Res.st?, Option.some.injEq] at h
    subst h
    exact (build_publisher _ _).trans rfl

theorem exec_subsInv {c : Cmd F E} {s s' : GS F E} (hi : SubsInv s) (h : (exec c s).st? = some s') : SubsInv s' := by
  have key : c.noView → SubsInv s' := by
    intro hn
    obtain ⟨h1, h2⟩ := exec_safe hn h
    exact ⟨h1 ▸ hi.1, fun q => by rw [h1, h2.2]; exact hi.2 q⟩
  cases c with
  | getTree f k p =>
    simp only [exec, getTree] at h
    split at h
    · simp only [Res.st?, Option.some.injEq] at h; subst h; exact hi
    · split at h
      · simp [Res.st?] at h
      · rename_i x w hx
        have hpub := getTreeInto_publisher (by rw [hx]; rfl)
        simp only [Res.st?, Option.some.injEq] at h; subst h
        refine ⟨hi.1, fun q => ?_⟩
        have h1 := hi.2 q
        by_cases hq : q = p
        · subst hq; simp only [setView, if_true, hpub]; exact h1
        · simp only [setView, if_neg hq]; exact h1
      · rename_i x w hx
        have hpub := getTreeInto_publisher (by rw [hx]; rfl)
        split at h
        · unfold subscribeTreeView at h
          split at h
          · simp [Res.st?] at h
          · rename_i hnp
            simp only [setView, if_true, hpub] at hnp
            have hnot : p ∉ s.subs := fun hh => hnp ((hi.2 p).1 hh)
            simp only [Res.st?, Option.some.injEq] at h; subst h
            refine ⟨?_, fun q => ?_⟩
            · simp only [List.nodup_append]
              exact ⟨hi.1, by simp, fun a ha b hb => by rintro rfl; rw [List.mem_singleton] at hb; subst hb; exact hnot ha⟩
            · simp only [List.mem_append, List.mem_singleton]
              by_cases hq : q = p
              · subst hq; simp [setView]
              · simp only [setView, if_neg hq, hq, or_false]; exact hi.2 q
        · simp only [Res.st?, Option.some.injEq] at h; subst h
          refine ⟨hi.1, fun q => ?_⟩
          have h1 := hi.2 q
          by_cases hq : q = p
          · subst hq; simp only [setView, if_true, hpub]; exact h1
          · simp only [setView, if_neg hq]; exact h1
  | unsubscribeView p =>
    simp only [exec, Res.st?, Option.some.injEq] at h
    subst h
    unfold unsubscribeView
    split
    · refine ⟨hi.1.sublist List.filter_sublist, fun q => ?_⟩
      by_cases hq : q = p
      · subst hq; simp [setView]
      · simp only [setView, if_neg hq, List.mem_filter, decide_eq_true_eq, Ne, hq, not_false_eq_true, and_true]
        exact hi.2 q
    · exact hi
  | _ => exact key trivial

theorem run_subsInv {cs : List (Cmd F E)} : ∀ {s s' : GS F E}, SubsInv s → run cs s = some s' → SubsInv s' := by
  induction cs with
  | nil => intro s s' hi h; simp only [run, Option.some.injEq] at h; subst h; exact hi
  | cons c cs ih =>
    intro s s' hi h
    obtain ⟨s1, h1, h2⟩ := run_cons h
    exact ih (exec_subsInv hi h1) h2

theorem init_subsInv : SubsInv (init : GS F E) := by
  refine ⟨by simp [init], fun q => ?_⟩
  simp [init, TreeView.empty]

end GS
end Verif
