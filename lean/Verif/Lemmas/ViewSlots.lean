import Verif.Lemmas.Reenter
import Verif.Lemmas.Subs
import Verif.Model.ViewSlots
set_option linter.unusedSectionVars false
set_option linter.unusedSimpArgs false
/-! Lemmas about slots that throw. -/

namespace Verif
variable {F E : Type} [FrameProp F] [EdgeProp E]

namespace TreeView

/-- the view `w'` comes from `w` by more signals; root and publisher are the same -/
structure Later (w w' : TreeView) : Prop where
  signals : w.signals <+: w'.signals
  publisher : w'.publisher = w.publisher
  root : w'.root = w.root

theorem Later.refl (w : TreeView) : Later w w := ⟨List.prefix_refl _, rfl, rfl⟩

theorem Later.trans {a b c : TreeView} (h : Later a b) (k : Later b c) : Later a c :=
  ⟨h.1.trans k.1, k.2.trans h.2, k.3.trans h.3⟩

theorem Later.addEdge (w : TreeView) (o t : VId) : Later w (w.addEdge o t) :=
  ⟨List.prefix_append _ _, rfl, rfl⟩

theorem Later.addCrossEdge (w : TreeView) (o t : VId) (e : EId) : Later w (w.addCrossEdge o t e) :=
  ⟨List.prefix_append _ _, rfl, rfl⟩

theorem Later.buildStep (w : TreeView) (ev : BfsEv) : Later w (w.buildStep ev) := by
  cases ev with
  | treeEdge a => exact .addEdge _ _ _
  | grayTarget a => exact .addCrossEdge _ _ _ _
  | discover v => exact .refl _
  | blackTarget a => exact .refl _

theorem Later.build (evs : List BfsEv) : ∀ w : TreeView, Later w (w.build evs) := by
  induction evs with
  | nil => intro w; exact .refl _
  | cons ev evs ih => intro w; exact (Later.buildStep w ev).trans (ih _)

theorem Later.rmVerts (vs : List VId) : ∀ {w w' : TreeView}, (w.rmVerts vs).st? = some w' → Later w w' := by
  induction vs with
  | nil => intro w w' h; simp only [TreeView.rmVerts, Res.st?, Option.some.injEq] at h; subst h; exact .refl _
  | cons v vs ih =>
    intro w w' h
    unfold TreeView.rmVerts at h
    split at h
    · cases h
    · simp only at h
      split at h
      · have k := ih h
        exact ⟨(List.prefix_append _ _).trans k.1, k.2, k.3⟩
      · cases h

/-- `rS`, computed with slots, is `r`, or a slot threw at an emission that `r` has as well -/
def SlotCut (sl : TreeView → Option Exn) (r rS : Res TreeView Unit) : Prop :=
  rS = r ∨ ∃ x w, rS = .throw x w ∧ sl w = some x ∧ ∀ w', r.st? = some w' → Later w w'

theorem emit_cut (sl : TreeView → Option Exn) (w : TreeView) : SlotCut sl (.ok () w) (emit sl w) := by
  unfold emit
  cases h : sl w with
  | none => exact Or.inl rfl
  | some x =>
    refine Or.inr ⟨x, w, rfl, h, fun w' hw => ?_⟩
    simp only [Res.st?, Option.some.injEq] at hw
    subst hw; exact .refl _

theorem emit_later {sl : TreeView → Option Exn} {w w' : TreeView} (h : (emit sl w).st? = some w') : w' = w := by
  unfold emit at h
  split at h <;> simp only [Res.st?, Option.some.injEq] at h <;> exact h.symm

theorem buildS_cut (sl : TreeView → Option Exn) (evs : List BfsEv) : ∀ w : TreeView,
    SlotCut sl (.ok () (w.build evs)) (buildS sl w evs) := by
  induction evs with
  | nil => intro w; exact Or.inl rfl
  | cons ev evs ih =>
    intro w
    have hs : SlotCut sl (.ok () (w.buildStep ev)) (buildStepS sl w ev) := by
      cases ev with
      | treeEdge a => exact emit_cut _ _
      | grayTarget a => exact emit_cut _ _
      | discover v => exact Or.inl rfl
      | blackTarget a => exact Or.inl rfl
    simp only [buildS]
    rcases hs with h | ⟨x, w1, h, h1, h2⟩
    · rw [h]; exact ih _
    · rw [h]
      refine Or.inr ⟨x, w1, rfl, h1, fun w' hw => ?_⟩
      simp only [Res.st?, Option.some.injEq] at hw
      subst hw
      exact (h2 _ rfl).trans (Later.build evs _)

theorem buildS_later (sl : TreeView → Option Exn) (evs : List BfsEv) : ∀ {w w' : TreeView},
    (buildS sl w evs).st? = some w' → Later w w' := by
  induction evs with
  | nil => intro w w' h; simp only [buildS, Res.st?, Option.some.injEq] at h; subst h; exact .refl _
  | cons ev evs ih =>
    intro w w' h
    have hs : ∀ w1, (buildStepS sl w ev).st? = some w1 → Later w w1 := by
      intro w1 h1
      cases ev with
      | treeEdge a => rw [emit_later h1]; exact .addEdge _ _ _
      | grayTarget a => rw [emit_later h1]; exact .addCrossEdge _ _ _ _
      | discover v => simp only [buildStepS, Res.st?, Option.some.injEq] at h1; subst h1; exact .refl _
      | blackTarget a => simp only [buildStepS, Res.st?, Option.some.injEq] at h1; subst h1; exact .refl _
    simp only [buildS] at h
    split at h
    · rename_i w1 hx; exact (hs w1 (by rw [hx]; rfl)).trans (ih h)
    · rename_i w1 hx
      simp only [Res.st?, Option.some.injEq] at h; subst h
      exact hs w1 (by rw [hx]; rfl)
    · cases h

theorem rmVertsS_cut (sl : TreeView → Option Exn) (vs : List VId) : ∀ w : TreeView, SlotCut sl (rmVerts w vs) (rmVertsS sl w vs) := by
  induction vs with
  | nil => intro w; exact Or.inl rfl
  | cons v vs ih =>
    intro w
    unfold rmVerts rmVertsS
    cases (w.relOf v).parent with
    | none => exact Or.inl rfl
    | some p =>
      simp only
      split
      · rcases emit_cut sl { w with
            tree := (w.tree.set p { w.relOf p with children := (w.relOf p).children.filter (· ≠ v) }).erase v
            signals := w.signals ++ [.edgeRemoved p v] } with h | ⟨x, w1, h, h1, h2⟩
        · rw [h]; exact ih _
        · rw [h]
          exact Or.inr ⟨x, w1, rfl, h1, fun w' hw => (h2 _ rfl).trans (Later.rmVerts vs hw)⟩
      · exact Or.inl rfl

theorem rmVertsS_later (sl : TreeView → Option Exn) (vs : List VId) : ∀ {w w' : TreeView},
    (rmVertsS sl w vs).st? = some w' → Later w w' := by
  induction vs with
  | nil => intro w w' h; simp only [rmVertsS, Res.st?, Option.some.injEq] at h; subst h; exact .refl _
  | cons v vs ih =>
    intro w w' h
    unfold rmVertsS at h
    split at h
    · cases h
    · simp only at h
      split at h
      · split at h
        · rename_i w1 hx
          have := emit_later (w' := w1) (by rw [hx]; rfl)
          subst this
          have k := ih h
          exact ⟨(List.prefix_append _ _).trans k.1, k.2, k.3⟩
        · rename_i w1 hx
          have := emit_later (w' := w1) (by rw [hx]; rfl)
          subst this
          simp only [Res.st?, Option.some.injEq] at h; subst h
          exact ⟨List.prefix_append _ _, rfl, rfl⟩
        · cases h
      · cases h

theorem removeEdgeS_cut (sl : TreeView → Option Exn) (w : TreeView) (o t : VId) :
    SlotCut sl (w.removeEdge o t) (w.removeEdgeS sl o t) := by
  unfold removeEdge removeEdgeS
  simp only
  generalize (if (w.relOf t).parent = some o then some t else if (w.relOf o).parent = some t then some o else none) = rt
  cases rt with
  | none => exact Or.inl rfl
  | some rt =>
    simp only
    cases w.visitBfs (w.tree.length + 1) [rt] with
    | ub m => exact Or.inl rfl
    | throw x s => exact Or.inl rfl
    | ok calls s =>
      simp only
      cases rmVisit (number 0 w.crossEdges) ⟨number 0 w.crossEdges, none, []⟩ (calls.map (·.1)) with
      | none => exact Or.inl rfl
      | some st =>
        simp only
        rcases rmVertsS_cut sl (calls.map (·.1)).reverse { w with crossEdges := st.cur.map (·.2) } with h | ⟨x, w1, h, h1, h2⟩
        · rw [h]
          refine Or.inl ?_
          cases rmVerts { w with crossEdges := st.cur.map (·.2) } (calls.map (·.1)).reverse <;> rfl
        · rw [h]
          refine Or.inr ⟨x, w1, rfl, h1, fun w' hw => h2 w' ?_⟩
          cases hx : rmVerts { w with crossEdges := st.cur.map (·.2) } (calls.map (·.1)).reverse with
          | ub m => rw [hx] at hw; cases hw
          | throw y s => rw [hx] at hw; exact hw
          | ok u s =>
            rw [hx] at hw
            simp only at hw
            split at hw <;> exact hw

theorem visitBfs_st {w : TreeView} (n : Nat) : ∀ {q : List VId} {x : Exn} {s : TreeView}, w.visitBfs n q = .throw x s → s = w := by
  induction n with
  | zero => intro q x s h; cases q <;> simp [visitBfs] at h
  | succ n ih =>
    intro q x s h
    cases q with
    | nil => simp [visitBfs] at h
    | cons v q =>
      simp only [visitBfs] at h
      split at h
      · cases h; rfl
      · split at h
        · cases h
        · rename_i hx; cases h; exact ih hx
        · cases h

theorem removeEdgeS_later (sl : TreeView → Option Exn) {w w' : TreeView} {o t : VId} (h : (w.removeEdgeS sl o t).st? = some w') :
    Later w w' := by
  unfold removeEdgeS at h
  simp only at h
  split at h
  · cases h
  · split at h
    · cases h
    · split at h
      · cases h
      · simp only [Res.st?, Option.some.injEq] at h; subst h
        exact ⟨List.prefix_refl _, rfl, rfl⟩
    · split at h
      · cases h
      · split at h
        · cases h
        · rename_i hx
          simp only [Res.st?, Option.some.injEq] at h; subst h
          have := rmVertsS_later sl _ (by rw [hx]; rfl : Res.st? _ = some _)
          exact ⟨this.1, this.2, this.3⟩
        · rename_i hx
          have := rmVertsS_later sl _ (by rw [hx]; rfl : Res.st? _ = some _)
          have k : Later w _ := ⟨this.1, this.2, this.3⟩
          split at h <;> (simp only [Res.st?, Option.some.injEq] at h; subst h; exact k)

end TreeView

namespace GS
open TreeView

theorem attachS_cut (sl : TreeView → Option Exn) (g : G F E) (w : TreeView) (a b : VId) :
    SlotCut sl (addEdgeToTreeView.attach g w a b) (attachS sl g w a b) := by
  unfold addEdgeToTreeView.attach attachS
  simp only
  rcases emit_cut sl (w.addEdge a b) with h | ⟨x, w1, h, h1, h2⟩
  · rw [h]
    simp only
    split
    · cases g.edge a b with
      | none => exact Or.inl rfl
      | some e1 =>
        cases g.edge b a with
        | none => exact Or.inl rfl
        | some e2 =>
          simp only
          cases searchEventsFiltered g e1.id e2.id b with
          | none => exact Or.inl rfl
          | some evs => exact buildS_cut _ _ _
    · exact Or.inl rfl
  · rw [h]
    refine Or.inr ⟨x, w1, rfl, h1, fun w' hw => (h2 _ rfl).trans ?_⟩
    split at hw
    · split at hw
      · split at hw
        · cases hw
        · simp only [Res.st?, Option.some.injEq] at hw; subst hw; exact Later.build _ _
      · simp only [Res.st?, Option.some.injEq] at hw; subst hw; exact .refl _
    · simp only [Res.st?, Option.some.injEq] at hw; subst hw; exact .refl _

theorem attachS_later {sl : TreeView → Option Exn} {g : G F E} {w w' : TreeView} {a b : VId}
    (h : (attachS sl g w a b).st? = some w') : Later w w' := by
  unfold attachS at h
  split at h
  · cases h
  · rename_i w1 hx
    have := emit_later (w' := w1) (by rw [hx]; rfl)
    subst this
    simp only [Res.st?, Option.some.injEq] at h; subst h
    exact .addEdge _ _ _
  · rename_i w1 hx
    have := emit_later (w' := w1) (by rw [hx]; rfl)
    subst this
    refine (Later.addEdge w a b).trans ?_
    split at h
    · split at h
      · split at h
        · cases h
        · exact buildS_later _ _ h
      · simp only [Res.st?, Option.some.injEq] at h; subst h; exact .refl _
    · simp only [Res.st?, Option.some.injEq] at h; subst h; exact .refl _

theorem addEdgeToTreeViewS_cut (sl : TreeView → Option Exn) (g : G F E) (e : ERec E) (w : TreeView) :
    SlotCut sl (addEdgeToTreeView g e w) (addEdgeToTreeViewS sl g e w) := by
  unfold addEdgeToTreeView addEdgeToTreeViewS
  simp only
  split
  · cases w.edgeExists e.src e.tgt with
    | none => exact Or.inl rfl
    | some b =>
      cases b with
      | true => exact Or.inl rfl
      | false => exact emit_cut _ _
  · split
    · exact attachS_cut sl g w _ _
    · split
      · exact attachS_cut sl g w _ _
      · exact Or.inl rfl

theorem addEdgeToTreeViewS_later {sl : TreeView → Option Exn} {g : G F E} {e : ERec E} {w w' : TreeView}
    (h : (addEdgeToTreeViewS sl g e w).st? = some w') : Later w w' := by
  unfold addEdgeToTreeViewS at h
  split at h
  · split at h
    · cases h
    · simp only [Res.st?, Option.some.injEq] at h; subst h; exact .refl _
    · rw [emit_later h]; exact .addCrossEdge _ _ _ _
  · split at h
    · exact attachS_later h
    · split at h
      · exact attachS_later h
      · simp only [Res.st?, Option.some.injEq] at h; subst h; exact .refl _

/-- what the loop over the views does with one view; `none` = the view is passed over -/
abbrev OnView := Nat → TreeView → Res TreeView Unit

/-- the loop over the subscribed views -/
def overViews (f : OnView) : List Nat → (Nat → TreeView) → Res (Nat → TreeView) Unit
  | [], vs => .ok () vs
  | p :: ps, vs =>
    match f p (vs p) with
    | .ok _ w => overViews f ps (setView vs p w)
    | .throw x w => .throw x (setView vs p w)
    | .ub r => .ub r

/-- one round of `removeEdgeFromTreeViews` -/
def rmView (o t : VId) : OnView := fun _ w =>
  match w.edgeExists o t with
  | none => .ub "edgeExists: assert"
  | some false => .ok () w
  | some true => w.removeEdge o t

/-- one round of `removeEdgeFromTreeViewsS` -/
def rmViewS (sl : Slots) (o t : VId) : OnView := fun p w =>
  match w.edgeExists o t with
  | none => .ub "edgeExists: assert"
  | some false => .ok () w
  | some true => w.removeEdgeS (sl p) o t

theorem setView_self (vs : Nat → TreeView) (p : Nat) : setView vs p (vs p) = vs := by
  funext q; unfold setView; split
  · rename_i h; rw [h]
  · rfl

theorem addViews_over (g : G F E) (e : ERec E) (ps : List Nat) : ∀ vs,
    addEdgeToTreeViews g e ps vs = overViews (fun _ => addEdgeToTreeView g e) ps vs := by
  induction ps with
  | nil => intro vs; rfl
  | cons p ps ih => intro vs; simp only [addEdgeToTreeViews, overViews, ih]; rfl

theorem addViewsS_over (sl : Slots) (g : G F E) (e : ERec E) (ps : List Nat) : ∀ vs,
    addEdgeToTreeViewsS sl g e ps vs = overViews (fun p => addEdgeToTreeViewS (sl p) g e) ps vs := by
  induction ps with
  | nil => intro vs; rfl
  | cons p ps ih => intro vs; simp only [addEdgeToTreeViewsS, overViews, ih]; rfl

theorem rmViews_over (o t : VId) (ps : List Nat) : ∀ vs,
    removeEdgeFromTreeViews o t ps vs = overViews (rmView o t) ps vs := by
  induction ps with
  | nil => intro vs; rfl
  | cons p ps ih =>
    intro vs
    simp only [removeEdgeFromTreeViews, overViews, ih, rmView]
    cases (vs p).edgeExists o t with
    | none => rfl
    | some b =>
      cases b with
      | false => simp only [setView_self]
      | true => rfl

theorem rmViewsS_over (sl : Slots) (o t : VId) (ps : List Nat) : ∀ vs,
    removeEdgeFromTreeViewsS sl o t ps vs = overViews (rmViewS sl o t) ps vs := by
  induction ps with
  | nil => intro vs; rfl
  | cons p ps ih =>
    intro vs
    simp only [removeEdgeFromTreeViewsS, overViews, ih, rmViewS]
    cases (vs p).edgeExists o t with
    | none => rfl
    | some b =>
      cases b with
      | false => simp only [setView_self]
      | true => rfl

theorem rmViewS_cut (sl : Slots) (o t : VId) (p : Nat) (w : TreeView) : SlotCut (sl p) (rmView o t p w) (rmViewS sl o t p w) := by
  unfold rmView rmViewS
  cases w.edgeExists o t with
  | none => exact Or.inl rfl
  | some b =>
    cases b with
    | true => exact removeEdgeS_cut _ _ _ _
    | false => exact Or.inl rfl

theorem rmViewS_later {sl : Slots} {o t : VId} {p : Nat} {w w' : TreeView} (h : (rmViewS sl o t p w).st? = some w') : Later w w' := by
  unfold rmViewS at h
  split at h
  · cases h
  · simp only [Res.st?, Option.some.injEq] at h; subst h; exact .refl _
  · exact removeEdgeS_later _ h

/-- views outside of the list are not touched -/
theorem overViews_other {f : OnView} {ps : List Nat} : ∀ {vs vs' : Nat → TreeView} {q : Nat}, q ∉ ps →
    (overViews f ps vs).st? = some vs' → vs' q = vs q := by
  induction ps with
  | nil => intro vs vs' q _ h; simp only [overViews, Res.st?, Option.some.injEq] at h; subst h; rfl
  | cons p ps ih =>
    intro vs vs' q hq h
    have h1 : q ≠ p := fun hh => hq (by simp [hh])
    have h2 : q ∉ ps := fun hh => hq (by simp [hh])
    simp only [overViews] at h
    split at h
    · rw [ih h2 h, setView, if_neg h1]
    · simp only [Res.st?, Option.some.injEq] at h; subst h; rw [setView, if_neg h1]
    · cases h

/-- where a loop with slots departs from the loop without -/
theorem overViews_cut {sl : Slots} {f fS : OnView} (hc : ∀ p w, SlotCut (sl p) (f p w) (fS p w)) {ps : List Nat} :
    ∀ {vs : Nat → TreeView}, ps.Nodup → overViews fS ps vs ≠ overViews f ps vs →
    ∃ x vs' a p b, overViews fS ps vs = .throw x vs' ∧ ps = a ++ p :: b ∧ sl p (vs' p) = some x ∧
      (∀ q, q ∉ a → q ≠ p → vs' q = vs q) ∧
      ∀ vt, (overViews f ps vs).st? = some vt → (∀ q ∈ a, vs' q = vt q) ∧ Later (vs' p) (vt p) := by
  induction ps with
  | nil => intro vs _ h; exact absurd rfl h
  | cons p ps ih =>
    intro vs hn h
    obtain ⟨n1, n2⟩ := List.nodup_cons.1 hn
    rcases hc p (vs p) with h1 | ⟨x, w, h1, h2, h3⟩
    · simp only [overViews, h1] at h ⊢
      cases hf : f p (vs p) with
      | ub r => rw [hf] at h; exact absurd rfl h
      | throw x w => rw [hf] at h; exact absurd rfl h
      | ok u w =>
        rw [hf] at h
        obtain ⟨x, vs', a, q, b, k1, k2, k3, k4, k5⟩ := ih n2 h
        have hpq : p ≠ q := fun hh => n1 (by rw [k2, hh]; simp)
        have hpa : p ∉ a := fun hh => n1 (by rw [k2]; simp [hh])
        refine ⟨x, vs', p :: a, q, b, k1, by rw [k2]; rfl, k3, ?_, ?_⟩
        · intro r hr hrq
          rw [k4 r (fun hh => hr (by simp [hh])) hrq, setView, if_neg (fun hh => hr (by simp [hh]))]
        · intro vt hvt
          obtain ⟨m1, m2⟩ := k5 vt hvt
          refine ⟨?_, m2⟩
          intro r hr
          rcases List.mem_cons.1 hr with rfl | hr
          · rw [k4 r hpa hpq, overViews_other n1 hvt]
          · exact m1 r hr
    · simp only [overViews, h1]
      refine ⟨x, setView vs p w, [], p, ps, rfl, rfl, by simp [setView, h2], fun q _ hq => by simp [setView, hq], ?_⟩
      intro vt hvt
      refine ⟨by simp, ?_⟩
      have hl : ∀ w', (f p (vs p)).st? = some w' → vt p = w' → Later (setView vs p w p) (vt p) := by
        intro w' hw hvp
        rw [hvp]; simp only [setView, if_true]; exact h3 w' hw
      cases hf : f p (vs p) with
      | ub r => rw [hf] at hvt; cases hvt
      | throw y w' =>
        rw [hf] at hvt
        simp only [Res.st?, Option.some.injEq] at hvt
        exact hl w' (by rw [hf]; rfl) (by rw [← hvt]; simp [setView])
      | ok u w' =>
        rw [hf] at hvt
        exact hl w' (by rw [hf]; rfl) (by rw [overViews_other n1 hvt]; simp [setView])

theorem overViews_later {f : OnView} (hl : ∀ p w w', (f p w).st? = some w' → Later w w') {ps : List Nat} :
    ∀ {vs vs' : Nat → TreeView}, (overViews f ps vs).st? = some vs' → ∀ q, Later (vs q) (vs' q) := by
  induction ps with
  | nil => intro vs vs' h q; simp only [overViews, Res.st?, Option.some.injEq] at h; subst h; exact .refl _
  | cons p ps ih =>
    intro vs vs' h q
    have hs : ∀ w, (f p (vs p)).st? = some w → Later (vs q) (setView vs p w q) := by
      intro w hw
      by_cases hq : q = p
      · subst hq; simp only [setView, if_true]; exact hl _ _ _ hw
      · simp only [setView, if_neg hq]; exact .refl _
    simp only [overViews] at h
    split at h
    · rename_i w hx; exact (hs w (by rw [hx]; rfl)).trans (ih h q)
    · rename_i w hx
      simp only [Res.st?, Option.some.injEq] at h; subst h
      exact hs w (by rw [hx]; rfl)
    · cases h

/-! ### the graph without its views -/

/-- the same graph without views, before any event -/
def solo (s : GS F E) : GS F E := ⟨s.g, [], fun _ => TreeView.empty, []⟩

/-- has no views -/
def Plain (b : GS F E) : Prop := b.subs = [] ∧ b.views = fun _ => TreeView.empty

theorem Plain.solo (s : GS F E) : Plain (solo s) := ⟨rfl, rfl⟩

/-- `b` with subscribed views, view objects and earlier events -/
def dress (S : List Nat) (V : Nat → TreeView) (T : List (Event × G F E)) (b : GS F E) : GS F E := ⟨b.g, S, V, T ++ b.trace⟩

theorem dress_solo (s : GS F E) : dress s.subs s.views s.trace (solo s) = s := by simp [dress, solo]

theorem orCreate_dress (S : List Nat) (V : Nat → TreeView) (T : List (Event × G F E)) (f : FrameId) (v : Option VId) (b : GS F E) :
    orCreate f v (dress S V T b) = (dress S V T (orCreate f v b).1, (orCreate f v b).2) := by
  unfold orCreate
  split
  · simp [addVertexN, notify, dress]
  · rfl

theorem orCreate_plain {f : FrameId} {v : Option VId} {b : GS F E} (h : Plain b) : Plain (orCreate f v b).1 := by
  unfold orCreate
  split
  · exact h
  · exact h

theorem addEdgeDS_dress {sl : Slots} {S : List Nat} {V : Nat → TreeView} {T : List (Event × G F E)} {b : GS F E} (hb : Plain b) {u v : VId}
    {p : E} {s' : GS F E} (h : (addEdgeDS sl u v p (dress S V T b)).st? = some s') :
    ∃ b', (addEdgeD u v p b).st? = some b' ∧ s'.g = b'.g ∧ s'.subs = S ∧ Plain b' ∧ (∀ q, Later (V q) (s'.views q)) ∧
      (s'.trace = T ++ b'.trace ∧ ((∃ x, addEdgeD u v p b = .throw x b') ∨ addEdgeDS sl u v p (dress S V T b) = .ok () s') ∨
        (∃ x, addEdgeDS sl u v p (dress S V T b) = .throw x s') ∧ addEdgeD u v p b = .ok () b' ∧ ∃ ru rv, b.g.findV u = some ru ∧
          b.g.findV v = some rv ∧ T ++ b'.trace = s'.trace ++ [(.edgeAdded (FrameProp.getId ru.prop) (FrameProp.getId rv.prop) b.g.nextE, s'.g)]) := by
  unfold addEdgeDS addEdgeD at *
  have hg : (dress S V T b).g = b.g := rfl
  rw [hg] at h ⊢
  cases hu : b.g.findV u with
  | none => rw [hu] at h; cases h
  | some ru =>
    cases hv : b.g.findV v with
    | none => rw [hu, hv] at h; cases h
    | some rv =>
      rw [hu, hv] at h
      simp only at h ⊢
      cases he : b.g.edge u v with
      | some e =>
        rw [he] at h
        simp only [Res.st?, Option.some.injEq] at h
        subst h
        exact ⟨b, rfl, rfl, rfl, hb, fun q => .refl _, Or.inl ⟨rfl, Or.inl ⟨_, rfl⟩⟩⟩
      | none =>
        rw [he] at h
        simp only at h ⊢
        rw [hb.1]
        simp only [addEdgeToTreeViews]
        rw [addViewsS_over] at h ⊢
        have hl : ∀ vs, (overViews (fun k => addEdgeToTreeViewS (sl k)
            ((b.g.addEdge u v p).1.addEdge v u (EdgeProp.inverse p)).1 (b.g.addEdge u v p).2) S V).st? = some vs →
            ∀ q, Later (V q) (vs q) := fun vs hvs =>
          overViews_later (fun p w w' hw => addEdgeToTreeViewS_later hw) hvs
        have hS : (dress S V T b).subs = S := rfl
        have hV : (dress S V T b).views = V := rfl
        rw [hS, hV] at h ⊢
        refine ⟨_, rfl, ?_⟩
        split at h
        · rename_i vs hx
          simp only [Res.st?, Option.some.injEq] at h
          subst h
          refine ⟨rfl, rfl, ⟨rfl, hb.2⟩, hl vs (by rw [hx]; rfl), Or.inl ⟨?_, Or.inr rfl⟩⟩
          simp [notify, dress]
        · rename_i x vs hx
          simp only [Res.st?, Option.some.injEq] at h
          subst h
          refine ⟨rfl, rfl, ⟨rfl, hb.2⟩, hl vs (by rw [hx]; rfl), Or.inr ⟨⟨x, rfl⟩, rfl, ru, rv, rfl, rfl, ?_⟩⟩
          simp [notify, dress, G.addEdge]
        · cases h

theorem removeEdgeBothS_dress {sl : Slots} {S : List Nat} {V : Nat → TreeView} {T : List (Event × G F E)} {b : GS F E} (hb : Plain b)
    {o t : FrameId} {u v : VId} {s' : GS F E} (h : (removeEdgeBothS sl o t u v (dress S V T b)).st? = some s') :
    ∃ b', (removeEdgeBoth o t u v b).st? = some b' ∧ s'.g = b'.g ∧ s'.subs = S ∧ Plain b' ∧ (∀ q, Later (V q) (s'.views q)) ∧
      s'.trace = T ++ b'.trace := by
  unfold removeEdgeBothS removeEdgeBoth at *
  have hg : (dress S V T b).g = b.g := rfl
  rw [hg] at h
  cases h1 : b.g.edge u v with
  | none =>
    rw [h1] at h
    simp only [Res.st?, Option.some.injEq] at h
    subst h
    exact ⟨b, rfl, rfl, rfl, hb, fun q => .refl _, rfl⟩
  | some e1 =>
    cases h2 : b.g.edge v u with
    | none =>
      rw [h1, h2] at h
      simp only [Res.st?, Option.some.injEq] at h
      subst h
      exact ⟨b, rfl, rfl, rfl, hb, fun q => .refl _, rfl⟩
    | some e2 =>
      rw [h1, h2] at h
      simp only at h ⊢
      cases h3 : b.g.removeEdge e1.id with
      | none => rw [h3] at h; cases h
      | some g1 =>
        rw [h3] at h
        simp only at h ⊢
        cases h4 : g1.removeEdge e2.id with
        | none => rw [h4] at h; cases h
        | some g2 =>
          rw [h4] at h
          have hs : (notify (.edgeRemoved o t) { b with g := g1 }).subs = [] := hb.1
          simp only [hs, removeEdgeFromTreeViews]
          refine ⟨_, rfl, ?_⟩
          simp only at h
          rw [rmViewsS_over] at h
          have hl : ∀ vs, (overViews (rmViewS sl u v) S V).st? = some vs → ∀ q, Later (V q) (vs q) := fun vs hvs =>
            overViews_later (fun p w w' hw => rmViewS_later hw) hvs
          split at h
          · rename_i vs hx
            simp only [Res.st?, Option.some.injEq] at h
            subst h
            exact ⟨rfl, rfl, ⟨rfl, hb.2⟩, hl vs (by have hx' : overViews (rmViewS sl u v) S V = _ := hx; rw [hx']; rfl), by simp [notify, dress]⟩
          · rename_i vs hx
            simp only [Res.st?, Option.some.injEq] at h
            subst h
            exact ⟨rfl, rfl, ⟨rfl, hb.2⟩, hl vs (by have hx' : overViews (rmViewS sl u v) S V = _ := hx; rw [hx']; rfl), by simp [notify, dress]⟩
          · cases h

theorem removeEdgeDS_dress {sl : Slots} {S : List Nat} {V : Nat → TreeView} {T : List (Event × G F E)} {b : GS F E} (hb : Plain b)
    (hw : WF b.g) {f : FrameId} {u v : VId} (hf : b.g.vertexOf f = some u) {s' : GS F E}
    (h : (removeEdgeDS sl u v (dress S V T b)).st? = some s') :
    ∃ t b', (exec (.removeEdge f t) b).st? = some b' ∧ s'.g = b'.g ∧ s'.subs = S ∧ Plain b' ∧ (∀ q, Later (V q) (s'.views q)) ∧
      s'.trace = T ++ b'.trace := by
  unfold removeEdgeDS at h
  have hg : (dress S V T b).g = b.g := rfl
  rw [hg] at h
  split at h
  · rename_i ro rt hro hrt
    obtain ⟨m1, i1⟩ := G.findV_some hro
    obtain ⟨m2, i2⟩ := G.findV_some hrt
    have hu := hw.vertexOf_iff.2 ⟨ro, m1, i1, rfl⟩
    have hv := hw.vertexOf_iff.2 ⟨rt, m2, i2, rfl⟩
    have hfo : FrameProp.getId ro.prop = f := hw.vertexOf_inj hu hf
    obtain ⟨b', k⟩ := removeEdgeBothS_dress hb h
    refine ⟨FrameProp.getId rt.prop, b', ?_, k.2⟩
    simp only [exec, removeEdge, hf, hv]
    rw [← hfo]; exact k.1
  · cases h

theorem removeEdge_vertexOf {o t f : FrameId} {b b' : GS F E} (h : (exec (.removeEdge o t) b).st? = some b') :
    b'.g.vertexOf f = b.g.vertexOf f := by
  have hl : ∀ {g g1 : G F E} {e : EId}, g.removeEdge e = some g1 → g1.labels = g.labels := by
    intro g g1 e h
    unfold G.removeEdge at h
    split at h
    · cases h; rfl
    · cases h
  simp only [exec, removeEdge] at h
  split at h
  · simp only [Res.st?, Option.some.injEq] at h; subst h; rfl
  · split at h
    · simp only [Res.st?, Option.some.injEq] at h; subst h; rfl
    · unfold removeEdgeBoth at h
      split at h
      · split at h
        · cases h
        · rename_i g1 h1
          simp only at h
          split at h
          · cases h
          · rename_i g2 h2
            have : g2.vertexOf f = b.g.vertexOf f := by simp only [G.vertexOf, hl h2, hl h1]
            split at h
            · simp only [Res.st?, Option.some.injEq] at h; subst h; exact this
            · simp only [Res.st?, Option.some.injEq] at h; subst h; exact this
            · cases h
      · simp only [Res.st?, Option.some.injEq] at h; subst h; rfl

theorem run_one {c : Cmd F E} {cs : List (Cmd F E)} {s s1 : GS F E} (h : (exec c s).st? = some s1) : run (c :: cs) s = run cs s1 := by
  simp only [run]
  cases hx : exec c s with
  | ok a t => rw [hx] at h; cases h; rfl
  | throw x t => rw [hx] at h; cases h; rfl
  | ub r => rw [hx] at h; cases h

theorem disconnectLoopS_dress {sl : Slots} {S : List Nat} {T : List (Event × G F E)} {f : FrameId} {u : VId} (n : Nat) :
    ∀ {V : Nat → TreeView} {b : GS F E} {s' : GS F E}, Plain b → WF b.g → b.g.vertexOf f = some u →
    (disconnectLoopS sl u n (dress S V T b)).st? = some s' →
    ∃ (ts : List FrameId) (b' : GS F E), run (ts.map (Cmd.removeEdge f)) b = some b' ∧ s'.g = b'.g ∧ s'.subs = S ∧ Plain b' ∧
      (∀ q, Later (V q) (s'.views q)) ∧ s'.trace = T ++ b'.trace := by
  induction n with
  | zero =>
    intro V b s' hb hw hf h
    unfold disconnectLoopS at h
    split at h
    · simp only [Res.st?, Option.some.injEq] at h; subst h
      exact ⟨[], b, rfl, rfl, rfl, hb, fun q => .refl _, rfl⟩
    · cases h
  | succ n ih =>
    intro V b s' hb hw hf h
    unfold disconnectLoopS at h
    split at h
    · simp only [Res.st?, Option.some.injEq] at h; subst h
      exact ⟨[], b, rfl, rfl, rfl, hb, fun q => .refl _, rfl⟩
    · simp only at h
      split at h
      · rename_i s1 hx
        obtain ⟨t, b1, k1, k2, k3, k4, k5, k6⟩ := removeEdgeDS_dress hb hw hf (s' := s1) (by rw [hx]; rfl)
        have hs1 : s1 = dress S s1.views T b1 := by
          cases s1; simp only at k2 k3 k6; simp only [dress, k2, k3, k6]
        rw [hs1] at h
        obtain ⟨ts, b2, m1, m2, m3, m4, m5, m6⟩ := ih k4 ((exec_advances hw k1).wf hw) (by rw [removeEdge_vertexOf k1]; exact hf) h
        exact ⟨t :: ts, b2, by rw [List.map_cons, run_one k1]; exact m1, m2, m3, m4, fun q => (k5 q).trans (m5 q), m6⟩
      · rename_i s1 hx
        obtain ⟨t, b1, k1, k2, k3, k4, k5, k6⟩ := removeEdgeDS_dress hb hw hf (s' := s1) (by rw [hx]; rfl)
        simp only [Res.st?, Option.some.injEq] at h; subst h
        exact ⟨[t], b1, by rw [List.map_cons, run_one k1]; rfl, k2, k3, k4, k5, k6⟩
      · cases h

theorem addEdgeS_solo {sl : Slots} {o t : FrameId} {p : E} {s s' : GS F E} (hw : WF s.g)
    (h : (addEdgeS sl o t p s).st? = some s') :
    ∃ b', (exec (.addEdge o t p) (solo s)).st? = some b' ∧ s'.g = b'.g ∧ s'.subs = s.subs ∧ Plain b' ∧
      (∀ q, Later (s.views q) (s'.views q)) ∧
      (s'.trace = s.trace ++ b'.trace ∧ ((∃ x, exec (.addEdge o t p) (solo s) = .throw x b') ∨ addEdgeS sl o t p s = .ok () s') ∨
        (∃ x, addEdgeS sl o t p s = .throw x s') ∧ exec (.addEdge o t p) (solo s) = .ok () b' ∧
        ∃ i, s.trace ++ b'.trace = s'.trace ++ [(.edgeAdded o t i, s'.g)]) := by
  have hg : (solo s).g = s.g := rfl
  obtain ⟨a1, a2, a3⟩ := orCreate_spec (f := o) (s := solo s) (s0 := s) (fun _ _ h => h)
  obtain ⟨c1, c2, c3⟩ := orCreate_spec (f := t) (s := (orCreate o (s.g.vertexOf o) (solo s)).1) (s0 := s) (fun f v h => a3 f v h)
  have hw2 : WF (orCreate t (s.g.vertexOf t) (orCreate o (s.g.vertexOf o) (solo s)).1).1.g := c1.wf (a1.wf hw)
  have ho2 := c3 _ _ a2
  have key : addEdgeS sl o t p s = addEdgeDS sl (orCreate o (s.g.vertexOf o) (solo s)).2
      (orCreate t (s.g.vertexOf t) (orCreate o (s.g.vertexOf o) (solo s)).1).2 p
      (dress s.subs s.views s.trace (orCreate t (s.g.vertexOf t) (orCreate o (s.g.vertexOf o) (solo s)).1).1) := by
    conv_lhs => rw [← dress_solo s]
    simp only [addEdgeS, orCreate_dress]
    rfl
  rw [key] at h
  obtain ⟨b', k1, k2, k3, k4, k5, k6⟩ := addEdgeDS_dress (orCreate_plain (orCreate_plain (.solo s))) h
  refine ⟨b', k1, k2, k3, k4, k5, ?_⟩
  rcases k6 with k6 | ⟨⟨x, k6⟩, k7, ru, rv, k8, k9, k10⟩
  · rw [key]; exact Or.inl k6
  · refine Or.inr ⟨⟨x, by rw [key]; exact k6⟩, k7,
      (orCreate t (s.g.vertexOf t) (orCreate o (s.g.vertexOf o) (solo s)).1).1.g.nextE, ?_⟩
    obtain ⟨m1, i1⟩ := G.findV_some k8
    obtain ⟨m2, i2⟩ := G.findV_some k9
    have n1 : FrameProp.getId ru.prop = o := hw2.vertexOf_inj (hw2.vertexOf_iff.2 ⟨ru, m1, i1, rfl⟩) ho2
    have n2 : FrameProp.getId rv.prop = t := hw2.vertexOf_inj (hw2.vertexOf_iff.2 ⟨rv, m2, i2, rfl⟩) c2
    rw [k10, n1, n2]

theorem removeEdgeS_solo {sl : Slots} {o t : FrameId} {s s' : GS F E} (h : (removeEdgeS sl o t s).st? = some s') :
    ∃ b', (exec (.removeEdge o t) (solo s)).st? = some b' ∧ s'.g = b'.g ∧ s'.subs = s.subs ∧ Plain b' ∧
      (∀ q, Later (s.views q) (s'.views q)) ∧ s'.trace = s.trace ++ b'.trace := by
  rw [← dress_solo s] at h
  unfold removeEdgeS at h
  have hg : (dress s.subs s.views s.trace (solo s)).g = s.g := rfl
  have hg' : (solo s).g = s.g := rfl
  rw [hg] at h
  simp only [exec, removeEdge, hg']
  cases ho : s.g.vertexOf o with
  | none =>
    rw [ho] at h
    simp only [Res.st?, Option.some.injEq] at h; subst h
    exact ⟨_, rfl, rfl, rfl, .solo s, fun q => .refl _, rfl⟩
  | some u =>
    rw [ho] at h
    simp only at h ⊢
    cases ht : s.g.vertexOf t with
    | none =>
      rw [ht] at h
      simp only [Res.st?, Option.some.injEq] at h; subst h
      exact ⟨_, rfl, rfl, rfl, .solo s, fun q => .refl _, rfl⟩
    | some v =>
      rw [ht] at h
      exact removeEdgeBothS_dress (.solo s) h

theorem disconnectFrameS_solo {sl : Slots} {f : FrameId} {s s' : GS F E} (hw : WF s.g) (h : (disconnectFrameS sl f s).st? = some s') :
    ∃ (ts : List FrameId) (b' : GS F E), run (ts.map (Cmd.removeEdge f)) (solo s) = some b' ∧ s'.g = b'.g ∧ s'.subs = s.subs ∧ Plain b' ∧
      (∀ q, Later (s.views q) (s'.views q)) ∧ s'.trace = s.trace ++ b'.trace := by
  unfold disconnectFrameS at h
  split at h
  · simp only [Res.st?, Option.some.injEq] at h; subst h
    exact ⟨[], solo s, rfl, rfl, rfl, .solo s, fun q => .refl _, by simp [solo]⟩
  · rename_i v hv
    rw [← dress_solo s] at h
    exact disconnectLoopS_dress _ (.solo s) hw hv h

theorem getTreeIntoS_cut (sl : TreeView → Option Exn) (g : G F E) (r : VId) (w : TreeView) :
    SlotCut sl (getTreeInto g r w) (getTreeIntoS sl g r w) := by
  unfold getTreeInto getTreeIntoS
  cases searchEvents g r with
  | none => exact Or.inl rfl
  | some evs => exact buildS_cut _ _ _

theorem getTreeIntoS_later {sl : TreeView → Option Exn} {g : G F E} {r : VId} {w w' : TreeView}
    (h : (getTreeIntoS sl g r w).st? = some w') : Later (w.addRoot r) w' := by
  unfold getTreeIntoS at h
  split at h
  · cases h
  · exact buildS_later _ _ h

theorem getTreeS_same {sl : Slots} {f : FrameId} {k : Bool} {p : Nat} {s s' : GS F E} (h : (getTreeS sl f k p s).st? = some s') :
    s'.g = s.g ∧ s'.trace = s.trace := by
  unfold getTreeS at h
  split at h
  · simp only [Res.st?, Option.some.injEq] at h; subst h; exact ⟨rfl, rfl⟩
  · split at h
    · cases h
    · simp only [Res.st?, Option.some.injEq] at h; subst h; exact ⟨rfl, rfl⟩
    · simp only at h
      split at h
      · unfold subscribeTreeView at h
        split at h
        · cases h
        · simp only [Res.st?, Option.some.injEq] at h; subst h; exact ⟨rfl, rfl⟩
      · simp only [Res.st?, Option.some.injEq] at h; subst h; exact ⟨rfl, rfl⟩

theorem exec_solo_simple {c : Cmd F E} (hc : (∃ f, c = .addFrame f) ∨ (∃ f p, c = .emplaceFrame f p) ∨ (∃ f, c = .removeFrame f) ∨
    ∃ o t p, c = .setEdge o t p) {s s' : GS F E} (h : (exec c s).st? = some s') :
    ∃ b', (exec c (solo s)).st? = some b' ∧ s'.g = b'.g ∧ s'.subs = s.subs ∧ Plain b' ∧ s'.views = s.views ∧
      s'.trace = s.trace ++ b'.trace := by
  have hg : (solo s).g = s.g := rfl
  rcases hc with ⟨f, rfl⟩ | ⟨f, p, rfl⟩ | ⟨f, rfl⟩ | ⟨o, t, p, rfl⟩
  · simp only [exec, st?_discard, addFrame, hg] at h ⊢
    cases hv : s.g.vertexOf f with
    | none =>
      rw [hv] at h
      simp only [Res.st?, Option.some.injEq] at h; subst h
      exact ⟨_, rfl, rfl, rfl, ⟨rfl, rfl⟩, rfl, by simp [addVertexN, notify, solo]⟩
    | some v =>
      rw [hv] at h
      simp only [Res.st?, Option.some.injEq] at h; subst h
      exact ⟨_, rfl, rfl, rfl, .solo s, rfl, by simp [solo]⟩
  · simp only [exec, st?_discard, emplaceFrame, hg] at h ⊢
    cases hv : s.g.vertexOf f with
    | none =>
      rw [hv] at h
      simp only [Res.st?, Option.some.injEq] at h; subst h
      exact ⟨_, rfl, rfl, rfl, ⟨rfl, rfl⟩, rfl, by simp [addVertexN, notify, solo]⟩
    | some v =>
      rw [hv] at h
      simp only [Res.st?, Option.some.injEq] at h; subst h
      exact ⟨_, rfl, rfl, rfl, .solo s, rfl, by simp [solo]⟩
  · simp only [exec, removeFrame, hg] at h ⊢
    cases hv : s.g.vertexOf f with
    | none =>
      rw [hv] at h
      simp only [Res.st?, Option.some.injEq] at h; subst h
      exact ⟨_, rfl, rfl, rfl, .solo s, rfl, by simp [solo]⟩
    | some v =>
      rw [hv] at h
      simp only at h ⊢
      split at h
      · rename_i hd
        rw [if_pos hd]
        simp only [Res.st?, Option.some.injEq] at h; subst h
        exact ⟨_, rfl, rfl, rfl, .solo s, rfl, by simp [solo]⟩
      · rename_i hd
        rw [if_neg hd]
        simp only [Res.st?, Option.some.injEq] at h; subst h
        exact ⟨_, rfl, rfl, rfl, ⟨rfl, rfl⟩, rfl, by simp [notify, solo]⟩
  · simp only [exec, setEdgeProperty, hg] at h ⊢
    cases ho : s.g.vertexOf o with
    | none =>
      rw [ho] at h
      simp only [Res.st?, Option.some.injEq] at h; subst h
      exact ⟨_, rfl, rfl, rfl, .solo s, rfl, by simp [solo]⟩
    | some u =>
      cases ht : s.g.vertexOf t with
      | none =>
        rw [ho, ht] at h
        simp only [Res.st?, Option.some.injEq] at h; subst h
        exact ⟨_, rfl, rfl, rfl, .solo s, rfl, by simp [solo]⟩
      | some v =>
        rw [ho, ht] at h
        simp only at h ⊢
        cases he : s.g.edge u v with
        | none =>
          rw [he] at h
          simp only [Res.st?, Option.some.injEq] at h; subst h
          exact ⟨_, rfl, rfl, rfl, .solo s, rfl, by simp [solo]⟩
        | some e1 =>
          rw [he] at h
          simp only at h ⊢
          cases he2 : (s.g.setProp e1.id p).edge v u with
          | none => rw [he2] at h; cases h
          | some e2 =>
            rw [he2] at h
            simp only [Res.st?, Option.some.injEq] at h; subst h
            exact ⟨_, rfl, rfl, rfl, ⟨rfl, rfl⟩, rfl, by simp [notify, solo]⟩

/-- the graph after a call is the one that some calls without views make -/
theorem execS_solo {sl : Slots} {c : Cmd F E} {s s' : GS F E} (hw : WF s.g) (h : (execS sl c s).st? = some s') :
    ∃ cs b', run cs (solo s) = some b' ∧ s'.g = b'.g ∧ Plain b' ∧ (c.noSelf → ∀ d ∈ cs, d.noSelf) := by
  have simp1 : (execS sl c s = exec c s) → ((∃ f, c = .addFrame f) ∨ (∃ f p, c = .emplaceFrame f p) ∨ (∃ f, c = .removeFrame f) ∨
      ∃ o t p, c = .setEdge o t p) → ∃ cs b', run cs (solo s) = some b' ∧ s'.g = b'.g ∧ Plain b' ∧ (c.noSelf → ∀ d ∈ cs, d.noSelf) := by
    intro he hc
    rw [he] at h
    obtain ⟨b', k1, k2, -, k4, -⟩ := exec_solo_simple hc h
    refine ⟨[c], b', by rw [run_one k1]; rfl, k2, k4, ?_⟩
    intro hn d hd
    rw [List.mem_singleton.1 hd]; exact hn
  cases c with
  | addFrame f => exact simp1 rfl (Or.inl ⟨f, rfl⟩)
  | emplaceFrame f p => exact simp1 rfl (Or.inr (Or.inl ⟨f, p, rfl⟩))
  | removeFrame f => exact simp1 rfl (Or.inr (Or.inr (Or.inl ⟨f, rfl⟩)))
  | setEdge o t p => exact simp1 rfl (Or.inr (Or.inr (Or.inr ⟨o, t, p, rfl⟩)))
  | disconnectFrame f =>
    obtain ⟨ts, b', k1, k2, -, k4, -⟩ := disconnectFrameS_solo hw h
    refine ⟨_, b', k1, k2, k4, ?_⟩
    intro _ d hd
    obtain ⟨t, -, rfl⟩ := List.mem_map.1 hd
    trivial
  | addEdge o t p =>
    obtain ⟨b', k1, k2, -, k4, -⟩ := addEdgeS_solo hw h
    refine ⟨[.addEdge o t p], b', by rw [run_one k1]; rfl, k2, k4, ?_⟩
    intro hn d hd
    rw [List.mem_singleton.1 hd]; exact hn
  | removeEdge o t =>
    obtain ⟨b', k1, k2, -, k4, -⟩ := removeEdgeS_solo h
    refine ⟨[.removeEdge o t], b', by rw [run_one k1]; rfl, k2, k4, ?_⟩
    intro hn d hd
    rw [List.mem_singleton.1 hd]; exact hn
  | getTree f k p => exact ⟨[], solo s, rfl, (getTreeS_same h).1, .solo s, fun _ d hd => by cases hd⟩
  | unsubscribeView p =>
    simp only [execS, exec, Res.st?, Option.some.injEq] at h
    subst h
    exact ⟨[], solo s, rfl, (unsubscribeView_same p s).1, .solo s, fun _ d hd => by cases hd⟩

theorem runS_cons {sl : Slots} {c : Cmd F E} {cs : List (Cmd F E)} {s s' : GS F E} (h : runS sl (c :: cs) s = some s') :
    ∃ s1, (execS sl c s).st? = some s1 ∧ runS sl cs s1 = some s' := by
  unfold runS at h
  split at h
  · rename_i s1 h1; exact ⟨s1, by rw [h1]; rfl, h⟩
  · rename_i s1 h1; exact ⟨s1, by rw [h1]; rfl, h⟩
  · cases h

theorem runS_solo {sl : Slots} {calls : List (Cmd F E)} : ∀ {s s' : GS F E}, WF s.g → runS sl calls s = some s' →
    ∃ cs b', run cs (solo s) = some b' ∧ s'.g = b'.g ∧ Plain b' ∧ ((∀ c ∈ calls, c.noSelf) → ∀ d ∈ cs, d.noSelf) := by
  induction calls with
  | nil =>
    intro s s' hw h
    simp only [runS, Option.some.injEq] at h
    subst h
    exact ⟨[], solo s, rfl, rfl, .solo s, fun _ d hd => by cases hd⟩
  | cons c calls ih =>
    intro s s' hw h
    obtain ⟨s1, h1, h2⟩ := runS_cons h
    obtain ⟨cs, b1, k1, k2, k3, k4⟩ := execS_solo hw h1
    have hw1 : WF s1.g := by rw [k2]; exact run_wf (s := solo s) hw k1
    obtain ⟨ds, b2, m1, m2, m3, m4⟩ := ih hw1 h2
    have hb1 : b1 = under b1.trace (solo s1) := by
      obtain ⟨p1, p2⟩ := k3
      cases b1
      simp only at k2 p1 p2
      simp [under, solo, k2, p1, p2]
    refine ⟨cs ++ ds, under b1.trace b2, run_append_some k1 ?_, m2, m3, ?_⟩
    · rw [hb1, run_under, m1]; simp [under, solo]
    · intro hn d hd
      rcases List.mem_append.1 hd with hd | hd
      · exact k4 (hn c (by simp)) d hd
      · exact m4 (fun c' hc' => hn c' (by simp [hc'])) d hd

/-! ### subscribed views -/

theorem SubsInv.later {s s' : GS F E} (hi : SubsInv s) (h : s'.subs = s.subs) (hl : ∀ q, Later (s.views q) (s'.views q)) : SubsInv s' :=
  ⟨h ▸ hi.1, fun q => by rw [h, (hl q).2]; exact hi.2 q⟩

theorem execS_subsInv {sl : Slots} {c : Cmd F E} {s s' : GS F E} (hw : WF s.g) (hi : SubsInv s) (h : (execS sl c s).st? = some s') :
    SubsInv s' := by
  cases c with
  | disconnectFrame f => obtain ⟨ts, b', -, -, k3, -, k5, -⟩ := disconnectFrameS_solo hw h; exact hi.later k3 k5
  | addEdge o t p => obtain ⟨b', -, -, k3, -, k5, -⟩ := addEdgeS_solo hw h; exact hi.later k3 k5
  | removeEdge o t => obtain ⟨b', -, -, k3, -, k5, -⟩ := removeEdgeS_solo h; exact hi.later k3 k5
  | getTree f k p =>
    simp only [execS, getTreeS] at h
    split at h
    · simp only [Res.st?, Option.some.injEq] at h; subst h; exact hi
    · rename_i v hv
      have hp : ∀ w, (getTreeIntoS (sl p) s.g v (s.views p)).st? = some w → w.publisher = (s.views p).publisher :=
        fun w hw => (getTreeIntoS_later hw).2
      have hset : ∀ w, (getTreeIntoS (sl p) s.g v (s.views p)).st? = some w → SubsInv { s with views := setView s.views p w } := by
        intro w hw
        refine ⟨hi.1, fun q => ?_⟩
        by_cases hq : q = p
        · subst hq; simp only [setView, if_true, hp w hw]; exact hi.2 q
        · simp only [setView, if_neg hq]; exact hi.2 q
      split at h
      · cases h
      · rename_i w hx
        simp only [Res.st?, Option.some.injEq] at h; subst h
        exact hset w (by rw [hx]; rfl)
      · rename_i w hx
        have hs := hset w (by rw [hx]; rfl)
        split at h
        · unfold subscribeTreeView at h
          split at h
          · cases h
          · rename_i hnp
            have hnot : p ∉ s.subs := fun hh => hnp ((hs.2 p).1 hh)
            simp only [Res.st?, Option.some.injEq] at h; subst h
            refine ⟨?_, fun q => ?_⟩
            · simp only [List.nodup_append]
              exact ⟨hi.1, by simp, fun a ha b hb => by rintro rfl; rw [List.mem_singleton] at hb; subst hb; exact hnot ha⟩
            · simp only [List.mem_append, List.mem_singleton]
              by_cases hq : q = p
              · subst hq; simp [setView]
              · have := hi.2 q
                simp only [setView, if_neg hq, hq, or_false]; exact this
        · simp only [Res.st?, Option.some.injEq] at h; subst h; exact hs
  | addFrame f => exact exec_subsInv (c := .addFrame f) hi h
  | emplaceFrame f p => exact exec_subsInv (c := .emplaceFrame f p) hi h
  | removeFrame f => exact exec_subsInv (c := .removeFrame f) hi h
  | setEdge o t p => exact exec_subsInv (c := .setEdge o t p) hi h
  | unsubscribeView p => exact exec_subsInv (c := .unsubscribeView p) hi h

theorem runS_wf {sl : Slots} {calls : List (Cmd F E)} {s s' : GS F E} (hw : WF s.g) (h : runS sl calls s = some s') : WF s'.g := by
  obtain ⟨cs, b', k1, k2, -⟩ := runS_solo hw h
  rw [k2]; exact run_wf (s := solo s) hw k1

theorem runS_subsInv {sl : Slots} {calls : List (Cmd F E)} : ∀ {s s' : GS F E}, WF s.g → SubsInv s → runS sl calls s = some s' →
    SubsInv s' := by
  induction calls with
  | nil => intro s s' _ hi h; simp only [runS, Option.some.injEq] at h; subst h; exact hi
  | cons c calls ih =>
    intro s s' hw hi h
    obtain ⟨s1, h1, h2⟩ := runS_cons h
    obtain ⟨cs, b1, k1, k2, -⟩ := execS_solo hw h1
    exact ih (by rw [k2]; exact run_wf (s := solo s) hw k1) (execS_subsInv hw hi h1) h2

/-! ### where a call departs from the call without slots -/

theorem addEdgeS_cut {sl : Slots} {o t : FrameId} {p : E} {s : GS F E} (hn : s.subs.Nodup)
    (h : addEdgeS sl o t p s ≠ addEdge o t p s) :
    ∃ x s' a k b, addEdgeS sl o t p s = .throw x s' ∧ s.subs = a ++ k :: b ∧ sl k (s'.views k) = some x ∧
      (∀ q, q ∉ a → q ≠ k → s'.views q = s.views q) ∧
      ∀ u, (addEdge o t p s).st? = some u → (∀ q ∈ a, s'.views q = u.views q) ∧ Later (s'.views k) (u.views k) := by
  have hsub : ∀ (f : FrameId) (v : Option VId) (s : GS F E), (orCreate f v s).1.subs = s.subs ∧ (orCreate f v s).1.views = s.views := by
    intro f v s; unfold orCreate; split <;> exact ⟨rfl, rfl⟩
  unfold addEdgeS addEdge at *
  simp only at h ⊢
  have e1 := (hsub t (s.g.vertexOf t) (orCreate o (s.g.vertexOf o) s).1)
  have e2 := (hsub o (s.g.vertexOf o) s)
  rw [e2.1, e2.2] at e1
  generalize (orCreate o (s.g.vertexOf o) s).2 = vo at *
  generalize (orCreate t (s.g.vertexOf t) (orCreate o (s.g.vertexOf o) s).1).2 = vt at *
  generalize (orCreate t (s.g.vertexOf t) (orCreate o (s.g.vertexOf o) s).1).1 = s2 at *
  unfold addEdgeDS addEdgeD at *
  cases hu : s2.g.findV vo with
  | none => rw [hu] at h; exact absurd rfl h
  | some ru =>
    cases hv : s2.g.findV vt with
    | none => rw [hu, hv] at h; exact absurd rfl h
    | some rv =>
      rw [hu, hv] at h
      simp only at h ⊢
      cases he : s2.g.edge vo vt with
      | some e => rw [he] at h; exact absurd rfl h
      | none =>
        rw [he] at h
        simp only at h ⊢
        rw [addViewsS_over, addViews_over, e1.1, e1.2] at h ⊢
        have hne : overViews (fun k => addEdgeToTreeViewS (sl k) ((s2.g.addEdge vo vt p).1.addEdge vt vo (EdgeProp.inverse p)).1
            (s2.g.addEdge vo vt p).2) s.subs s.views ≠ overViews (fun _ => addEdgeToTreeView
            ((s2.g.addEdge vo vt p).1.addEdge vt vo (EdgeProp.inverse p)).1 (s2.g.addEdge vo vt p).2) s.subs s.views := by
          intro hh
          rw [hh] at h
          apply h
          cases overViews (fun _ => addEdgeToTreeView
            ((s2.g.addEdge vo vt p).1.addEdge vt vo (EdgeProp.inverse p)).1 (s2.g.addEdge vo vt p).2) s.subs s.views <;> rfl
        obtain ⟨x, vs', a, k, b, k1, k2, k3, k4, k5⟩ := overViews_cut
          (fun k w => addEdgeToTreeViewS_cut (sl k) _ _ w) hn hne
        refine ⟨x, _, a, k, b, by rw [k1], k2, k3, k4, ?_⟩
        intro u hu2
        split at hu2
        · rename_i vt' hx
          simp only [Res.st?, Option.some.injEq] at hu2; subst hu2
          exact k5 vt' (by rw [hx]; rfl)
        · rename_i vt' hx
          simp only [Res.st?, Option.some.injEq] at hu2; subst hu2
          exact k5 vt' (by rw [hx]; rfl)
        · cases hu2

theorem removeEdgeS_cut' {sl : Slots} {o t : FrameId} {s : GS F E} (hn : s.subs.Nodup)
    (h : removeEdgeS sl o t s ≠ removeEdge o t s) :
    ∃ x s' a k b, removeEdgeS sl o t s = .throw x s' ∧ s.subs = a ++ k :: b ∧ sl k (s'.views k) = some x ∧
      (∀ q, q ∉ a → q ≠ k → s'.views q = s.views q) ∧
      ∀ u, (removeEdge o t s).st? = some u → (∀ q ∈ a, s'.views q = u.views q) ∧ Later (s'.views k) (u.views k) := by
  unfold removeEdgeS removeEdge at *
  cases ho : s.g.vertexOf o with
  | none => rw [ho] at h; exact absurd rfl h
  | some vo =>
    cases ht : s.g.vertexOf t with
    | none => rw [ho, ht] at h; exact absurd rfl h
    | some vt =>
      rw [ho, ht] at h
      simp only at h ⊢
      unfold removeEdgeBothS removeEdgeBoth at *
      cases h1 : s.g.edge vo vt with
      | none => rw [h1] at h; exact absurd rfl h
      | some e1 =>
        cases h2 : s.g.edge vt vo with
        | none => rw [h1, h2] at h; exact absurd rfl h
        | some e2 =>
          rw [h1, h2] at h
          simp only at h ⊢
          cases h3 : s.g.removeEdge e1.id with
          | none => rw [h3] at h; exact absurd rfl h
          | some g1 =>
            rw [h3] at h
            simp only at h ⊢
            cases h4 : g1.removeEdge e2.id with
            | none => rw [h4] at h; exact absurd rfl h
            | some g2 =>
              rw [h4] at h
              simp only [notify] at h ⊢
              rw [rmViewsS_over, rmViews_over] at h ⊢
              have hne : overViews (rmViewS sl vo vt) s.subs s.views ≠ overViews (rmView vo vt) s.subs s.views := by
                intro hh
                rw [hh] at h
                apply h
                cases overViews (rmView vo vt) s.subs s.views <;> rfl
              obtain ⟨x, vs', a, k, b, k1, k2, k3, k4, k5⟩ := overViews_cut (fun k w => rmViewS_cut sl vo vt k w) hn hne
              refine ⟨x, _, a, k, b, by rw [k1], k2, k3, k4, ?_⟩
              intro u hu2
              split at hu2
              · rename_i vt' hx
                simp only [Res.st?, Option.some.injEq] at hu2; subst hu2
                exact k5 vt' (by rw [hx]; rfl)
              · rename_i vt' hx
                simp only [Res.st?, Option.some.injEq] at hu2; subst hu2
                exact k5 vt' (by rw [hx]; rfl)
              · cases hu2

end GS
end Verif
