import Verif.Lemmas.ShuffleCalls
import Verif.Lemmas.ForestHistory
set_option linter.unusedSectionVars false
/-! Histories with views that differ only in the order of the children. -/

namespace Verif
namespace GS
open TreeView (Tidy)
variable {F E : Type} [FrameProp F] [EdgeProp E]

theorem run_shuffled (cs : List (Cmd F E)) : ∀ {s r : GS F E}, run cs s = some r → RunShuffled cs s r := by
  induction cs with
  | nil => intro s r h; simp only [run, Option.some.injEq] at h; subst h; exact .nil (.refl _)
  | cons c cs ih =>
    intro s r h
    unfold run at h
    cases hx : exec c s with
    | ok a s1 => rw [hx] at h; exact .ok (.refl _) hx (ih h)
    | throw x s1 => rw [hx] at h; exact .throw (.refl _) hx (ih h)
    | ub m => rw [hx] at h; cases h

theorem run_none_breaks (cs : List (Cmd F E)) : ∀ {s : GS F E}, run cs s = none → CanBreak cs s := by
  induction cs with
  | nil => intro s h; cases h
  | cons c cs ih =>
    intro s h
    unfold run at h
    cases hx : exec c s with
    | ok a s1 => rw [hx] at h; exact .ok (.refl _) hx (ih h)
    | throw x s1 => rw [hx] at h; exact .throw (.refl _) hx (ih h)
    | ub m => exact .here (.refl _) (by rw [hx]; trivial)

/-- two executions of a history with tidy views end alike -/
theorem runShuffled_alike (cs : List (Cmd F E)) : ∀ {s s' r r' : GS F E}, Shuffle s s' → RunShuffled cs s r → RunShuffled cs s' r' →
    (∀ ds es, cs = ds ++ es → ∀ u, RunShuffled ds s u → TidySubs u) → Shuffle r r' := by
  induction cs with
  | nil =>
    intro s s' r r' h h1 h2 _
    cases h1 with
    | nil h1 => cases h2 with
      | nil h2 => exact h1.symm.trans (h.trans h2)
  | cons c cs ih =>
    intro s s' r r' h h1 h2 k
    have step : ∀ {u u' : GS F E}, Shuffle s u → Shuffle s' u' → SameOutcome (exec c u) (exec c u') ∨ IsUB (exec c u) ∨ IsUB (exec c u') := by
      intro u u' hu hu'
      exact exec_shuffle c (hu.symm.trans (h.trans hu')) (k [] (c :: cs) rfl u (.nil hu))
    cases h1 with
    | ok a1 a2 a3 =>
      have k' : ∀ ds es, cs = ds ++ es → ∀ u, RunShuffled ds _ u → TidySubs u :=
        fun ds es e u hu => k (c :: ds) es (by rw [e]; rfl) u (.ok a1 a2 hu)
      cases h2 with
      | ok b1 b2 b3 =>
        have := step a1 b1
        rw [a2, b2] at this
        rcases this with h3 | h3 | h3
        · cases h3 with | ok h3 => exact ih h3 a3 b3 k'
        · exact h3.elim
        · exact h3.elim
      | throw b1 b2 b3 =>
        have := step a1 b1
        rw [a2, b2] at this
        rcases this with h3 | h3 | h3
        · cases h3
        · exact h3.elim
        · exact h3.elim
    | throw a1 a2 a3 =>
      have k' : ∀ ds es, cs = ds ++ es → ∀ u, RunShuffled ds _ u → TidySubs u :=
        fun ds es e u hu => k (c :: ds) es (by rw [e]; rfl) u (.throw a1 a2 hu)
      cases h2 with
      | ok b1 b2 b3 =>
        have := step a1 b1
        rw [a2, b2] at this
        rcases this with h3 | h3 | h3
        · cases h3
        · exact h3.elim
        · exact h3.elim
      | throw b1 b2 b3 =>
        have := step a1 b1
        rw [a2, b2] at this
        rcases this with h3 | h3 | h3
        · cases h3 with | throw h3 => exact ih h3 a3 b3 k'
        · exact h3.elim
        · exact h3.elim

theorem runSame (cs : List (Cmd F E)) (hc : ∀ c ∈ cs, c.noRemoval) : ∀ {s s' r' : GS F E}, Shuffle s s' → RunShuffled cs s' r' →
    ∃ r, run cs s = some r ∧ Shuffle r r' := by
  induction cs with
  | nil => intro s s' r' h h1; cases h1 with | nil h1 => exact ⟨s, rfl, h.trans h1⟩
  | cons c cs ih =>
    intro s s' r' h h1
    have ih := @ih (fun c h => hc c (by simp [h]))
    cases h1 with
    | ok a1 a2 a3 =>
      have h2 := exec_same c (hc c (by simp)) (h.trans a1)
      rw [a2] at h2
      generalize hx : exec c s = x at h2
      cases h2 with
      | ok h2 =>
        obtain ⟨r, h3, h4⟩ := ih h2 a3
        exact ⟨r, by simp only [run, hx]; exact h3, h4⟩
    | throw a1 a2 a3 =>
      have h2 := exec_same c (hc c (by simp)) (h.trans a1)
      rw [a2] at h2
      generalize hx : exec c s = x at h2
      cases h2 with
      | throw h2 =>
        obtain ⟨r, h3, h4⟩ := ih h2 a3
        exact ⟨r, by simp only [run, hx]; exact h3, h4⟩

theorem canBreak_none (cs : List (Cmd F E)) (hc : ∀ c ∈ cs, c.noRemoval) : ∀ {s s' : GS F E}, Shuffle s s' → CanBreak cs s' → run cs s = none := by
  induction cs with
  | nil => intro s s' h h1; cases h1
  | cons c cs ih =>
    intro s s' h h1
    have ih := @ih (fun c h => hc c (by simp [h]))
    cases h1 with
    | here a1 a2 =>
      have h2 := exec_same c (hc c (by simp)) (h.trans a1)
      generalize hx : exec c s = x at h2
      generalize exec c _ = y at a2 h2
      cases h2 with
      | ok h2 => exact a2.elim
      | throw h2 => exact a2.elim
      | ub => simp only [run, hx]
    | ok a1 a2 a3 =>
      have h2 := exec_same c (hc c (by simp)) (h.trans a1)
      rw [a2] at h2
      generalize hx : exec c s = x at h2
      cases h2 with
      | ok h2 => simp only [run, hx]; exact ih h2 a3
    | throw a1 a2 a3 =>
      have h2 := exec_same c (hc c (by simp)) (h.trans a1)
      rw [a2] at h2
      generalize hx : exec c s = x at h2
      cases h2 with
      | throw h2 => simp only [run, hx]; exact ih h2 a3

theorem _root_.Verif.IsTreeView.tidy {g : G F E} (hp : Paired g) {root : VId} {w : TreeView} (h : IsTreeView g root w) : w.Tidy :=
  ⟨h.children, fun _ _ => h.parent_in hp, h.rank⟩

theorem ViewsOk.tidy {s : GS F E} (hp : Paired s.g) (h : ViewsOk s) : TidySubs s := by
  intro p hps
  obtain ⟨root, hr⟩ := h.2 p hps
  exact hr.tidy hp

theorem Shuffle.treeInv {s s' : GS F E} (h : Shuffle s s') (k : TreeInv s) : TreeInv s' := by
  refine ⟨by rw [h.g]; exact k.wf, by rw [h.g]; exact k.paired, by rw [h.g]; exact k.forest, ⟨by rw [h.subs]; exact k.views.1, ?_⟩,
    by rw [h.subs]; exact k.subs.1, ?_⟩
  · intro p hp
    rw [h.subs] at hp
    obtain ⟨root, hr⟩ := k.views.2 p hp
    exact ⟨root, by rw [h.g]; exact (h.views p).isTreeView hr⟩
  · intro q
    rw [h.subs, (h.views q).publisher]; exact k.subs.2 q

theorem Shuffle.conn {s s' : GS F E} (h : Shuffle s s') : s'.Conn = s.Conn := by
  funext a b
  unfold GS.Conn containsEdge
  rw [h.g]
  cases s.g.vertexOf a with
  | none => simp
  | some u =>
    cases s.g.vertexOf b with
    | none => simp
    | some v => simp

theorem Shuffle.noCycle {s s' : GS F E} (h : Shuffle s s') {c : Cmd F E} (k : c.noCycle s) : c.noCycle s' := by
  cases c with
  | addEdge a b p =>
    refine ⟨k.1, ?_⟩
    rw [h.conn]; exact k.2
  | getTree f b q =>
    have h1 := h.views q
    have k' : s.views q = TreeView.empty := k
    rw [k'] at h1
    exact h1.empty
  | _ => trivial

theorem exec_forest_same {c : Cmd F E} {s s' : GS F E} (h : Shuffle s s') (k : TreeInv s) (hc : c.noCycle s) :
    SameOutcome (exec c s) (exec c s') := by
  obtain ⟨u, h1, -⟩ := k.exec hc
  obtain ⟨u', h1', -⟩ := (h.treeInv k).exec (h.noCycle hc)
  rcases exec_shuffle c h (k.views.tidy k.paired) with h2 | h2 | h2
  · exact h2
  · cases hx : exec c s with
    | ok a t => rw [hx] at h2; exact h2.elim
    | throw a t => rw [hx] at h2; exact h2.elim
    | ub m => rw [hx] at h1; cases h1
  · cases hx : exec c s' with
    | ok a t => rw [hx] at h2; exact h2.elim
    | throw a t => rw [hx] at h2; exact h2.elim
    | ub m => rw [hx] at h1'; cases h1'

/-- histories without cycles never break and all executions end alike -/
theorem forest_alike (cs : List (Cmd F E)) : ∀ {s s' : GS F E}, Shuffle s s' → TreeInv s → TreeHistory cs s →
    ¬ CanBreak cs s' ∧ ∀ r r', run cs s = some r → RunShuffled cs s' r' → Shuffle r r' := by
  induction cs with
  | nil =>
    intro s s' h _ _
    refine ⟨fun hb => (by cases hb), fun r r' h1 h2 => ?_⟩
    simp only [run, Option.some.injEq] at h1
    subst h1
    cases h2 with | nil h2 => exact h.trans h2
  | cons c cs ih =>
    intro s s' h k ht
    obtain ⟨s1, h1, k1⟩ := k.exec ht.1
    have ht1 := TreeHistory.cons ht h1
    have same : ∀ {u}, Shuffle s' u → SameOutcome (exec c s) (exec c u) := fun hu => exec_forest_same (h.trans hu) k ht.1
    have next : ∀ {u u2}, Shuffle s' u → (exec c u = .ok () u2 ∨ ∃ x, exec c u = .throw x u2) → Shuffle s1 u2 := by
      intro u u2 hu hx
      have := same hu
      rcases hx with hx | ⟨x, hx⟩ <;> rw [hx] at this <;> generalize exec c s = y at this h1 <;> cases this <;> cases h1 <;> assumption
    refine ⟨fun hb => ?_, fun r r' hr hr' => ?_⟩
    · cases hb with
      | here a1 a2 =>
        have := same a1
        generalize exec c s = x at this h1
        generalize exec c _ = y at this a2
        cases this with
        | ok _ => exact a2
        | throw _ => exact a2
        | ub => cases h1
      | ok a1 a2 a3 => exact (ih (next a1 (Or.inl a2)) k1 ht1).1 a3
      | throw a1 a2 a3 => exact (ih (next a1 (Or.inr ⟨_, a2⟩)) k1 ht1).1 a3
    · rw [run_of_exec h1] at hr
      cases hr' with
      | ok a1 a2 a3 => exact (ih (next a1 (Or.inl a2)) k1 ht1).2 r r' hr a3
      | throw a1 a2 a3 => exact (ih (next a1 (Or.inr ⟨_, a2⟩)) k1 ht1).2 r r' hr a3

end GS
end Verif
