import Verif.Model.Views
import Verif.Lemmas.ViewHistory
/-! # Lemmas: a graph does not care at which address a subscribed view is -/
set_option linter.unusedSectionVars false

namespace Verif
open GS TreeView
variable {F E : Type} [FrameProp F] [EdgeProp E]

/-- same kind of outcome, same value and exception, related states -/
def Res.Rel {σ τ α : Type} (R : σ → τ → Prop) : Res σ α → Res τ α → Prop
  | .ok a s, .ok b t => a = b ∧ R s t
  | .throw x s, .throw y t => x = y ∧ R s t
  | .ub r, .ub r' => r = r'
  | _, _ => False

namespace GS

/-- `vs'` has at `q` what `vs` has at `p`; the others are the same -/
def VRelated (p q : Nat) (vs vs' : Nat → TreeView) : Prop := vs' q = vs p ∧ ∀ r, r ≠ p → r ≠ q → vs' r = vs r

/-- the address `p` is replaced by `q` -/
def sw (p q : Nat) (x : Nat) : Nat := if x = p then q else x

theorem VRelated.at {p q : Nat} {vs vs' : Nat → TreeView} (h : VRelated p q vs vs') {x : Nat} (hx : x ≠ q) : vs' (sw p q x) = vs x := by
  unfold sw
  split
  · rename_i hp; rw [hp]; exact h.1
  · rename_i hp; exact h.2 x hp hx

theorem VRelated.set {p q : Nat} {vs vs' : Nat → TreeView} (h : VRelated p q vs vs') {x : Nat} (hx : x ≠ q) (hpq : p ≠ q) (w : TreeView) :
    VRelated p q (setView vs x w) (setView vs' (sw p q x) w) := by
  by_cases hp : x = p
  · subst hp
    refine ⟨by simp [setView, sw], fun r h1 h2 => ?_⟩
    simp [setView, sw, h1, h2, h.2 r h1 h2]
  · refine ⟨?_, fun r h1 h2 => ?_⟩
    · have : q ≠ x := fun e => hx e.symm
      have hpx : p ≠ x := fun e => hp e.symm
      simp [setView, sw, hp, this, hpx, h.1]
    · simp only [setView, sw, hp, if_false]
      split
      · rfl
      · exact h.2 r h1 h2

theorem addEdgeToTreeViews_rel {p q : Nat} (hpq : p ≠ q) (g : G F E) (e : ERec E) : ∀ (ps : List Nat) (vs vs' : Nat → TreeView), q ∉ ps →
    VRelated p q vs vs' → Res.Rel (VRelated p q) (addEdgeToTreeViews g e ps vs) (addEdgeToTreeViews g e (ps.map (sw p q)) vs') := by
  intro ps
  induction ps with
  | nil => intro vs vs' _ h; exact ⟨rfl, h⟩
  | cons x ps ih =>
    intro vs vs' hq h
    have hx : x ≠ q := fun e => hq (e ▸ List.mem_cons_self ..)
    simp only [List.map_cons, addEdgeToTreeViews, h.at hx]
    cases addEdgeToTreeView g e (vs x) with
    | ok _ w => exact ih _ _ (fun hh => hq (List.mem_cons_of_mem _ hh)) (h.set hx hpq w)
    | throw y w => exact ⟨rfl, h.set hx hpq w⟩
    | ub r => rfl

theorem removeEdgeFromTreeViews_rel {p q : Nat} (hpq : p ≠ q) (o t : VId) : ∀ (ps : List Nat) (vs vs' : Nat → TreeView), q ∉ ps →
    VRelated p q vs vs' →
    Res.Rel (VRelated p q) (removeEdgeFromTreeViews o t ps vs) (removeEdgeFromTreeViews o t (ps.map (sw p q)) vs') := by
  intro ps
  induction ps with
  | nil => intro vs vs' _ h; exact ⟨rfl, h⟩
  | cons x ps ih =>
    intro vs vs' hq h
    have hx : x ≠ q := fun e => hq (e ▸ List.mem_cons_self ..)
    have hq' : q ∉ ps := fun hh => hq (List.mem_cons_of_mem _ hh)
    simp only [List.map_cons, removeEdgeFromTreeViews, h.at hx]
    cases (vs x).edgeExists o t with
    | none => rfl
    | some b =>
      cases b with
      | false => exact ih _ _ hq' h
      | true =>
        simp only
        cases (vs x).removeEdge o t with
        | ok _ w => exact ih _ _ hq' (h.set hx hpq w)
        | throw y w => exact ⟨rfl, h.set hx hpq w⟩
        | ub r => rfl

/-- two graphs that differ only in the address of one subscribed view -/
structure Moved (p q : Nat) (s s' : GS F E) : Prop where
  ne : p ≠ q
  g : s'.g = s.g
  trace : s'.trace = s.trace
  mem : p ∈ s.subs
  free : q ∉ s.subs
  subs : s'.subs = s.subs.map (sw p q)
  views : VRelated p q s.views s'.views

theorem Moved.with {p q : Nat} {s s' : GS F E} (h : Moved p q s s') (g : G F E) (tr : List (Event × G F E)) {vs vs' : Nat → TreeView}
    (hv : VRelated p q vs vs') : Moved p q { s with g := g, trace := tr, views := vs } { s' with g := g, trace := tr, views := vs' } :=
  ⟨h.ne, rfl, rfl, h.mem, h.free, h.subs, hv⟩

theorem addEdgeD_moved {p q : Nat} {s s' : GS F E} (h : Moved p q s s') (o t : VId) (x : E) :
    Res.Rel (Moved p q) (addEdgeD o t x s) (addEdgeD o t x s') := by
  unfold addEdgeD
  rw [h.g]
  split
  · split
    · exact ⟨rfl, h⟩
    · have := addEdgeToTreeViews_rel h.ne (((s.g.addEdge o t x).1.addEdge t o (EdgeProp.inverse x)).1) (s.g.addEdge o t x).2 s.subs s.views
        s'.views h.free h.views
      rw [← h.subs] at this
      simp only
      revert this
      cases addEdgeToTreeViews (((s.g.addEdge o t x).1.addEdge t o (EdgeProp.inverse x)).1) (s.g.addEdge o t x).2 s.subs s.views <;>
        cases addEdgeToTreeViews (((s.g.addEdge o t x).1.addEdge t o (EdgeProp.inverse x)).1) (s.g.addEdge o t x).2 s'.subs s'.views <;>
        intro this <;> first | exact this.elim | skip
      · refine ⟨rfl, ?_⟩
        simp only [notify, h.trace]
        exact h.with _ _ this.2
      · refine ⟨this.1, ?_⟩
        rw [h.trace]
        exact h.with _ _ this.2
      · exact this
  · rfl

theorem addVertexN_moved {p q : Nat} {s s' : GS F E} (h : Moved p q s s') (f : FrameId) (x : F) :
    (addVertexN f x s').2 = (addVertexN f x s).2 ∧ Moved p q (addVertexN f x s).1 (addVertexN f x s').1 := by
  unfold addVertexN
  rw [h.g]
  refine ⟨rfl, ?_⟩
  simp only [notify, h.trace]
  exact h.with _ _ h.views

theorem orCreate_moved {p q : Nat} {s s' : GS F E} (h : Moved p q s s') (f : FrameId) (v : Option VId) :
    (orCreate f v s').2 = (orCreate f v s).2 ∧ Moved p q (orCreate f v s).1 (orCreate f v s').1 := by
  unfold orCreate
  split
  · exact addVertexN_moved h _ _
  · exact ⟨rfl, h⟩

theorem removeEdgeBoth_moved {p q : Nat} {s s' : GS F E} (h : Moved p q s s') (o t : FrameId) (vo vt : VId) :
    Res.Rel (Moved p q) (removeEdgeBoth o t vo vt s) (removeEdgeBoth o t vo vt s') := by
  unfold removeEdgeBoth
  rw [h.g]
  split
  · split
    · rfl
    · simp only [notify]
      split
      · rfl
      · have := removeEdgeFromTreeViews_rel h.ne vo vt s.subs s.views s'.views h.free h.views
        rw [← h.subs] at this
        revert this
        cases removeEdgeFromTreeViews vo vt s.subs s.views <;> cases removeEdgeFromTreeViews vo vt s'.subs s'.views <;>
          intro this <;> first | exact this.elim | skip
        · refine ⟨rfl, ?_⟩
          rw [h.trace]
          exact h.with _ _ this.2
        · refine ⟨this.1, ?_⟩
          rw [h.trace]
          exact h.with _ _ this.2
        · exact this
  · exact ⟨rfl, h⟩

theorem removeEdgeD_moved {p q : Nat} {s s' : GS F E} (h : Moved p q s s') (vo vt : VId) :
    Res.Rel (Moved p q) (removeEdgeD vo vt s) (removeEdgeD vo vt s') := by
  unfold removeEdgeD
  rw [h.g]
  split
  · exact removeEdgeBoth_moved h _ _ _ _
  · rfl

theorem disconnectLoop_moved {p q : Nat} (v : VId) : ∀ (n : Nat) {s s' : GS F E}, Moved p q s s' →
    Res.Rel (Moved p q) (disconnectLoop v n s) (disconnectLoop v n s') := by
  intro n
  induction n with
  | zero =>
    intro s s' h
    unfold disconnectLoop
    rw [h.g]
    split
    · exact ⟨rfl, h⟩
    · rfl
  | succ n ih =>
    intro s s' h
    unfold disconnectLoop
    rw [h.g]
    split
    · exact ⟨rfl, h⟩
    · rename_i e _ _
      simp only
      have := removeEdgeD_moved h v e.tgt
      revert this
      cases removeEdgeD v e.tgt s <;> cases removeEdgeD v e.tgt s' <;> intro this <;> first | exact this.elim | skip
      · exact ih this.2
      · exact this
      · exact this

theorem map_filter_sw {p q y : Nat} (hyp : y ≠ p) (hyq : y ≠ q) : ∀ l : List Nat,
    (l.map (sw p q)).filter (fun x => decide (x ≠ y)) = (l.filter (fun x => decide (x ≠ y))).map (sw p q) := by
  intro l
  induction l with
  | nil => rfl
  | cons x l ih =>
    have hx : sw p q x ≠ y ↔ x ≠ y := by
      unfold sw
      split
      · rename_i h; subst h; exact ⟨fun _ => Ne.symm hyp, fun _ => Ne.symm hyq⟩
      · exact Iff.rfl
    by_cases hxy : x = y
    · have h1 : ¬ (sw p q x ≠ y) := fun h => hx.1 h hxy
      simp only [List.map_cons]
      rw [List.filter_cons_of_neg (by simpa using h1), List.filter_cons_of_neg (by simp [hxy]), ih]
    · have h1 : sw p q x ≠ y := hx.2 hxy
      simp only [List.map_cons]
      rw [List.filter_cons_of_pos (by simpa using h1), List.filter_cons_of_pos (by simpa using hxy), List.map_cons, ih]

/-- every call that does not name the views `p`, `q` has the same outcome wherever the view is -/
theorem exec_moved {p q : Nat} {s s' : GS F E} (h : Moved p q s s') {c : Cmd F E} (hp : c.notOn p) (hq : c.notOn q) :
    Res.Rel (Moved p q) (exec c s) (exec c s') := by
  cases c with
  | addFrame f =>
    simp only [exec, addFrame]
    rw [h.g]
    split
    · exact ⟨rfl, (addVertexN_moved h _ _).2⟩
    · exact ⟨rfl, h⟩
  | emplaceFrame f x =>
    simp only [exec, emplaceFrame]
    rw [h.g]
    split
    · exact ⟨rfl, (addVertexN_moved h _ _).2⟩
    · exact ⟨rfl, h⟩
  | removeFrame f =>
    simp only [exec, removeFrame]
    rw [h.g]
    split
    · exact ⟨rfl, h⟩
    · split
      · exact ⟨rfl, h⟩
      · refine ⟨rfl, ?_⟩
        simp only [notify, h.trace]
        exact h.with _ _ h.views
  | disconnectFrame f =>
    simp only [exec, disconnectFrame]
    rw [h.g]
    split
    · exact ⟨rfl, h⟩
    · exact disconnectLoop_moved _ _ h
  | addEdge o t x =>
    simp only [exec, GS.addEdge]
    rw [h.g]
    have h1 := orCreate_moved h o (s.g.vertexOf o)
    have h2 := orCreate_moved h1.2 t (s.g.vertexOf t)
    rw [h1.1, h2.1]
    exact addEdgeD_moved h2.2 _ _ _
  | removeEdge o t =>
    simp only [exec, GS.removeEdge]
    rw [h.g]
    split
    · exact ⟨rfl, h⟩
    · split
      · exact ⟨rfl, h⟩
      · exact removeEdgeBoth_moved h _ _ _ _
  | setEdge o t x =>
    simp only [exec, setEdgeProperty]
    rw [h.g]
    split
    · exact ⟨rfl, h⟩
    · split
      · exact ⟨rfl, h⟩
      · split
        · exact ⟨rfl, h⟩
        · split
          · rfl
          · refine ⟨rfl, ?_⟩
            simp only [notify, h.trace]
            exact h.with _ _ h.views
  | getTree f k y =>
    simp only [Cmd.notOn] at hp hq
    simp only [exec, getTree]
    rw [h.g]
    split
    · exact ⟨rfl, h⟩
    · rw [h.views.2 y hp hq]
      have hset : ∀ w, VRelated p q (setView s.views y w) (setView s'.views y w) := by
        intro w
        have := h.views.set (x := y) hq h.ne w
        simpa [sw, hp] using this
      have hw : ∀ w, Moved p q { s with views := setView s.views y w } { s' with g := s.g, views := setView s'.views y w } := fun w =>
        ⟨h.ne, rfl, h.trace, h.mem, h.free, h.subs, hset w⟩
      split
      · rfl
      · exact ⟨rfl, hw _⟩
      · rename_i w _
        split
        · unfold subscribeTreeView
          simp only [setView, if_true]
          split
          · rfl
          · refine ⟨rfl, ?_⟩
            refine ⟨h.ne, rfl, h.trace, List.mem_append_left _ h.mem, ?_, ?_, ?_⟩
            · simp only [List.mem_append, List.mem_singleton, not_or]
              exact ⟨h.free, Ne.symm hq⟩
            · simp only [List.map_append, List.map_cons, List.map_nil, h.subs, sw, hp, if_false]
            · have := (hset w).set (x := y) hq h.ne { w with publisher := true }
              simp only [sw, hp, if_false] at this
              exact this
        · exact ⟨rfl, hw _⟩
  | unsubscribeView y =>
    simp only [Cmd.notOn] at hp hq
    simp only [exec, unsubscribeView]
    refine ⟨rfl, ?_⟩
    rw [h.views.2 y hp hq]
    split
    · refine ⟨h.ne, h.g, h.trace, ?_, ?_, ?_, ?_⟩
      · simp only [List.mem_filter, decide_eq_true_eq]; exact ⟨h.mem, Ne.symm hp⟩
      · simp only [List.mem_filter, not_and]; exact fun hh => absurd hh h.free
      · simp only [h.subs]; exact map_filter_sw hp hq _
      · have := h.views.set (x := y) hq h.ne { s.views y with publisher := false }
        simpa [sw, hp] using this
    · exact h

theorem run_moved {p q : Nat} (cs : List (Cmd F E)) (hp : ∀ c ∈ cs, c.notOn p) (hq : ∀ c ∈ cs, c.notOn q) : ∀ {s s' : GS F E},
    Moved p q s s' → (∀ t, run cs s = some t → ∃ t', run cs s' = some t' ∧ Moved p q t t') ∧ (run cs s = none → run cs s' = none) := by
  induction cs with
  | nil =>
    intro s s' h
    refine ⟨fun t ht => ⟨s', rfl, ?_⟩, fun ht => absurd ht (by simp [run])⟩
    simp only [run, Option.some.injEq] at ht
    subst ht
    exact h
  | cons c cs ih =>
    intro s s' h
    have h1 := exec_moved h (hp c (List.mem_cons_self ..)) (hq c (List.mem_cons_self ..))
    have ih' := @ih (fun c hc => hp c (List.mem_cons_of_mem _ hc)) (fun c hc => hq c (List.mem_cons_of_mem _ hc))
    unfold run
    revert h1
    cases exec c s <;> cases exec c s' <;> intro h1 <;> first | exact h1.elim | skip
    · exact ih' h1.2
    · exact ih' h1.2
    · exact ⟨fun t ht => absurd ht (by simp), fun _ => rfl⟩

end GS
end Verif
