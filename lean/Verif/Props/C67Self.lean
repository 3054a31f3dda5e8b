import Verif.Lemmas.FollowSelf
import Verif.Props.C67
set_option linter.unusedSectionVars false
/-! # C67 (continued): moved views in graphs with self edges -/

namespace Verif
open GS TreeView
variable {F E : Type} [FrameProp F] [EdgeProp E]

private theorem run_followsL_inv {cs : List (Cmd F E)} : ∀ {s : GS F E}, WF s.g → Paired s.g.ns → SelfTwo s.g → (∀ c ∈ cs, c.growsL) →
    ViewsLoops s → ∃ s', run cs s = some s' ∧ FollowsLoops s s' := by
  have key : ∀ {Q : G F E → Event → Prop} {g g' : G F E} {l : List (Event × G F E)}, GSteps Q g l g' → WF g → SelfTwo g → SelfTwo g' := by
    intro Q g g' l hs
    induction hs with
    | nil => intro _ h; exact h
    | cons h1 _ _ ih => intro hw h; exact ih (h1.wf hw) (h1.selfTwo hw h)
  induction cs with
  | nil => intro s _ _ _ _ _; exact ⟨s, rfl, .refl s⟩
  | cons c cs ih =>
    intro s hw hp h2 hc ho
    obtain ⟨s1, h1, h3⟩ := exec_followsL (hc c (by simp)) hw hp h2 ho
    obtain ⟨l, a1, -⟩ := exec_advances hw h1
    obtain ⟨s', h4, h5⟩ := ih (a1.wf hw) (a1.paired_ns hw hp) (key a1 hw h2) (fun c' hc' => hc c' (List.mem_cons_of_mem _ hc')) (h3.ok ho)
    exact ⟨s', by rw [run_of_exec h1, h4], h3.trans h5⟩

/-- Missing compared to C67: signals and removals.  Any subscribed view can be moved, self edges in the graph or not: after any calls that
add frames and edges, self edges included, the new object is a correct tree of its root, and so are the other subscribed views. -/
theorem C67_moved_follows_with_self_edges_partial (cs0 : List (Cmd F E)) (g : GS F E) (h : GS.run cs0 init = some g)
    (hok : ∀ p ∈ g.subs, ∃ root, IsTreeViewLoops g.g root (g.views p)) (p q : Nat) (hp : p ∈ g.subs) (hq : q ∉ g.subs)
    (slots : Nat → VSlots) (heard : Nat → List (Nat × ViewSignal)) (cs : List (Cmd F E)) (hcs : ∀ c ∈ cs, c.growsL) :
    ∃ s', GS.run cs (VS.move p q ⟨g, slots, heard⟩).gs = some s' ∧
      (∀ root, IsTreeViewLoops g.g root (g.views p) → IsTreeViewLoops s'.g root (s'.views q)) ∧
      (∀ r ∈ g.subs, r ≠ p → ∀ root, IsTreeViewLoops g.g root (g.views r) → IsTreeViewLoops s'.g root (s'.views r)) ∧ q ∈ s'.subs ∧ p ∉ s'.subs := by
  have hw : WF g.g := run_wf WF.empty h
  have hinv := run_subsInv init_subsInv h
  have hpub : (g.views p).publisher = true := (hinv.2 p).1 hp
  have hpq : p ≠ q := by rintro rfl; exact hq hp
  have hsub : (VS.move p q ⟨g, slots, heard⟩).gs.subs = g.subs.filter (· ≠ p) ++ [q] := by simp [VS.move, hpub]
  have hmem : ∀ r, r ∈ (VS.move p q ⟨g, slots, heard⟩).gs.subs ↔ (r ∈ g.subs ∧ r ≠ p) ∨ r = q := by intro r; rw [hsub]; simp
  have hview : ∀ r, r ∈ g.subs → r ≠ p → (VS.move p q ⟨g, slots, heard⟩).gs.views r = g.views r := by
    intro r hr hrp
    have : r ≠ q := by rintro rfl; exact hq hr
    simp [VS.move, this, hrp]
  have hviewq : (VS.move p q ⟨g, slots, heard⟩).gs.views q = g.views p := by simp [VS.move]
  obtain ⟨s', h1, h2⟩ := run_followsL_inv (cs := cs) (s := (VS.move p q ⟨g, slots, heard⟩).gs) hw
    (show Paired g.g.ns from run_paired_ns h) (show SelfTwo g.g from run_selfTwo h) hcs ⟨by
      rw [hsub]
      refine List.nodup_append.2 ⟨hinv.1.filter _, by simp, ?_⟩
      intro a ha b hb
      rw [List.mem_singleton.1 hb]
      rintro rfl
      exact hq (List.mem_filter.1 ha).1, by
      intro r hr
      rcases (hmem r).1 hr with ⟨hr, hrp⟩ | rfl
      · obtain ⟨root, ho⟩ := hok r hr
        exact ⟨root, by rw [hview r hr hrp]; exact ho⟩
      · obtain ⟨root, ho⟩ := hok p hp
        exact ⟨root, by rw [hviewq]; exact ho⟩⟩
  refine ⟨s', h1, ?_, ?_, ?_, ?_⟩
  · intro root hr
    exact h2.2 q ((hmem q).2 (.inr rfl)) root (by rw [hviewq]; exact hr)
  · intro r hr hrp root ho
    exact h2.2 r ((hmem r).2 (.inl ⟨hr, hrp⟩)) root (by rw [hview r hr hrp]; exact ho)
  · rw [h2.1]; exact (hmem q).2 (.inr rfl)
  · rw [h2.1, hmem]
    rintro (⟨_, hh⟩ | hh)
    · exact hh rfl
    · exact hpq hh


/-- a view of a graph with a self edge is moved; then a connection and another self edge are added -/
example : (run [.addEdge "a" "b" 1, .addEdge "b" "b" 2, .getTree "a" true 0] (init : GS DemoFrame Int)).bind (fun g =>
      (run [.addEdge "b" "c" 3, .addEdge "c" "c" 4] (VS.move 0 1 ⟨g, fun _ => VSlots.none, fun _ => []⟩).gs).map (fun s =>
        ((s.views 1).tree, (s.views 1).crossEdges.map (fun c => (c.origin, c.target)), s.subs))) =
    some ([(0, ⟨none, [1]⟩), (1, ⟨some 0, [2]⟩), (2, ⟨some 1, []⟩)], [(1, 1), (1, 1), (2, 2)], [1]) := by decide +kernel

end Verif
