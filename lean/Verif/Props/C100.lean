import Verif.Lemmas.ShuffleExact
import Verif.Spec.Demo
/-! # C100: the iteration order of the children makes no difference

A tree view stores the children of a vertex in a `std::unordered_set` (src/graph/TreeView.hpp:42).  The standard says nothing about the
order in which a loop sees the elements.  The statement "the effect of a history of calls does not depend on that order" is false: it may
even depend on the order whether a call has undefined behaviour.  The theorems say for which calls, states and histories it is true. -/

namespace Verif
open GS TreeView
variable {F E : Type} [FrameProp F] [EdgeProp E]

namespace C100

/-- b has the children c, d, e; the connections d-e and c-d are cross edges in this order -/
def twoCross : List (Cmd DemoFrame Int) :=
  [.addEdge "a" "b" 1, .addEdge "b" "c" 2, .addEdge "b" "d" 3, .addEdge "b" "e" 4, .getTree "a" true 0, .addEdge "d" "e" 6, .addEdge "c" "d" 5]

/-- a view filled twice: c is a child of a and of b; then c is cut off and b keeps a child that is not in the view -/
def lostChild : List (Cmd DemoFrame Int) :=
  [.addEdge "a" "b" 1, .addEdge "b" "c" 2, .addEdge "b" "d" 3, .addEdge "b" "e" 4, .getTree "a" true 0, .addEdge "c" "a" 5,
    .getTree "a" false 0, .addEdge "d" "e" 6, .removeEdge "a" "c"]

/-- the same view with the child `x` at the end of the list it is in -/
def lateView (x : VId) (w : TreeView) : TreeView :=
  { w with tree := w.tree.map fun p => (p.1, ⟨p.2.parent, p.2.children.filter (· ≠ x) ++ p.2.children.filter (· = x)⟩) }

theorem lateView_shuffle (x : VId) (w : TreeView) : w.Shuffle (lateView x w) := by
  refine ⟨?_, rfl, rfl, rfl, .refl _⟩
  intro v
  show Option.Rel _ (AMap.get w.tree v) (AMap.get (w.tree.map _) v)
  generalize w.tree = t
  induction t with
  | nil => exact .none
  | cons p t ih =>
    obtain ⟨k, r⟩ := p
    simp only [AMap.get, List.map_cons]
    split
    · refine .some ⟨rfl, ?_⟩
      have := List.filter_append_perm (fun y => decide (y ≠ x)) r.children
      simpa using this
    · exact ih

/-- the same state with the child `x` at the end in the view 0 -/
def late (x : VId) (s : GS DemoFrame Int) : GS DemoFrame Int := { s with views := setView s.views 0 (lateView x (s.views 0)) }

theorem late_shuffle (x : VId) (s : GS DemoFrame Int) : s.Shuffle (late x s) := by
  refine ⟨rfl, rfl, rfl, ?_⟩
  intro p
  show (s.views p).Shuffle (setView s.views 0 (lateView x (s.views 0)) p)
  unfold setView
  split
  · rename_i h; rw [h]; exact lateView_shuffle _ _
  · exact .refl _

end C100

theorem canBreak_after {cs : List (Cmd F E)} {c : Cmd F E} : ∀ {s r r' : GS F E}, run cs s = some r → r.Shuffle r' → IsUB (exec c r') →
    CanBreak (cs ++ [c]) s := by
  induction cs with
  | nil => intro s r r' h k hu; cases h; exact .here k hu
  | cons d cs ih =>
    intro s r r' h k hu
    rw [run] at h
    cases hx : exec d s with
    | ub m => rw [hx] at h; cases h
    | ok x s2 => rw [hx] at h; exact .ok (.refl s) hx (ih h k hu)
    | throw x s2 => rw [hx] at h; exact .throw (.refl s) hx (ih h k hu)

/-- C100 is false: this history ends well if the children are visited in the order in which they were inserted, and has undefined behaviour
if c is visited last. -/
theorem C100_statement_fails : ∃ cs : List (Cmd DemoFrame Int), (∃ r, run cs init = some r) ∧ CanBreak cs init := by
  refine ⟨C100.twoCross ++ [.removeEdge "a" "b"], Option.isSome_iff_exists.1 (by decide +kernel), ?_⟩
  obtain ⟨s, hs⟩ : ∃ s, run C100.twoCross init = some s := Option.isSome_iff_exists.1 (by decide +kernel)
  refine canBreak_after hs (C100.late_shuffle 2 s) ?_
  have : (run C100.twoCross init).map (fun s => match GS.removeEdge "a" "b" (C100.late 2 s) with | .ub _ => true | _ => false) = some true := by
    decide +kernel
  rw [hs, Option.map_some] at this
  change IsUB (GS.removeEdge "a" "b" (C100.late 2 s))
  revert this
  cases GS.removeEdge "a" "b" (C100.late 2 s) <;> simp [IsUB]

/-- ... both orders of the same state: the calls of the visit of the part behind a-b, and the outcome -/
example : (run C100.twoCross init).map (fun s => ((s.views 0).cutOrder 0 1, ((C100.late 2 s).views 0).cutOrder 0 1)) =
      some ([1, 2, 3, 4], [1, 3, 4, 2]) ∧
    (run C100.twoCross init).map (fun s => ((GS.removeEdge "a" "b" s).val?.isSome, (GS.removeEdge "a" "b" (C100.late 2 s)).val?.isSome)) =
      some (true, false) := by decide +kernel

/-- **Calls that remove no connection** have the same outcome for every order in every state. -/
theorem C100_no_removal (c : Cmd F E) (hc : c.noRemoval) (s s' : GS F E) (h : s.Shuffle s') : SameOutcome (exec c s) (exec c s') :=
  exec_same c hc h

example : (run C100.twoCross init).map (fun s => (((exec (.addEdge "c" "e" 9) s).st?.map fun r => (r.views 0).crossEdges.length),
    ((exec (.addEdge "c" "e" 9) (C100.late 2 s)).st?.map fun r => (r.views 0).crossEdges.length))) = some (some 3, some 3) := by
  decide +kernel

/-- **All calls** have the same outcome in all orders in which they have no undefined behaviour if the subscribed views are tidy. -/
theorem C100_calls_partial (c : Cmd F E) (s s' : GS F E) (h : s.Shuffle s') (k : ∀ p ∈ s.subs, (s.views p).Tidy) :
    SameOutcome (exec c s) (exec c s') ∨ IsUB (exec c s) ∨ IsUB (exec c s') :=
  exec_shuffle c h k

/-- a removal with the same result in both orders: connection b-c has a cross edge behind it that leads out -/
example : (run C100.twoCross init).map (fun s => ((GS.removeEdge "b" "c" s).exn?, (GS.removeEdge "b" "c" (C100.late 2 s)).exn?)) =
    some (some (.runtimeError "NOT IMPLEMENTED"), some (.runtimeError "NOT IMPLEMENTED")) := by decide +kernel

/-- The condition is needed: in this view, which lists a child that is not in it, `removeEdge` throws in each order, but it depends on the
order whether the cross edge d-e is still there afterwards. -/
theorem C100_untidy_fails : ∃ s s' : GS DemoFrame Int, run C100.lostChild init = some s ∧ s.Shuffle s' ∧
    ¬ SameOutcome (exec (.removeEdge "a" "b") s) (exec (.removeEdge "a" "b") s') ∧
    ¬ IsUB (exec (.removeEdge "a" "b") s) ∧ ¬ IsUB (exec (.removeEdge "a" "b") s') := by
  obtain ⟨s, hs⟩ : ∃ s, run C100.lostChild init = some s := Option.isSome_iff_exists.1 (by decide +kernel)
  have key : (run C100.lostChild init).map (fun s => (((GS.removeEdge "a" "b" s).st?.map fun r => (r.views 0).crossEdges.length),
      ((GS.removeEdge "a" "b" (C100.late 2 s)).st?.map fun r => (r.views 0).crossEdges.length))) = some (some 3, some 2) := by decide +kernel
  rw [hs, Option.map_some] at key
  refine ⟨s, C100.late 2 s, hs, C100.late_shuffle 2 s, ?_, ?_, ?_⟩
  all_goals simp only [exec]
  all_goals revert key
  all_goals generalize GS.removeEdge "a" "b" s = x, GS.removeEdge "a" "b" (C100.late 2 s) = y
  · intro key hsame
    cases hsame with
    | ok h => simp [Res.st?, (h.views 0).cross] at key; omega
    | throw h => simp [Res.st?, (h.views 0).cross] at key; omega
    | ub => simp [Res.st?] at key
  · cases x <;> simp [Res.st?, IsUB]
  · cases y <;> simp [Res.st?, IsUB]

example : (run C100.lostChild init).map (fun s => ((s.views 0).tree.map (fun p => (p.1, p.2.children)), (s.views 0).crossEdges.map fun c => (c.origin, c.target))) =
      some ([(0, [1]), (1, [2, 3, 4]), (3, []), (4, [])], [(2, 0), (1, 2), (3, 4)]) ∧
    (run C100.lostChild init).map (fun s => ((GS.removeEdge "a" "b" s).exn?, (GS.removeEdge "a" "b" (C100.late 2 s)).exn?)) =
      some (some (.runtimeError "visitBfs"), some (.runtimeError "visitBfs")) := by decide +kernel

/-- **Exact condition for `remove_edge`** in a state with correct subscribed views: it returns normally for every order of the children if
and only if for each subscribed view in which the connection is a tree edge no cross edge leads out of the part behind it, and the cross
edges inside are listed in strictly decreasing order of the depth of their deeper ends. -/
theorem C100_removeEdge_exact (cs : List (Cmd F E)) (hns : ∀ a p, Cmd.addEdge a a p ∉ cs) (s : GS F E)
    (h : run cs init = some s) (hok : ∀ q ∈ s.subs, ∃ root, IsTreeView s.g root (s.views q))
    (o t : FrameId) (u v : VId) (ho : getVertex o s = .ok u s) (ht : getVertex t s = .ok v s) (hc : s.Conn o t) :
    (∀ s', s.Shuffle s' → ∃ r, GS.removeEdge o t s' = .ok () r) ↔
      ∀ q ∈ s.subs, (s.views q).Sealed u v ∧ (s.views q).DeepestFirst u v :=
  removeEdge_all_orders (run_wf WF.empty h) (run_paired WF.empty Paired.empty h (noSelf_of hns)) (run_subsInv init_subsInv h).1 hok
    (getVertex_ok ho) (getVertex_ok ht) hc

/-- with one cross edge less the cut is fine in both orders ... -/
example : (run (C100.twoCross.dropLast ++ [.addEdge "c" "c2" 7]) init).map (fun s =>
      ((GS.removeEdge "a" "b" s).val?.isSome, (GS.removeEdge "a" "b" (C100.late 2 s)).val?.isSome)) = some (true, true) ∧
    -- ... and so is one with two cross edges, of which the one that goes deeper was made first
    (run (C100.twoCross.dropLast.dropLast ++ [.addEdge "c" "f" 7, .addEdge "f" "d" 7, .addEdge "d" "e" 6]) init).map (fun s =>
      ((s.views 0).crossEdges.map (fun c => (c.origin, c.target)), (GS.removeEdge "a" "b" s).val?.isSome,
        (GS.removeEdge "a" "b" (C100.late 2 s)).val?.isSome)) = some ([(5, 3), (3, 4)], true, true) := by decide +kernel

/-- **Histories**: if the subscribed views are tidy in all states of the execution in which children are visited in the order of insertion, then
every other execution that comes to an end does so in the same graph, with the same subscriptions and events and with shuffled views.  If no
execution has undefined behaviour, there is such an end. -/
theorem C100_history_partial (cs : List (Cmd F E))
    (hT : ∀ ds es, cs = ds ++ es → ∀ s, run ds init = some s → ∀ p ∈ s.subs, (s.views p).Tidy) :
    (∀ r r', run cs init = some r → RunShuffled cs init r' → r.Shuffle r') ∧ (¬ CanBreak cs init → ∃ r, run cs init = some r) := by
  refine ⟨fun r r' hr hr' => run_alike cs (.refl _) hr hr' hT, ?_⟩
  intro hb
  cases hx : run cs init with
  | some r => exact ⟨r, rfl⟩
  | none => exact absurd (run_none_breaks cs hx) hb

/-- Correct views are tidy.  So the condition holds if all subscribed views are correct, also with cycles. -/
theorem C100_correct_tidy (cs : List (Cmd F E)) (hns : ∀ a p, Cmd.addEdge a a p ∉ cs) (s : GS F E) (h : run cs init = some s)
    (hok : ∀ q ∈ s.subs, ∃ root, IsTreeView s.g root (s.views q)) : ∀ q ∈ s.subs, (s.views q).Tidy := by
  intro q hq
  obtain ⟨root, hr⟩ := hok q hq
  exact hr.tidy (run_paired WF.empty Paired.empty h (noSelf_of hns))

/-- the view of a with two cross edges is tidy -/
example : ∃ s, run C100.twoCross init = some s ∧ (s.views 0).crossEdges.length = 2 ∧ (s.views 0).Tidy := by
  obtain ⟨s, hs⟩ : ∃ s, run C100.twoCross init = some s := Option.isSome_iff_exists.1 (by decide +kernel)
  have key : (run C100.twoCross init).map (fun s => ((s.views 0).crossEdges.length, (s.views 0).tree)) =
      some (2, [(0, ⟨none, [1]⟩), (1, ⟨some 0, [2, 3, 4]⟩), (2, ⟨some 1, []⟩), (3, ⟨some 1, []⟩), (4, ⟨some 1, []⟩)]) := by decide +kernel
  rw [hs, Option.map_some, Option.some.injEq, Prod.mk.injEq] at key
  obtain ⟨h1, h2⟩ := key
  refine ⟨s, hs, h1, ?_⟩
  generalize s.views 0 = w at h2
  have hpar : ∀ v, w.parentOf v = if v = 0 then none else if v = 1 then some 0 else if v = 2 ∨ v = 3 ∨ v = 4 then some 1 else none := by
    intro v
    by_cases h0 : v = 0
    · subst h0; simp [parentOf, h2, AMap.get]
    by_cases h1 : v = 1
    · subst h1; simp [parentOf, h2, AMap.get]
    by_cases h2' : v = 2
    · subst h2'; simp [parentOf, h2, AMap.get]
    by_cases h3 : v = 3
    · subst h3; simp [parentOf, h2, AMap.get]
    by_cases h4 : v = 4
    · subst h4; simp [parentOf, h2, AMap.get]
    simp [parentOf, h2, AMap.get, h0, h1, h2', h3, h4, Ne.symm h0, Ne.symm h1, Ne.symm h2', Ne.symm h3, Ne.symm h4]
  refine ⟨?_, ?_, fun v => if v = 0 then 0 else if v = 1 then 1 else 2, ?_⟩
  · intro p rel hp
    simp only [h2, AMap.get] at hp
    simp only [hpar]
    repeat' split at hp
    all_goals cases hp
    all_goals subst p
    all_goals refine ⟨by decide, fun c => ?_⟩
    all_goals repeat' split
    all_goals simp_all
  · intro v p
    rw [hpar]
    simp only [vertexExists, h2, AMap.get]
    repeat' split
    all_goals simp_all
  · intro v p
    rw [hpar]
    intro hp
    repeat' split at hp
    all_goals cases hp
    all_goals simp [*]

/-- one order and the other of a whole history: at the end the same vertices, children and cross edges are left -/
example : (run (C100.twoCross ++ [.removeEdge "b" "c", .addEdge "e" "f" 8]) init).map (fun s => ((s.views 0).tree.map Prod.fst, (s.views 0).crossEdges.length)) =
      some ([0, 1, 3, 4, 5], 2) ∧
    ((run C100.twoCross init).bind (fun s => run [.removeEdge "b" "c", .addEdge "e" "f" 8] (C100.late 2 s))).map
      (fun s => ((s.views 0).tree.map Prod.fst, (s.views 0).crossEdges.length)) = some ([0, 1, 3, 4, 5], 2) := by decide +kernel

/-- **Histories without removals** end alike, or none of them ends: without any condition on the views. -/
theorem C100_history_no_removal (cs : List (Cmd F E)) (hc : ∀ c ∈ cs, c.noRemoval) :
    (∀ r', RunShuffled cs init r' → ∃ r, run cs init = some r ∧ r.Shuffle r') ∧ (CanBreak cs init → run cs init = none) :=
  ⟨fun _ h => runSame cs hc (.refl _) h, fun h => canBreak_none cs hc (.refl _) h⟩

example : ∀ c ∈ C100.twoCross, c.noRemoval := by simp [C100.twoCross, Cmd.noRemoval]

/-- **Histories without cycles**: all executions end, and they end alike. -/
theorem C100_forest (cs : List (Cmd F E)) (h : TreeHistory cs init) :
    ¬ CanBreak cs init ∧ ∃ r, run cs init = some r ∧ ∀ r', RunShuffled cs init r' → r.Shuffle r' := by
  obtain ⟨h1, h2⟩ := forest_alike cs (.refl _) TreeInv.init h
  refine ⟨h1, ?_⟩
  cases hx : run cs init with
  | some r => exact ⟨r, rfl, fun r' hr' => h2 r r' hx hr'⟩
  | none => exact absurd (run_none_breaks cs hx) h1

example : TreeHistory [.addEdge "a" "b" 1, .addEdge "a" "c" 2, .getTree "a" true 0, .removeEdge "a" "b"] (init : GS DemoFrame Int) :=
  ⟨⟨by decide, Or.inr (noPath_new (by decide) rfl)⟩, ⟨by decide, Or.inr (noPath_new (by decide) rfl)⟩, rfl, trivial, trivial⟩

omit [FrameProp F] [EdgeProp E] in
/-- **Correct views** stay correct in every order of the children. -/
theorem C100_view (g : G F E) (root : VId) (w w' : TreeView) (h : w.Shuffle w') : IsTreeView g root w' ↔ IsTreeView g root w :=
  ⟨fun k => h.symm.isTreeView k, fun k => h.isTreeView k⟩

/-- a view of a star and the same view with the first leaf visited last -/
example : (run [.addEdge "a" "b" 1, .addEdge "a" "c" 2, .getTree "a" false 0] (init : GS DemoFrame Int)).map (fun s => ((s.views 0).tree,
      (C100.lateView 1 (s.views 0)).tree)) =
    some ([(0, ⟨none, [1, 2]⟩), (1, ⟨some 0, []⟩), (2, ⟨some 0, []⟩)], [(0, ⟨none, [2, 1]⟩), (1, ⟨some 0, []⟩), (2, ⟨some 0, []⟩)]) := by
  decide +kernel

/-- **Visits** of a subtree of a tidy view make the same calls in every order, and only their order may change. -/
theorem C100_visits (w w' : TreeView) (h : w.Shuffle w') (k : w.Tidy) (n : VId) (hn : w.vertexExists n = true)
    (fuel fuel' : Nat) (hf : w.tree.length < fuel) (hf' : w'.tree.length < fuel') :
    (∃ calls calls', w.visitBfs fuel [n] = .ok calls w ∧ w'.visitBfs fuel' [n] = .ok calls' w' ∧ calls'.Perm calls) ∧
    (∃ calls calls', w.visitDfs fuel n = .ok calls w ∧ w'.visitDfs fuel' n = .ok calls' w' ∧ calls'.Perm calls) := by
  obtain ⟨d, hd⟩ := k.rank
  have f1 : IsForest w d := ⟨k.children, hd⟩
  have f2 : IsForest w' d := ⟨(h.tidy k).children, fun v p hp => hd v p (by rw [← h.parentOf]; exact hp)⟩
  have n1 : (w.tree.get n).isSome := by simpa [vertexExists] using hn
  have n2 : (w'.tree.get n).isSome := by
    have := h.vertexExists n
    simp only [vertexExists] at this
    rw [this]; exact n1
  have b1 := (below_le w [n]).trans (Nat.le_of_lt hf)
  have b2 := (below_le w' [n]).trans (Nat.le_of_lt hf')
  constructor
  · obtain ⟨c1, e1, v1, -⟩ := bfs_visits f1 fuel [n] ⟨by simpa using n1, by simp, by simp, by simp⟩ b1
    obtain ⟨c2, e2, v2, -⟩ := bfs_visits f2 fuel' [n] ⟨by simpa using n2, by simp, by simp, by simp⟩ b2
    exact ⟨c1, c2, e1, e2, visits_perm h v1 v2⟩
  · obtain ⟨c1, e1, v1⟩ := dfs_visits f1 fuel n n1 b1
    obtain ⟨c2, e2, v2⟩ := dfs_visits f2 fuel' n n2 b2
    exact ⟨c1, c2, e1, e2, visits_perm h v1 v2⟩

/-- breadth-first calls in both orders -/
example : (run C100.twoCross init).map (fun s => (((s.views 0).visitBfs 9 [1]).val?, (((C100.late 2 s).views 0).visitBfs 9 [1]).val?)) =
    some (some [(1, some 0), (2, some 1), (3, some 1), (4, some 1)], some [(1, some 0), (3, some 1), (4, some 1), (2, some 1)]) := by
  decide +kernel

/-- depth-first calls in both orders; the part behind vertex 2 is visited last in the second one -/
example : let w : TreeView := ⟨[(0, ⟨none, [1]⟩), (1, ⟨some 0, [2, 3]⟩), (2, ⟨some 1, [4]⟩), (3, ⟨some 1, []⟩), (4, ⟨some 2, []⟩)], [], some 0, false, []⟩
    (w.visitDfs 6 1).val? = some [(1, some 0), (2, some 1), (4, some 2), (3, some 1)] ∧
    ((C100.lateView 2 w).visitDfs 6 1).val? = some [(1, some 0), (3, some 1), (2, some 1), (4, some 2)] := by
  simp [visitDfs, visitDfs.go, C100.lateView, AMap.get, Res.val?]

end Verif
