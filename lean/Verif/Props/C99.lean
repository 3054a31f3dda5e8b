import Verif.Lemmas.ReuseQueries
import Verif.Lemmas.ReuseForest
import Verif.Spec.Demo
import Verif.Spec.DemoPose

set_option synthInstance.maxSize 1024
/-! # C99: the behaviour of the graph does not depend on the addresses that the allocator gives out

Descriptors are addresses, and the allocator may give the memory of a removed vertex or edge to a new one.  `run` is the model of the other
properties, where no address is used twice; `runA` takes each address from an arbitrary allocator.  Both behave in the same way as long as no
tree view that is still in use mentions an address that is given out again (`C99_avoids_partial`): always without tree views
(`C99_no_views`), and with tree views in graphs without cycles while their roots exist (`C99_forest_partial`).  It does not hold in general: a
view keeps its root after the frame was removed (`C99_statement_fails`) and keeps cross edges that were removed (`C99_stale_edge`). -/

namespace Verif
open GS
variable {F E : Type} [FrameProp F] [EdgeProp E]

/-- Full statement of the property: for every history and all choices of the allocator, the history ends as if every address were new. -/
def C99_statement (F E : Type) [FrameProp F] [EdgeProp E] : Prop :=
  ∀ cs : List (Alloc F E × Cmd F E), (∀ x ∈ cs, x.1.Sound) → EndAlike (run (cs.map Prod.snd) init) (runA cs init)

/-- Partial: if the allocator never gives out an address that a view that matters still mentions.  Missing: the other choices, for which it is
false. -/
theorem C99_avoids_partial (cs : List (Alloc F E × Cmd F E)) (h : AvoidsAll cs (init : GS F E)) :
    EndAlike (run (cs.map Prod.snd) init) (runA cs init) := by
  rcases (init_same _).run h with ⟨h1, h2⟩ | ⟨t, t', h1, h2, h3⟩
  · rw [h1, h2]; exact .none
  · rw [h1, h2]
    obtain ⟨π, ρ, h4⟩ := h3.alike
    exact .some (h4.mono (fun p hp => .inl hp))

/-- Partial: under the same condition each single call ends in the same way, with the same exception if there is one. -/
theorem C99_calls_partial (cs : List (Alloc F E × Cmd F E)) (al : Alloc F E) (c : Cmd F E) (h : AvoidsAll (cs ++ [(al, c)]) (init : GS F E))
    (s : GS F E) (hs : run (cs.map Prod.snd) init = some s) :
    ∃ s', runA cs init = some s' ∧ AlikeO (Matters [c] s) (exec c s) (execA al c s') := by
  have key : ∀ (cs : List (Alloc F E × Cmd F E)) (u u' : GS F E), Same ((cs ++ [(al, c)]).map Prod.snd) u u' → AvoidsAll (cs ++ [(al, c)]) u' →
      run (cs.map Prod.snd) u = some s → ∃ s', runA cs u' = some s' ∧ AlikeO (Matters [c] s) (exec c s) (execA al c s') := by
    intro cs
    induction cs with
    | nil =>
      intro u u' hS ha hr
      cases hr
      exact ⟨u', rfl, (hS.step ha.1 (hS.avoids ha.2.1)).1⟩
    | cons x cs ih =>
      obtain ⟨al', c'⟩ := x
      intro u u' hS ha hr
      rw [List.map_cons, run_cons_eq] at hr
      rw [runA_cons]
      rcases (hS.step ha.1 (hS.avoids ha.2.1)).2 with ⟨m, h1, h2⟩ | ⟨t, t', h1, h2, h3⟩
      · rw [h1] at hr; cases hr
      · rw [h1] at hr
        rw [h2]
        exact ih t t' h3 (AvoidsAll.next ha h2) hr
  exact key cs init init (init_same _) h hs

/-- Partial: a condition on the history alone.  If all views that matter mention only vertices and edges that exist, whenever a call is made, then
the choices of the allocator do not matter. -/
theorem C99_upToDate_partial (cs : List (Alloc F E × Cmd F E)) (hal : ∀ x ∈ cs, x.1.Sound) (h : UpToDateAll (cs.map Prod.snd) (init : GS F E)) :
    EndAlike (run (cs.map Prod.snd) init) (runA cs init) :=
  C99_avoids_partial cs ((init_same _).avoidsAll hal h)

/-- Histories that do not use tree views never depend on the allocator. -/
theorem C99_no_views (cs : List (Alloc F E × Cmd F E)) (hal : ∀ x ∈ cs, x.1.Sound) (h : ∀ f k p, Cmd.getTree f k p ∉ cs.map Prod.snd) :
    EndAlike (run (cs.map Prod.snd) init) (runA cs (init : GS F E)) := by
  refine C99_upToDate_partial cs hal (upToDateAll_of_no_views (fun p hp => ?_))
  rcases hp with hp | hp
  · cases hp
  · have key : ∀ cs : List (Cmd F E), p ∈ treeTargets cs → ∃ f k q, Cmd.getTree f k q ∈ cs := by
      intro cs
      induction cs with
      | nil => intro hp; cases hp
      | cons c cs ih =>
        intro hp
        rw [treeTargets_cons, List.mem_append] at hp
        rcases hp with hp | hp
        · cases c with
          | getTree f k q => exact ⟨f, k, q, List.mem_cons_self ..⟩
          | _ => cases hp
        · obtain ⟨f, k, q, h1⟩ := ih hp
          exact ⟨f, k, q, List.mem_cons_of_mem _ h1⟩
    obtain ⟨f, k, q, h1⟩ := key _ hp
    exact h f k q h1

/-- Partial: histories with tree views, also with removals, that never close a cycle and in which the root of each subscribed view stays in
the graph. -/
theorem C99_forest_partial (cs : List (Alloc F E × Cmd F E)) (hal : ∀ x ∈ cs, x.1.Sound) (h : TreeHistory (cs.map Prod.snd) (init : GS F E))
    (hr : RootsKept (cs.map Prod.snd) (init : GS F E)) : EndAlike (run (cs.map Prod.snd) init) (runA cs init) :=
  C99_upToDate_partial cs hal (forest_upToDate TreeInv.init init_below h hr)

/-- States that are the same up to the addresses give the same answers to all questions that are asked with frame names. -/
theorem C99_answers (s s' : GS F E) (h : EndAlike (some s) (some s')) :
    (∀ f, containsFrame f s' = containsFrame f s) ∧ numVertices s' = numVertices s ∧ numEdges s' = numEdges s ∧
    (∀ f, SameAnswer (getFrameProperty f s) (getFrameProperty f s')) ∧
    (∀ o t, SameAnswer (getEdgeProperty o t s) (getEdgeProperty o t s')) ∧
    (∀ o t, SameAnswer (containsEdge o t s) (containsEdge o t s')) ∧
    (∀ o t, SameAnswer (getFrames o t s) (getFrames o t s')) := by
  cases h with
  | some h =>
    refine ⟨containsFrame_ren h, ?_, ?_, getFrameProperty_ren h, getEdgeProperty_ren h, containsEdge_ren h, getFrames_ren h⟩
    · simp [numVertices, h.g, G.ren]
    · simp [numEdges, h.g, G.ren]

/-- ... and the same transforms. -/
theorem C99_transforms {T : Type} [Group T] (s s' : GS F (Tf T)) (h : EndAlike (some s) (some s')) (o t : FrameId) :
    SameAnswer (getTransform o t s) (getTransform o t s') := by
  cases h with
  | some h => exact getTransform_ren h o t

/-- ... and new subscribers get the same events, up to the addresses of the edges in them. -/
theorem C99_published (s s' : GS F E) (h : EndAlike (some s) (some s')) :
    ∃ ρ : Equiv.Perm EId, publishCurrentState s' = (publishCurrentState s).map (List.map (Event.ren ρ)) ∧
      unpublishCurrentState s' = (unpublishCurrentState s).map (List.map (Event.ren ρ)) := by
  cases h with
  | some h => exact ⟨_, publishCurrentState_ren h, unpublishCurrentState_ren h⟩

/-- The model of the other properties is one of the choices: an allocator that counts. -/
theorem C99_counter (cs : List (Cmd F E)) (s : GS F E) : runA (cs.map (fun c => (Alloc.counter, c))) s = run cs s := by
  induction cs generalizing s with
  | nil => rfl
  | cons c cs ih =>
    rw [List.map_cons, runA_cons, run_cons_eq, execA_counter]
    cases (exec c s).st? with
    | none => rfl
    | some t => exact ih t

/-- the calls, each with the allocator that gives out the lowest free address -/
def low (cs : List (Cmd DemoFrame Int)) : List (Alloc DemoFrame Int × Cmd DemoFrame Int) := cs.map fun c => (Alloc.lowest, c)

theorem low_sound (cs : List (Cmd DemoFrame Int)) : ∀ x ∈ low cs, x.1.Sound := by
  intro x hx
  obtain ⟨c, -, rfl⟩ := List.mem_map.1 hx
  exact lowest_sound

theorem low_calls (cs : List (Cmd DemoFrame Int)) : (low cs).map Prod.snd = cs := by simp [low, List.map_map, Function.comp_def]

/-- a view of `a`, the frame is removed, and a frame `b` is connected to `c` -/
def reusedRoot : List (Cmd DemoFrame Int) :=
  [.addFrame "a", .getTree "a" true 0, .removeFrame "a", .addFrame "b", .addEdge "b" "c" 1]

/-- The full statement is false: the frame `b` gets the address of the removed frame `a`, and the view of `a` shows the tree of `b`. -/
theorem C99_statement_fails : ¬ C99_statement DemoFrame Int := by
  intro h
  have h1 := h (low reusedRoot) (low_sound _)
  rw [low_calls] at h1
  have e1 : (run reusedRoot init).map (fun s => (s.subs, (s.views 0).tree.length)) = some ([0], 1) := by decide +kernel
  have e2 : (runA (low reusedRoot) init).map (fun s => (s.views 0).tree.length) = some 2 := by decide +kernel
  generalize run reusedRoot init = r at h1 e1
  generalize runA (low reusedRoot) init = r' at h1 e2
  cases h1 with
  | none => cases e1
  | some hA =>
    simp only [Option.map_some, Option.some.injEq, Prod.mk.injEq] at e1 e2
    have := (hA.views 0 (by rw [e1.1]; simp)).tree
    rw [this] at e2
    simp only [treeRen, List.length_map] at e2
    rw [e1.2] at e2
    exact absurd e2 (by decide)

/-- the triangle a-b-c with a view of `a`; the connection b-c is removed and d-e added -/
def reusedEdge : List (Cmd DemoFrame Int) :=
  [.addEdge "a" "b" 1, .addEdge "b" "c" 2, .addEdge "c" "a" 3, .getTree "a" true 0, .removeEdge "b" "c", .addEdge "d" "e" 4]

/-- Negative: the view keeps the cross edge b-c after the connection was removed.  The connection d-e gets its address, so that the cross edge of
the view denotes an edge between other frames, with another property, outside of the view.  If no address is used twice it denotes nothing. -/
theorem C99_stale_edge : ∃ s s', run reusedEdge (init : GS DemoFrame Int) = some s ∧ runA (low reusedEdge) init = some s' ∧ 0 ∈ s'.subs ∧
    (∃ c ∈ (s'.views 0).crossEdges, ∃ e ∈ s'.g.edges, e.id = c.edge ∧ e.src ≠ c.origin ∧ (s'.views 0).vertexExists e.src = false ∧ e.prop = 4) ∧
    (∀ c ∈ (s.views 0).crossEdges, ∀ e ∈ s.g.edges, e.id ≠ c.edge) ∧ ¬ EndAlike (some s) (some s') := by
  have e1 : (run reusedEdge (init : GS DemoFrame Int)).map (fun s => (s.subs, (s.views 0).crossEdges, s.g.edges.map ERec.id)) =
      some ([0], [⟨1, 2, 2⟩], [0, 1, 4, 5, 6, 7]) := by decide +kernel
  have e2 : (runA (low reusedEdge) (init : GS DemoFrame Int)).map (fun s => (s.subs, (s.views 0).crossEdges,
      s.g.edges.map (fun e => (e.id, e.src, e.tgt, e.prop)), (s.views 0).vertexExists 3)) =
      some ([0], [⟨1, 2, 2⟩], [(0, 0, 1, 1), (1, 1, 0, -1), (4, 2, 0, 3), (5, 0, 2, -3), (2, 3, 4, 4), (3, 4, 3, -4)], false) := by decide +kernel
  generalize run reusedEdge init = r at e1
  generalize runA (low reusedEdge) init = r' at e2
  cases r with
  | none => cases e1
  | some s =>
    cases r' with
    | none => cases e2
    | some s' =>
      simp only [Option.map_some, Option.some.injEq, Prod.mk.injEq] at e1 e2
      obtain ⟨a1, a2, a3⟩ := e1
      obtain ⟨b1, b2, b3, b4⟩ := e2
      have hm : ((2 : EId), (3 : VId), (4 : VId), (4 : Int)) ∈ s'.g.edges.map (fun e => (e.id, e.src, e.tgt, e.prop)) := by
        rw [b3]; decide
      obtain ⟨e, he, h1⟩ := List.mem_map.1 hm
      simp only [Prod.mk.injEq] at h1
      obtain ⟨h1, h2, h3, h4⟩ := h1
      refine ⟨s, s', rfl, rfl, by rw [b1]; decide, ⟨⟨1, 2, 2⟩, by rw [b2]; decide, e, he, h1, by rw [h2]; decide, by rw [h2]; exact b4, h4⟩, ?_, ?_⟩
      · intro c hc e' he' heq
        rw [a2, List.mem_singleton] at hc
        have := List.mem_map_of_mem (f := ERec.id) he'
        rw [a3, heq, hc] at this
        exact absurd this (by decide)
      · intro hE
        cases hE
        rename_i π ρ hA
        have v0 := (hA.views 0 (by rw [a1]; decide)).cross
        rw [a2, b2] at v0
        simp only [List.map_cons, List.map_nil, CrossEdge.ren, List.cons.injEq, CrossEdge.mk.injEq, and_true] at v0
        have hg := hA.g
        rw [hg] at he
        simp only [G.ren, List.mem_map] at he
        obtain ⟨e0, he0, rfl⟩ := he
        have h5 : ρ e0.id = ρ 2 := by rw [← v0.2.2]; exact h1
        have h6 : e0.id = 2 := ρ.injective h5
        have := List.mem_map_of_mem (f := ERec.id) he0
        rw [a3, h6] at this
        exact absurd this (by decide)

/-! ## Examples -/

/-- frames and edges that come and go: `d` has the address of `b`, and the new edges have addresses of removed ones -/
example : (runA (low [.addEdge "a" "b" 1, .addEdge "a" "c" 2, .removeEdge "a" "b", .removeFrame "b", .addEdge "d" "a" 5])
      (init : GS DemoFrame Int)).map (fun s => (s.g.verts.map (fun r => (r.id, r.prop.id)), s.g.edges.map (fun e => (e.id, e.src, e.tgt)))) =
    some ([(0, "a"), (2, "c"), (1, "d")], [(2, 0, 2), (3, 2, 0), (0, 1, 0), (1, 0, 1)]) ∧
    (run [.addEdge "a" "b" 1, .addEdge "a" "c" 2, .removeEdge "a" "b", .removeFrame "b", .addEdge "d" "a" 5]
      (init : GS DemoFrame Int)).map (fun s => (s.g.verts.map (fun r => (r.id, r.prop.id)), s.g.edges.map (fun e => (e.id, e.src, e.tgt)))) =
    some ([(0, "a"), (2, "c"), (3, "d")], [(2, 0, 2), (3, 2, 0), (4, 3, 0), (5, 0, 3)]) := by decide +kernel

/-- ... the history satisfies the conditions of `C99_no_views` -/
example : EndAlike (run [.addEdge "a" "b" 1, .addEdge "a" "c" 2, .removeEdge "a" "b", .removeFrame "b", .addEdge "d" "a" 5] init)
    (runA (low [.addEdge "a" "b" 1, .addEdge "a" "c" 2, .removeEdge "a" "b", .removeFrame "b", .addEdge "d" "a" 5]) init) := by
  have := C99_no_views (low [.addEdge "a" "b" 1, .addEdge "a" "c" 2, .removeEdge "a" "b", .removeFrame "b", .addEdge "d" "a" 5]) (low_sound _)
  rw [low_calls] at this
  exact this (by simp)

/-- ... and the paths and edge properties are the same -/
example : (runA (low [.addEdge "a" "b" 1, .addEdge "a" "c" 2, .removeEdge "a" "b", .removeFrame "b", .addEdge "d" "a" 5])
      (init : GS DemoFrame Int)).map (fun s => ((getFrames "c" "d" s).val?, (getEdgeProperty "a" "d" s).val?, (getFrames "c" "b" s).exn?,
        publishCurrentState s)) =
    some (some ["c", "a", "d"], some (-5), some (.unknownFrame "b"),
      some [.frameAdded "a", .frameAdded "c", .frameAdded "d", .edgeAdded "a" "c" 2, .edgeAdded "d" "a" 0]) ∧
    (run [.addEdge "a" "b" 1, .addEdge "a" "c" 2, .removeEdge "a" "b", .removeFrame "b", .addEdge "d" "a" 5]
      (init : GS DemoFrame Int)).map (fun s => ((getFrames "c" "d" s).val?, (getEdgeProperty "a" "d" s).val?, (getFrames "c" "b" s).exn?,
        publishCurrentState s)) =
    some (some ["c", "a", "d"], some (-5), some (.unknownFrame "b"),
      some [.frameAdded "a", .frameAdded "c", .frameAdded "d", .edgeAdded "a" "c" 2, .edgeAdded "d" "a" 4]) := by decide +kernel

/-- a history with a view and without cycles: `d` has the address of `c`, which was in the view -/
def reusedLeaf : List (Cmd DemoFrame Int) := [.addEdge "a" "b" 1, .addEdge "b" "c" 2, .getTree "a" true 0, .removeEdge "b" "c", .removeFrame "c", .addFrame "d"]

example : (runA (low reusedLeaf) init).map (fun s => (s.g.verts.map (fun r => (r.id, r.prop.id)), (s.views 0).tree.map (·.1))) =
    some ([(0, "a"), (1, "b"), (2, "d")], [0, 1]) := by decide +kernel

/-- ... it satisfies the conditions of `C99_forest_partial`, and so of `C99_upToDate_partial` and `C99_avoids_partial` -/
theorem reusedLeaf_tree : TreeHistory reusedLeaf (init : GS DemoFrame Int) := by
  refine ⟨⟨by decide, Or.inr (noPath_new (by decide) rfl)⟩, ⟨by decide, Or.inr (noPath_new (by decide) rfl)⟩, rfl, trivial, trivial, trivial, trivial⟩

/-- whether the roots are kept can be calculated -/
def rootsKeptB : List (Cmd DemoFrame Int) → GS DemoFrame Int → Bool
  | [], _ => true
  | c :: cs, s => s.subs.all (fun p => (s.views p).root.all (fun v => decide (v ∈ s.g.verts.map VRec.id))) &&
    match exec c s with
    | .ok _ s' => rootsKeptB cs s'
    | .throw _ s' => rootsKeptB cs s'
    | .ub _ => true

theorem rootsKept_of : ∀ {cs : List (Cmd DemoFrame Int)} {s : GS DemoFrame Int}, rootsKeptB cs s = true → RootsKept cs s
  | [], _, _ => trivial
  | c :: cs, s, h => by
    simp only [rootsKeptB, Bool.and_eq_true] at h
    refine ⟨fun p hp v hv => ?_, fun s' hs' => ?_⟩
    · have := List.all_eq_true.1 h.1 p hp
      rw [hv] at this
      simpa using this
    · rcases hs' with he | ⟨x, he⟩ <;> rw [he] at h <;> exact rootsKept_of h.2

example : EndAlike (run reusedLeaf init) (runA (low reusedLeaf) init) := by
  have := C99_forest_partial (low reusedLeaf) (low_sound _)
  rw [low_calls] at this
  exact this reusedLeaf_tree (rootsKept_of (by decide +kernel))

/-- ... while the root is not kept in the history of `C99_statement_fails`: in the end the view of `a` consists of `b` and `c` -/
example : rootsKeptB reusedRoot init = false ∧
    (runA (low reusedRoot) init).map (fun s => (s.g.verts.map (fun r => (r.id, r.prop.id)), (s.views 0).tree.map (fun p => (p.1, p.2.children)))) =
      some ([(0, "b"), (1, "c")], [(0, [1]), (1, [])]) ∧
    (run reusedRoot init).map (fun s => (s.g.verts.map (fun r => (r.id, r.prop.id)), (s.views 0).tree.map (fun p => (p.1, p.2.children)))) =
      some ([(1, "b"), (2, "c")], [(0, [])]) := by decide +kernel

/-- the transform from `d` to `c` over `a`, with reused addresses and without -/
example : (runA ([.addEdge "a" "b" ⟨1, ⟨true, 1⟩⟩, .addEdge "a" "c" ⟨1, ⟨true, 2⟩⟩, .removeEdge "a" "b", .removeFrame "b",
      .addEdge "d" "a" ⟨1, ⟨false, 5⟩⟩].map fun c => (Alloc.lowest, c)) (init : GS DemoFrame (Tf DemoPose))).map
      (fun s => ((getTransform "d" "c" s).val?.map (fun t => t.pose), (getTransform "d" "b" s).exn?)) =
    some (some ⟨true, 7⟩, some (.unknownFrame "b")) ∧
    (run [.addEdge "a" "b" ⟨1, ⟨true, 1⟩⟩, .addEdge "a" "c" ⟨1, ⟨true, 2⟩⟩, .removeEdge "a" "b", .removeFrame "b",
      .addEdge "d" "a" ⟨1, ⟨false, 5⟩⟩] (init : GS DemoFrame (Tf DemoPose))).map
      (fun s => ((getTransform "d" "c" s).val?.map (fun t => t.pose), (getTransform "d" "b" s).exn?)) =
    some (some ⟨true, 7⟩, some (.unknownFrame "b")) := by decide +kernel

/-- the counting allocator continues after the removed vertex -/
example : (runA ([.addFrame "a", .removeFrame "a", .addFrame "b"].map fun c => (Alloc.counter, c)) (init : GS DemoFrame Int)).map
    (fun s => s.g.verts.map VRec.id) = some [1] := by decide +kernel

/-- addresses may also be chosen in a different way for each call: high ones, then low ones -/
def high : Alloc DemoFrame Int := ⟨fun g => (g.verts.map VRec.id).sum + 10, fun g => (g.edges.map ERec.id).sum + 10⟩

theorem high_sound : high.Sound := by
  have key : ∀ (l : List Nat) (x : Nat), x ∈ l → x ≤ l.sum := by
    intro l
    induction l with
    | nil => intro x hx; cases hx
    | cons a l ih =>
      intro x hx
      rw [List.sum_cons]
      rcases List.mem_cons.1 hx with rfl | hx
      · omega
      · have := ih x hx; omega
  intro g
  exact ⟨fun h => by have := key _ _ h; simp only [high] at this; omega, fun h => by have := key _ _ h; simp only [high] at this; omega⟩

example : (runA [(high, .addEdge "a" "b" 1), (.lowest, .addEdge "b" "c" 2), (high, .addFrame "b"), (high, .removeEdge "a" "b")]
      (init : GS DemoFrame Int)).map (fun s => (s.g.verts.map (fun r => (r.id, r.prop.id)), s.g.edges.map (fun e => (e.id, e.src, e.tgt)))) =
    some ([(10, "a"), (20, "b"), (0, "c")], [(0, 20, 0), (1, 0, 20)]) := by decide +kernel

end Verif
