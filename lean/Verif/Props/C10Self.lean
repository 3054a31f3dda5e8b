import Verif.Lemmas.SimLoops
import Verif.Props.C10
/-! # C10: a copy behaves like the original, graphs with self edges -/

namespace Verif
open GS G
variable {F E : Type} [FrameProp F] [EdgeProp E]

private theorem copied_paired_ns {g : G F E} (hw : WF g) (hp : Paired g.ns) : Paired g.copied.ns := by
  have mem : ∀ {x : ERec E}, x ∈ g.copied.ns.edges → ∃ i e, g.edges[i]? = some e ∧ e ∈ g.ns.edges ∧ x = ⟨i, g.pos e.src, g.pos e.tgt, e.prop⟩ := by
    intro x hx
    obtain ⟨h1, h2⟩ := G.mem_ns.1 hx
    obtain ⟨i, e, he, rfl⟩ := mem_copied_edges.1 h1
    exact ⟨i, e, he, G.mem_ns.2 ⟨List.mem_of_getElem? he, fun h => h2 (by rw [h])⟩, rfl⟩
  constructor
  · intro x hx
    exact (G.mem_ns.1 hx).2
  · intro x hx y hy h1 h2
    obtain ⟨i, e, he, hn, rfl⟩ := mem hx
    obtain ⟨j, e', he', hn', rfl⟩ := mem hy
    have hm := List.mem_of_getElem? he
    have : e = e' := hp.uniq e hn e' hn' (G.pos_inj (hw.esrc e hm) h1) (G.pos_inj (hw.etgt e hm) h2)
    subst this
    have : i = j := by
      obtain ⟨hi, h3⟩ := List.getElem?_eq_some_iff.1 he
      obtain ⟨hj, h4⟩ := List.getElem?_eq_some_iff.1 he'
      exact ((List.Nodup.of_map _ hw.enodup).getElem_inj_iff).1 (h3.trans h4.symm)
    subst this
    rfl
  · intro x hx
    obtain ⟨i, e, he, hn, rfl⟩ := mem hx
    obtain ⟨e', hm', h1, h2, h3⟩ := hp.inv e hn
    obtain ⟨hm1, hm2⟩ := G.mem_ns.1 hm'
    obtain ⟨j, hj, rfl⟩ := List.getElem_of_mem hm1
    refine ⟨_, G.mem_ns.2 ⟨mem_copied_edges.2 ⟨j, _, List.getElem?_eq_getElem hj, rfl⟩, ?_⟩, by rw [h1], by rw [h2], h3⟩
    exact fun h => hm2 (G.pos_inj (hw.esrc _ hm1) h)

private theorem filter_mapIdx_length {α β : Type} (p : β → Bool) (p' : α → Bool) : ∀ (l : List α) (f : Nat → α → β),
    (∀ i, ∀ a ∈ l, p (f i a) = p' a) → ((l.mapIdx f).filter p).length = (l.filter p').length
  | [], _, _ => rfl
  | a :: l, f, h => by
    have ih := filter_mapIdx_length p p' l (fun i => f (i + 1)) (fun i a ha => h (i + 1) a (by simp [ha]))
    rw [List.mapIdx_cons, List.filter_cons, List.filter_cons, h 0 a (by simp)]
    cases p' a
    · simpa using ih
    · simpa using ih

private theorem copied_selfTwo {g : G F E} (hw : WF g) (h : SelfTwo g) : SelfTwo g.copied := by
  intro u
  by_cases hu : ∃ e ∈ g.edges, g.pos e.src = u
  · obtain ⟨e0, he0, rfl⟩ := hu
    have : (g.copied.selfs (g.pos e0.src)).length = (g.selfs e0.src).length := by
      refine filter_mapIdx_length _ _ _ _ ?_
      intro i e he
      have h1 : g.pos e.src = g.pos e0.src ↔ e.src = e0.src := ⟨G.pos_inj (hw.esrc e he), fun h => by rw [h]⟩
      have h2 : g.pos e.tgt = g.pos e0.src ↔ e.tgt = e0.src := ⟨G.pos_inj (hw.etgt e he), fun h => by rw [h]⟩
      simp only [h1, h2]
    rw [this]
    exact h e0.src
  · refine Or.inl ?_
    rw [List.length_eq_zero_iff]
    unfold G.selfs
    rw [List.filter_eq_nil_iff]
    intro x hx
    obtain ⟨i, e, he, rfl⟩ := mem_copied_edges.1 hx
    simp only [decide_eq_true_eq, not_and]
    intro h1
    exact absurd ⟨e, List.mem_of_getElem? he, h1⟩ hu

private theorem SimL_copied {s : GS F E} {A : AGraph E} {S : Finset Nat} (h : SimL s A S) :
    SimL (⟨s.g.copied, [], fun _ => TreeView.empty, []⟩ : GS F E) A ∅ := by
  refine ⟨copied_wf h.wf, copied_paired_ns h.wf h.paired, copied_selfTwo h.wf h.two, ⟨by simp, by simp [TreeView.empty]⟩, by simp, ⟨?_, ?_⟩⟩
  · intro f
    rw [← h.rep.frames f]
    simp [copied_vertexOf h.wf]
  · intro a b
    rw [← h.rep.edges]; exact absEdge_copied h.wf a b

omit [FrameProp F] in
private theorem stepL_det {A A1 A2 : AGraph E} {c : Cmd F E} {x y : Option Exn} (h1 : A.StepL ∅ c x A1) (h2 : A.StepL ∅ c y A2) : x = y ∧ A1 = A2 := by
  cases h1 with
  | same _ h =>
    cases h2 with
    | same _ _ => exact ⟨rfl, rfl⟩
    | setSelf a p h' => rw [h rfl] at h'; cases h'
    | removeEdge _ _ _ h' => exact absurd h' (by simp)
    | disconnectFrame _ _ _ h' => exact absurd h' (by simp)
  | setSelf a p h =>
    cases h2 with
    | same _ h' => rw [h' rfl] at h; cases h
    | setSelf _ _ _ => exact ⟨rfl, rfl⟩
  | removeEdge _ _ _ h' => exact absurd h' (by simp)
  | disconnectFrame _ _ _ h' => exact absurd h' (by simp)

private theorem outcomes_alike {ds : List (Cmd F E)} : (∀ d ∈ ds, ∀ f p, d ≠ .getTree f true p) → ∀ {s c : GS F E} {A : AGraph E}, SimL s A ∅ → SimL c A ∅ →
    (outcomes ds s = none ∧ outcomes ds c = none) ∨
    ∃ os s' c' A', outcomes ds s = some (os, s') ∧ outcomes ds c = some (os, c') ∧ SimL s' A' ∅ ∧ SimL c' A' ∅ := by
  induction ds with
  | nil => exact fun _ s c A h1 h2 => Or.inr ⟨[], s, c, A, rfl, rfl, h1, h2⟩
  | cons d ds ih =>
    intro hds s c A h1 h2
    have hd := hds d (by simp)
    have nil : ∀ {t : GS F E}, SimL t A ∅ → t.subs = [] := by
      intro t ht
      rw [List.eq_nil_iff_forall_not_mem]
      intro p hp
      simpa using (ht.subs p).1 hp
    have sub : ∀ ok, AGraph.subsAfter ∅ ok d = ∅ := by
      intro ok
      cases d with
      | getTree f k p => cases k with
        | true => exact absurd rfl (hd f p)
        | false => rfl
      | unsubscribeView p => rfl
      | _ => rfl
    have u1 := h1.rep.exec_ub_iff h1.wf h1.paired (nil h1) hd
    have u2 := h2.rep.exec_ub_iff h2.wf h2.paired (nil h2) hd
    obtain ⟨a1, a2⟩ := h1.exec d
    obtain ⟨b1, b2⟩ := h2.exec d
    simp only [sub] at a1 a2 b1 b2
    have ih := fun {s c A} => ih (fun d hd => hds d (by simp [hd])) (s := s) (c := c) (A := A)
    unfold outcomes
    cases hs : exec d s with
    | ub m =>
      obtain ⟨m', hc⟩ := u2.2 (u1.1 ⟨m, hs⟩)
      exact Or.inl (by simp [hc])
    | ok _ s1 =>
      obtain ⟨A1, k1, k2⟩ := a1 s1 hs
      cases hc : exec d c with
      | ub m => obtain ⟨m', hs'⟩ := u1.2 (u2.1 ⟨m, hc⟩); rw [hs] at hs'; cases hs'
      | throw x c1 =>
        obtain ⟨A2, l1, -⟩ := b2 x c1 hc
        cases (stepL_det k1 l1).1
      | ok _ c1 =>
        obtain ⟨A2, l1, l2⟩ := b1 c1 hc
        obtain ⟨-, rfl⟩ := stepL_det k1 l1
        rcases ih k2 l2 with ⟨g1, g2⟩ | ⟨os, s', c', A', g1, g2, g3, g4⟩
        · exact Or.inl (by simp [g1, g2])
        · exact Or.inr ⟨none :: os, s', c', A', by simp [g1], by simp [g2], g3, g4⟩
    | throw x s1 =>
      obtain ⟨A1, k1, k2⟩ := a2 x s1 hs
      cases hc : exec d c with
      | ub m => obtain ⟨m', hs'⟩ := u1.2 (u2.1 ⟨m, hc⟩); rw [hs] at hs'; cases hs'
      | ok _ c1 =>
        obtain ⟨A2, l1, -⟩ := b1 c1 hc
        cases (stepL_det k1 l1).1
      | throw y c1 =>
        obtain ⟨A2, l1, l2⟩ := b2 y c1 hc
        obtain ⟨e, rfl⟩ := stepL_det k1 l1
        obtain rfl := Option.some.inj e
        rcases ih k2 l2 with ⟨g1, g2⟩ | ⟨os, s', c', A', g1, g2, g3, g4⟩
        · exact Or.inl (by simp [g1, g2])
        · exact Or.inr ⟨some x :: os, s', c', A', by simp [g1], by simp [g2], g3, g4⟩

private theorem outcomes_of_run {cs : List (Cmd F E)} : ∀ {s s' : GS F E}, run cs s = some s' → ∃ xs, outcomes cs s = some (xs, s') := by
  induction cs with
  | nil => intro s s' h; exact ⟨[], by simpa [run, outcomes] using h⟩
  | cons c cs ih =>
    intro s s' h
    unfold run at h
    unfold outcomes
    cases hc : exec c s with
    | ub m => simp [hc] at h
    | ok _ s1 =>
      simp only [hc] at h
      obtain ⟨xs, hx⟩ := ih h
      exact ⟨none :: xs, by simp [hx]⟩
    | throw x s1 =>
      simp only [hc] at h
      obtain ⟨xs, hx⟩ := ih h
      exact ⟨some x :: xs, by simp [hx]⟩

private theorem answers_alike {s' c' : GS F E} {A' : AGraph E} {S T : Finset Nat} (g3 : SimL s' A' S) (g4 : SimL c' A' T) :
    (∀ f, containsFrame f c' = containsFrame f s') ∧ numVertices c' = numVertices s' ∧ numEdges c' = numEdges s' ∧
      (∀ a b p, getEdgeProperty a b c' = .ok p c' ↔ getEdgeProperty a b s' = .ok p s') := by
  refine ⟨fun f => ?_, ?_, ?_, ?_⟩
  · simp only [containsFrame]
    rw [Bool.eq_iff_iff, g3.rep.frames, g4.rep.frames]
  · rw [g3.rep.numVertices g3.wf, g4.rep.numVertices g4.wf]
  · rw [g3.rep.numEdges g3.wf g3.paired g3.two, g4.rep.numEdges g4.wf g4.paired g4.two]
  · have key : ∀ {t : GS F E} {A : AGraph E}, Rep t A → ∀ a b p, getEdgeProperty a b t = .ok p t ↔ A.edges a b = some p := by
      intro t A ht a b p
      rw [← ht.edges]
      simp only [getEdgeProperty, getEdge]
      cases ha : t.g.vertexOf a with
      | none => simp [absEdge_none_left ha]
      | some u =>
        cases hb : t.g.vertexOf b with
        | none => simp [absEdge_none_right hb]
        | some v =>
          rw [absEdge_of ha hb]
          cases he : t.g.edge u v <;> simp [he]
    intro a b p
    rw [key g3.rep, key g4.rep]

/-- `C10_copy_behaves_alike_partial` with self edges before and after the copy, and with tree views that are not subscribed any more: a further history on
the copy and the same one on the original have the same outcomes; if one of them is undefined behaviour, so is the other one.
Missing compared to C10: graphs with a gap (`C10_copy_exact`), and views that are subscribed to the original, which can make its calls throw. -/
theorem C10_copy_behaves_alike_with_self_edges_partial (cs ds : List (Cmd F E)) (hds : ∀ d ∈ ds, ∀ f p, d ≠ .getTree f true p) (s : GS F E)
    (h : run cs init = some s) (hsub : s.subs = []) (hg : ¬ Gap (slots (s.trace.map Prod.fst))) :
    ∃ c, s.copy = some c ∧
      ((outcomes ds s = none ∧ outcomes ds c = none) ∨
        ∃ os s' c', outcomes ds s = some (os, s') ∧ outcomes ds c = some (os, c') ∧
          (∀ f, containsFrame f c' = containsFrame f s') ∧ numVertices c' = numVertices s' ∧ numEdges c' = numEdges s' ∧
          (∀ a b p, getEdgeProperty a b c' = .ok p c' ↔ getEdgeProperty a b s' = .ok p s')) := by
  obtain ⟨xs, hx⟩ := outcomes_of_run h
  obtain ⟨A, S, -, hsim⟩ := SimL.outcomes SimL.init hx
  obtain rfl : S = ∅ := by
    rw [Finset.eq_empty_iff_forall_notMem]
    intro p hp
    have := (hsim.subs p).2 hp
    rw [hsub] at this
    cases this
  refine ⟨_, copy_eq hsim.wf (((Slotted.run h).dense_iff (run_wf WF.empty h)).2 hg), ?_⟩
  rcases outcomes_alike hds hsim (SimL_copied hsim) with g | ⟨os, s', c', A', g1, g2, g3, g4⟩
  · exact Or.inl g
  · exact Or.inr ⟨os, s', c', g1, g2, answers_alike g3 g4⟩

/-- a graph with self edges and a view that was unsubscribed; further calls on the copy and on the original, a self edge is changed; removing it is undefined
for both -/
example : ∃ s c : GS DemoFrame Int, run [.addEdge "a" "b" 1, .addEdge "a" "a" 2, .getTree "a" true 0, .unsubscribeView 0] init = some s ∧
    s.subs = [] ∧ s.copy = some c ∧
    (outcomes [.setEdge "a" "a" 7, .addEdge "b" "b" 3, .removeEdge "b" "a", .removeFrame "b"] s).map (fun r => (r.1, absEdge r.2.g "a" "a", numEdges r.2)) =
      some ([none, none, none, some (.frameStillConnected "b")], some (-7), 4) ∧
    (outcomes [.setEdge "a" "a" 7, .addEdge "b" "b" 3, .removeEdge "b" "a", .removeFrame "b"] c).map (fun r => (r.1, absEdge r.2.g "a" "a", numEdges r.2)) =
      some ([none, none, none, some (.frameStillConnected "b")], some (-7), 4) ∧
    (outcomes [.removeEdge "a" "a"] s).isNone = true ∧ (outcomes [.removeEdge "a" "a"] c).isNone = true :=
  ⟨_, _, rfl, rfl, rfl, rfl, rfl, rfl, rfl⟩

omit [FrameProp F] in
private theorem runL_det {A A1 A2 : AGraph E} {S T S1 T2 : Finset Nat} {ds : List (Cmd F E)} {xs ys : List (Option Exn)}
    (hds : ∀ d ∈ ds, (∀ a b, d ≠ .removeEdge a b) ∧ ∀ f, d ≠ .disconnectFrame f) (h1 : A.RunL S ds xs A1 S1) (h2 : A.RunL T ds ys A2 T2) :
    xs = ys ∧ A1 = A2 := by
  induction ds generalizing A S T xs ys with
  | nil => cases h1; cases h2; exact ⟨rfl, rfl⟩
  | cons d ds ih =>
    cases h1 with
    | cons a1 a2 =>
      cases h2 with
      | cons b1 b2 =>
        have hd := hds d (by simp)
        have key : ∀ {A B C : AGraph E} {x y : Option Exn}, A.StepL S d x B → A.StepL T d y C → x = y ∧ B = C := by
          intro A B C x y h1 h2
          cases h1 with
          | same _ h =>
            cases h2 with
            | same _ _ => exact ⟨rfl, rfl⟩
            | setSelf a p h' => rw [h rfl] at h'; cases h'
            | removeEdge a b => exact absurd rfl (hd.1 a b)
            | disconnectFrame f => exact absurd rfl (hd.2 f)
          | setSelf a p h =>
            cases h2 with
            | same _ h' => rw [h' rfl] at h; cases h
            | setSelf _ _ _ => exact ⟨rfl, rfl⟩
          | removeEdge a b => exact absurd rfl (hd.1 a b)
          | disconnectFrame f => exact absurd rfl (hd.2 f)
        obtain ⟨rfl, rfl⟩ := key a1 b1
        obtain ⟨rfl, rfl⟩ := ih (fun d hd => hds d (by simp [hd])) a2 b2
        exact ⟨rfl, rfl⟩

/-- The same for a graph with subscribed views, whose views the copy does not have: a further history without removal of edges has the same outcomes on the
copy and on the original, new views included.
Missing compared to C10: histories that are undefined, graphs with a gap, and removals of edges, where the original can throw because of its views. -/
theorem C10_copy_of_watched_graph_partial (cs ds : List (Cmd F E)) (hds : ∀ d ∈ ds, (∀ a b, d ≠ .removeEdge a b) ∧ ∀ f, d ≠ .disconnectFrame f) (s : GS F E)
    (h : run cs init = some s) (hg : ¬ Gap (slots (s.trace.map Prod.fst))) :
    ∃ c, s.copy = some c ∧ ∀ os s' os' c', outcomes ds s = some (os, s') → outcomes ds c = some (os', c') →
      os' = os ∧ (∀ f, containsFrame f c' = containsFrame f s') ∧ numVertices c' = numVertices s' ∧ numEdges c' = numEdges s' ∧
        (∀ a b p, getEdgeProperty a b c' = .ok p c' ↔ getEdgeProperty a b s' = .ok p s') := by
  obtain ⟨xs, hx⟩ := outcomes_of_run h
  obtain ⟨A, S, -, hsim⟩ := SimL.outcomes SimL.init hx
  refine ⟨_, copy_eq hsim.wf (((Slotted.run h).dense_iff (run_wf WF.empty h)).2 hg), ?_⟩
  intro os s' os' c' h1 h2
  obtain ⟨A1, S1, r1, g1⟩ := hsim.outcomes h1
  obtain ⟨A2, S2, r2, g2⟩ := (SimL_copied hsim).outcomes h2
  obtain ⟨rfl, rfl⟩ := runL_det hds r1 r2
  exact ⟨rfl, answers_alike g1 g2⟩

/-- a graph with a self edge and a subscribed view: further calls with the same outcomes; the removal of an edge of the triangle is refused by the view of the
original only -/
example : ∃ s c : GS DemoFrame Int, run [.addEdge "a" "b" 1, .addEdge "b" "c" 2, .addEdge "c" "a" 3, .addEdge "b" "b" 4, .getTree "b" true 0] init = some s ∧
    s.subs = [0] ∧ s.copy = some c ∧ c.subs = [] ∧
    (outcomes [.addEdge "c" "d" 5, .addEdge "a" "b" 9, .setEdge "b" "b" 7, .getTree "a" true 1] s).map (fun r => (r.1, absEdge r.2.g "b" "b", numEdges r.2)) =
      some ([none, some (.edgeAlreadyExists "a" "b"), none, none], some (-7), 10) ∧
    (outcomes [.addEdge "c" "d" 5, .addEdge "a" "b" 9, .setEdge "b" "b" 7, .getTree "a" true 1] c).map (fun r => (r.1, absEdge r.2.g "b" "b", numEdges r.2)) =
      some ([none, some (.edgeAlreadyExists "a" "b"), none, none], some (-7), 10) ∧
    (outcomes [.removeEdge "b" "a"] s).map Prod.fst = some [some (.runtimeError "NOT IMPLEMENTED")] ∧
    (outcomes [.removeEdge "b" "a"] c).map Prod.fst = some [none] :=
  ⟨_, _, rfl, rfl, rfl, rfl, by decide +kernel, by decide +kernel, by decide +kernel, by decide +kernel⟩

end Verif
