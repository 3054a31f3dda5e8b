import Verif.Lemmas.NoSelf
import Verif.Spec.Demo
/-! # C02: edges always come in inverse pairs -/

namespace Verif
open GS
variable {F E : Type} [FrameProp F] [EdgeProp E]

/-- After any history without self edges (views and throwing calls included): an edge a→b exists iff b→a does, there is at
most one edge per ordered pair, and one of the two properties is the inverse of the other. -/
theorem C02_inverse_pairs (cs : List (Cmd F E)) (hns : ∀ a p, Cmd.addEdge a a p ∉ cs) (s : GS F E)
    (h : run cs init = some s) :
    (∀ a b, containsEdge a b s = .ok true s ↔ containsEdge b a s = .ok true s) ∧
    (∀ e ∈ getEdges s, ∀ e' ∈ getEdges s, e.src = e'.src → e.tgt = e'.tgt → e = e') ∧
    (∀ a b p, getEdgeProperty a b s = .ok p s →
      ∃ q, getEdgeProperty b a s = .ok q s ∧ (q = EdgeProp.inverse p ∨ p = EdgeProp.inverse q)) := by
  have hw : WF s.g := run_wf WF.empty h
  have hp : Paired s.g := by
    refine run_paired WF.empty Paired.empty h ?_
    intro c hc
    cases c with
    | addEdge o t p => rintro rfl; exact hns _ _ hc
    | _ => trivial
  have key : ∀ a b, containsEdge a b s = .ok true s ↔
      ∃ u v e, s.g.vertexOf a = some u ∧ s.g.vertexOf b = some v ∧ s.g.edge u v = some e := by
    intro a b
    unfold containsEdge
    cases ha : s.g.vertexOf a with
    | none => simp
    | some u =>
      cases hb : s.g.vertexOf b with
      | none => simp
      | some v =>
        simp only [Res.ok.injEq, and_true, Option.some.injEq, exists_and_left, Option.isSome_iff_exists]
        exact ⟨fun ⟨e, he⟩ => ⟨u, rfl, v, rfl, e, he⟩, fun ⟨u', h1, v', h2, e, he⟩ => ⟨e, by rw [h1, h2]; exact he⟩⟩
  have half : ∀ a b, containsEdge a b s = .ok true s → containsEdge b a s = .ok true s := by
    intro a b hab
    obtain ⟨u, v, e, hu, hv, he⟩ := (key a b).1 hab
    obtain ⟨e', he', -⟩ := hp.inverse he
    exact (key b a).2 ⟨v, u, e', hv, hu, he'⟩
  refine ⟨fun a b => ⟨half a b, half b a⟩, fun e he e' he' => hp.uniq e he e' he', ?_⟩
  intro a b p hab
  unfold getEdgeProperty getEdge at hab
  cases ha : s.g.vertexOf a with
  | none => simp [ha] at hab
  | some u =>
    cases hb : s.g.vertexOf b with
    | none => simp [ha, hb] at hab
    | some v =>
      cases he : s.g.edge u v with
      | none => simp [ha, hb, he] at hab
      | some e =>
        simp only [ha, hb, he, Res.ok.injEq, and_true] at hab
        obtain ⟨e', he', hor⟩ := hp.inverse he
        refine ⟨e'.prop, ?_, ?_⟩
        · simp [getEdgeProperty, getEdge, ha, hb, he']
        · rw [← hab]; exact hor

/-- a history that adds, changes and removes edges and in which `getEdgeProperty` succeeds -/
example : ∃ s : GS DemoFrame Int,
    run [.addEdge "a" "b" 5, .addEdge "b" "c" 1, .setEdge "c" "b" 7, .removeEdge "b" "a", .addEdge "b" "a" 2] init = some s ∧
    getEdgeProperty "b" "c" s = .ok (-7) s ∧ getEdgeProperty "c" "b" s = .ok 7 s ∧ getEdgeProperty "a" "b" s = .ok (-2) s :=
  ⟨_, rfl, rfl, rfl, rfl⟩

/-- The same after any history, with self edges anywhere: for all `a ≠ b` the two directions exist together, there is one edge per direction,
and one of the two properties is the inverse of the other. -/
theorem C02_beside_self_edges (cs : List (Cmd F E)) (s : GS F E) (h : run cs init = some s) :
    (∀ a b, containsEdge a b s = .ok true s ↔ containsEdge b a s = .ok true s) ∧
    (∀ e ∈ getEdges s, ∀ e' ∈ getEdges s, e.src ≠ e.tgt → e.src = e'.src → e.tgt = e'.tgt → e = e') ∧
    (∀ a b p, a ≠ b → getEdgeProperty a b s = .ok p s →
      ∃ q, getEdgeProperty b a s = .ok q s ∧ (q = EdgeProp.inverse p ∨ p = EdgeProp.inverse q)) := by
  have hw : WF s.g := run_wf WF.empty h
  have hp := run_paired_ns h
  have inv : ∀ {u v : VId} {e : ERec E}, u ≠ v → s.g.edge u v = some e →
      ∃ e', s.g.edge v u = some e' ∧ (e'.prop = EdgeProp.inverse e.prop ∨ e.prop = EdgeProp.inverse e'.prop) := by
    intro u v e huv he
    rw [← G.edge_ns _ huv] at he
    obtain ⟨e', he', hor⟩ := hp.inverse he
    rw [G.edge_ns _ (Ne.symm huv)] at he'
    exact ⟨e', he', hor⟩
  have half : ∀ a b, containsEdge a b s = .ok true s → containsEdge b a s = .ok true s := by
    intro a b hab
    unfold containsEdge at hab ⊢
    cases ha : s.g.vertexOf a with
    | none => simp [ha] at hab
    | some u =>
      cases hb : s.g.vertexOf b with
      | none => simp [ha, hb] at hab
      | some v =>
        simp only [ha, hb, Res.ok.injEq, and_true, Option.isSome_iff_exists] at hab ⊢
        obtain ⟨e, he⟩ := hab
        by_cases huv : u = v
        · subst huv; exact ⟨e, he⟩
        · obtain ⟨e', he', -⟩ := inv huv he
          exact ⟨e', he'⟩
  refine ⟨fun a b => ⟨half a b, half b a⟩, fun e he e' he' hn h1 h2 =>
    hp.uniq e (G.mem_ns.2 ⟨he, hn⟩) e' (G.mem_ns.2 ⟨he', by rw [← h1, ← h2]; exact hn⟩) h1 h2, ?_⟩
  intro a b p hne hab
  unfold getEdgeProperty getEdge at hab
  cases ha : s.g.vertexOf a with
  | none => simp [ha] at hab
  | some u =>
    cases hb : s.g.vertexOf b with
    | none => simp [ha, hb] at hab
    | some v =>
      cases he : s.g.edge u v with
      | none => simp [ha, hb, he] at hab
      | some e =>
        simp only [ha, hb, he, Res.ok.injEq, and_true] at hab
        obtain ⟨e', he', hor⟩ := inv (fun hh : u = v => hne (hw.vertexOf_inj ha (by rw [hh]; exact hb))) he
        refine ⟨e'.prop, ?_, ?_⟩
        · simp [getEdgeProperty, getEdge, ha, hb, he']
        · rw [← hab]; exact hor

/-- a frame with a self edge and another connection, both changed; the self edge itself is stored twice with the same end points -/
example : ∃ s : GS DemoFrame Int, run [.addEdge "a" "a" 5, .addEdge "a" "b" 1, .setEdge "a" "a" 7, .setEdge "b" "a" 3] init = some s ∧
    getEdgeProperty "a" "b" s = .ok (-3) s ∧ getEdgeProperty "b" "a" s = .ok 3 s ∧ getEdgeProperty "a" "a" s = .ok (-7) s ∧
    (getEdges s).map (fun e => (e.src, e.tgt)) = [(0, 0), (0, 0), (0, 1), (1, 0)] :=
  ⟨_, rfl, rfl, rfl, rfl, rfl⟩

end Verif
