import Verif.Spec.Written
import Verif.Lemmas.SimViews
import Verif.Lemmas.PathLemmas
import Verif.Lemmas.Transform
set_option linter.unusedSectionVars false
/-! Lemmas about writing transforms. -/

namespace Verif
open GS

namespace AGraph
variable {F E : Type} [EdgeProp E]

/-- the call cuts the pair -/
def cuts (a b : FrameId) : GS.Cmd F E → Prop
  | .removeEdge x y => (x = a ∧ y = b) ∨ (x = b ∧ y = a)
  | .disconnectFrame f => f = a ∨ f = b
  | _ => False

theorem step_edges {A A' : AGraph E} {S : Finset Nat} {c : GS.Cmd F E} {x : Option Exn} (h : A.StepV S c x A') (a b : FrameId) :
    (A'.edges a b = A.edges a b ∧ (x = none → ∀ p, (c ≠ .addEdge a b p ∧ c ≠ .setEdge a b p) ∧ (c ≠ .addEdge b a p ∧ c ≠ .setEdge b a p))) ∨
    (A'.edges a b = A.edges a b ∧ x ≠ none) ∨
    (A'.edges a b = none ∧ cuts a b c) ∨
    (x = none ∧ ∃ p, (c = .addEdge a b p ∨ c = .setEdge a b p) ∧ A'.edges a b = some p) ∨
    (x = none ∧ ∃ p, (c = .addEdge b a p ∨ c = .setEdge b a p) ∧ A'.edges a b = some (EdgeProp.inverse p)) := by
  classical
  have hc : ∀ {y z : FrameId} {p : E} {c : GS.Cmd F E}, (c = .addEdge y z p ∨ c = .setEdge y z p) →
      ((A.connect y z p).edges a b = A.edges a b ∧ (∀ p, (c ≠ .addEdge a b p ∧ c ≠ .setEdge a b p) ∧ (c ≠ .addEdge b a p ∧ c ≠ .setEdge b a p))) ∨
      (∃ p', (c = .addEdge a b p' ∨ c = .setEdge a b p') ∧ (A.connect y z p).edges a b = some p') ∨
      (∃ p', (c = .addEdge b a p' ∨ c = .setEdge b a p') ∧ (A.connect y z p).edges a b = some (EdgeProp.inverse p')) := by
    intro y z p c hc
    by_cases h1 : a = y ∧ b = z
    · obtain ⟨rfl, rfl⟩ := h1
      exact .inr (.inl ⟨p, hc, by simp [connect]⟩)
    · by_cases h2 : a = z ∧ b = y
      · obtain ⟨rfl, rfl⟩ := h2
        exact .inr (.inr ⟨p, hc, by
          show (if a = b ∧ b = a then _ else _) = _
          rw [if_neg h1]; simp⟩)
      · refine .inl ⟨?_, ?_⟩
        · show (if a = y ∧ b = z then _ else if a = z ∧ b = y then _ else _) = _
          rw [if_neg h1, if_neg h2]
        · intro q
          rcases hc with rfl | rfl <;> simp only [ne_eq, GS.Cmd.addEdge.injEq, GS.Cmd.setEdge.injEq, reduceCtorEq, not_false_eq_true, and_true, true_and]
          all_goals
            refine ⟨?_, ?_⟩ <;> rintro ⟨rfl, rfl, -⟩
            · exact h1 ⟨rfl, rfl⟩
            · exact h2 ⟨rfl, rfl⟩
  have hk : ∀ {y z : FrameId}, (A.disconnect y z).edges a b = A.edges a b ∨
      ((A.disconnect y z).edges a b = none ∧ ((y = a ∧ z = b) ∨ (y = b ∧ z = a))) := by
    intro y z
    show (if _ then _ else _) = _ ∨ (if _ then _ else _) = _ ∧ _
    split
    · rename_i h
      right
      refine ⟨rfl, ?_⟩
      rcases h with ⟨rfl, rfl⟩ | ⟨rfl, rfl⟩ <;> simp
    · left; rfl
  cases h with
  | same =>
    cases c with
    | addFrame f => left; simp only [step]; split <;> simp
    | emplaceFrame f _ => left; simp only [step]; split <;> simp
    | removeFrame f =>
      left; simp only [step]
      split
      · simp
      · split <;> simp
    | disconnectFrame f =>
      simp only [step]
      split
      · left; simp
      · by_cases hf : a = f ∨ b = f
        · right; right; left
          refine ⟨?_, ?_⟩
          · show (if a = f ∨ b = f then _ else _) = _
            rw [if_pos hf]
          · rcases hf with rfl | rfl <;> simp [cuts]
        · left
          refine ⟨?_, by simp⟩
          show (if a = f ∨ b = f then _ else _) = _
          rw [if_neg hf]
    | addEdge y z p =>
      simp only [step]
      split
      · right; left; simp
      · rcases hc (.inl rfl) with h | h | h
        · exact .inl ⟨h.1, fun _ => h.2⟩
        · exact .inr (.inr (.inr (.inl ⟨rfl, h⟩)))
        · exact .inr (.inr (.inr (.inr ⟨rfl, h⟩)))
    | removeEdge y z =>
      simp only [step]
      split
      · left; simp
      · split
        · left; simp
        · split
          · rcases hk (y := y) (z := z) with h | h
            · exact .inl ⟨h, by simp⟩
            · exact .inr (.inr (.inl h))
          · left; simp
    | setEdge y z p =>
      simp only [step]
      split
      · right; left; simp
      · split
        · right; left; simp
        · split
          · rcases hc (.inr rfl) with h | h | h
            · exact .inl ⟨h.1, fun _ => h.2⟩
            · exact .inr (.inr (.inr (.inl ⟨rfl, h⟩)))
            · exact .inr (.inr (.inr (.inr ⟨rfl, h⟩)))
          · right; left; simp
    | getTree f _ _ => left; simp only [step]; split <;> simp
    | unsubscribeView _ => left; simp [step]
  | removeEdge y z m h1 h2 =>
    rcases hk (y := y) (z := z) with h | h
    · exact .inl ⟨h, by simp⟩
    · exact .inr (.inr (.inl h))
  | disconnectFrame f N m h1 h2 h3 =>
    by_cases hf : (a = f ∧ b ∈ N) ∨ (b = f ∧ a ∈ N)
    · right; right; left
      refine ⟨?_, ?_⟩
      · show (if _ then _ else _) = _
        rw [if_pos hf]
      · rcases hf with ⟨rfl, -⟩ | ⟨rfl, -⟩ <;> simp [cuts]
    · left
      refine ⟨?_, by simp⟩
      show (if _ then _ else _) = _
      rw [if_neg hf]

end AGraph

namespace GS
section generic
variable {F E : Type} [FrameProp F] [EdgeProp E]

theorem setEdgePropertyD_eq {s : GS F E} (hw : WF s.g) {a b : FrameId} {u v : VId} (ha : s.g.vertexOf a = some u)
    (hb : s.g.vertexOf b = some v) (p : E) : setEdgePropertyD u v p s = setEdgeProperty a b p s := by
  obtain ⟨ra, h1, h2⟩ := hw.live_of_vertexOf ha
  obtain ⟨rb, h3, h4⟩ := hw.live_of_vertexOf hb
  unfold setEdgePropertyD setEdgeProperty
  simp only [h1, h3, ha, hb, h2, h4]
  cases s.g.edge u v with
  | none => rfl
  | some e1 => rfl

theorem addEdgeD_eq {s : GS F E} {a b : FrameId} {u v : VId} (ha : s.g.vertexOf a = some u)
    (hb : s.g.vertexOf b = some v) (p : E) : addEdgeD u v p s = addEdge a b p s := by
  unfold addEdge
  simp only [ha, hb, orCreate]

theorem removeEdgeD_eq {s : GS F E} (hw : WF s.g) {a b : FrameId} {u v : VId} (ha : s.g.vertexOf a = some u)
    (hb : s.g.vertexOf b = some v) : removeEdgeD u v s = removeEdge a b s := by
  obtain ⟨ra, h1, h2⟩ := hw.live_of_vertexOf ha
  obtain ⟨rb, h3, h4⟩ := hw.live_of_vertexOf hb
  unfold removeEdgeD removeEdge
  simp only [h1, h3, ha, hb, h2, h4]

/-- a descriptor of a vertex of the graph has a name -/
theorem named_of_findV {s : GS F E} (hw : WF s.g) {u : VId} {r : VRec F} (h : s.g.findV u = some r) :
    ∃ a, s.g.vertexOf a = some u := by
  obtain ⟨h1, h2⟩ := hw.findV_iff.1 h
  exact ⟨_, hw.vertexOf_iff.2 ⟨r, h1, h2, rfl⟩⟩

theorem findE_some {g : G F E} {e : EId} {r : ERec E} (h : findE g e = some r) : r ∈ g.edges ∧ r.id = e := by
  unfold findE at h
  exact ⟨List.mem_of_find?_eq_some h, by simpa using List.find?_some h⟩

theorem findE_of {g : G F E} (hw : WF g) {r : ERec E} (h : r ∈ g.edges) : findE g r.id = some r := by
  unfold findE
  cases hf : g.edges.find? (fun x => x.id = r.id) with
  | none =>
    have := List.find?_eq_none.1 hf r h
    simp at this
  | some x =>
    have h1 := List.mem_of_find?_eq_some hf
    have h2 : x.id = r.id := by simpa using List.find?_some hf
    rw [map_inj_of_nodup hw.enodup h1 h h2]

end generic

variable {F T : Type} [FrameProp F] [Group T]

/-- every call that is not undefined behaviour is a call by names -/
theorem texec_cmd {s : GS F (Tf T)} (hw : WF s.g) (hp : Paired s.g) {c : TCall F T} (h : ∀ m, texec c s ≠ .ub m) :
    ∃ c' : Cmd F (Tf T), texec c s = exec c' s ∧ (c.NoSelf → c'.noLoop) ∧
      (∀ a b p, c.Writes s a b p ↔ (c' = .addEdge a b p ∨ c' = .setEdge a b p)) ∧
      (∀ a b, AGraph.cuts a b c' ↔ c.Cuts s a b) := by
  have hinj : ∀ {x a : FrameId} {u : VId}, s.g.vertexOf x = some u → (s.g.vertexOf a = some u ↔ x = a) := fun hx =>
    ⟨fun ha => hw.vertexOf_inj hx ha, fun e => e ▸ hx⟩
  cases c with
  | add a b tf =>
    refine ⟨.addEdge a b tf, rfl, id, ?_, ?_⟩
    · intro x y p; simp [TCall.Writes]
    · intro x y; simp [TCall.Cuts, AGraph.cuts]
  | addD u v tf =>
    have h' := h
    simp only [texec, addTransformD] at h'
    unfold addEdgeD at h'
    cases hu : s.g.findV u with
    | none => simp [hu] at h'
    | some ru =>
      cases hv : s.g.findV v with
      | none => simp [hu, hv] at h'
      | some rv =>
        obtain ⟨a, ha⟩ := named_of_findV hw hu
        obtain ⟨b, hb⟩ := named_of_findV hw hv
        refine ⟨.addEdge a b tf, addEdgeD_eq ha hb tf, ?_, ?_, ?_⟩
        · intro hn hab
          rw [hab, hb] at ha
          exact hn (Option.some.inj ha).symm
        · intro x y p; simp [TCall.Writes, hinj ha, hinj hb]
        · intro x y; simp [TCall.Cuts, AGraph.cuts]
  | update a b tf =>
    refine ⟨.setEdge a b tf, rfl, fun _ => trivial, ?_, ?_⟩
    · intro x y p; simp [TCall.Writes]
    · intro x y; simp [TCall.Cuts, AGraph.cuts]
  | updateD u v tf =>
    have h' := h
    simp only [texec, updateTransformD] at h'
    unfold setEdgePropertyD at h'
    cases hu : s.g.findV u with
    | none => simp [hu] at h'
    | some ru =>
      cases hv : s.g.findV v with
      | none => simp [hu, hv] at h'
      | some rv =>
        obtain ⟨a, ha⟩ := named_of_findV hw hu
        obtain ⟨b, hb⟩ := named_of_findV hw hv
        refine ⟨.setEdge a b tf, setEdgePropertyD_eq hw ha hb tf, fun _ => trivial, ?_, ?_⟩
        · intro x y p; simp [TCall.Writes, hinj ha, hinj hb]
        · intro x y; simp [TCall.Cuts, AGraph.cuts]
  | updateE e tf =>
    have h' := h
    simp only [texec] at h'
    unfold updateTransformE at h'
    cases he : findE s.g e with
    | none => simp [he] at h'
    | some r =>
      obtain ⟨hm, hid⟩ := findE_some he
      obtain ⟨ru, hru, hu⟩ := hw.esrc r hm
      obtain ⟨rv, hrv, hv⟩ := hw.etgt r hm
      obtain ⟨a, ha⟩ := named_of_findV hw (hw.findV_iff.2 ⟨hru, hu⟩)
      obtain ⟨b, hb⟩ := named_of_findV hw (hw.findV_iff.2 ⟨hrv, hv⟩)
      refine ⟨.setEdge a b tf, ?_, fun _ => trivial, ?_, ?_⟩
      · simp only [texec, updateTransformE, he, updateTransformD]
        exact setEdgePropertyD_eq hw ha hb tf
      · intro x y p
        simp only [TCall.Writes, reduceCtorEq, Cmd.setEdge.injEq, false_or]
        constructor
        · rintro ⟨⟨r', h1, h2⟩, rfl⟩
          unfold getEdge at h1
          cases hx : s.g.vertexOf x with
          | none => simp [hx] at h1
          | some ux =>
            cases hy : s.g.vertexOf y with
            | none => simp [hx, hy] at h1
            | some uy =>
              cases hxy : s.g.edge ux uy with
              | none => simp [hx, hy, hxy] at h1
              | some r2 =>
                simp only [hx, hy, hxy, Res.ok.injEq, and_true] at h1
                subst h1
                obtain ⟨m2, s2, t2⟩ := G.edge_some hxy
                have : r2 = r := map_inj_of_nodup hw.enodup m2 hm (h2.trans hid.symm)
                subst this
                rw [s2] at ha
                rw [t2] at hb
                exact ⟨hw.vertexOf_inj ha hx, hw.vertexOf_inj hb hy, rfl⟩
        · rintro ⟨rfl, rfl, rfl⟩
          refine ⟨⟨r, ?_, hid⟩, rfl⟩
          have : s.g.edge r.src r.tgt = some r := (hp.edge_iff).2 ⟨hm, rfl, rfl⟩
          unfold getEdge
          simp only [ha, hb, this]
      · intro x y; simp [TCall.Cuts, AGraph.cuts]
  | remove a b =>
    refine ⟨.removeEdge a b, rfl, fun _ => trivial, ?_, ?_⟩
    · intro x y p; simp [TCall.Writes]
    · intro x y; simp [TCall.Cuts, AGraph.cuts]
  | removeD u v =>
    have h' := h
    simp only [texec, removeTransformD] at h'
    unfold removeEdgeD at h'
    cases hu : s.g.findV u with
    | none => simp [hu] at h'
    | some ru =>
      cases hv : s.g.findV v with
      | none => simp [hu, hv] at h'
      | some rv =>
        obtain ⟨a, ha⟩ := named_of_findV hw hu
        obtain ⟨b, hb⟩ := named_of_findV hw hv
        refine ⟨.removeEdge a b, removeEdgeD_eq hw ha hb, fun _ => trivial, ?_, ?_⟩
        · intro x y p; simp [TCall.Writes]
        · intro x y; simp [TCall.Cuts, AGraph.cuts, hinj ha, hinj hb]
  | other c =>
    refine ⟨c, rfl, ?_, ?_, ?_⟩
    · cases c <;> exact id
    · intro x y p
      cases c <;> simp [TCall.Writes]
    · intro x y
      cases c <;> simp [TCall.Cuts, AGraph.cuts]

/-- the graph represents some abstract graph -/
def Tracked (s : GS F (Tf T)) : Prop := ∃ A S, SimV s A S

theorem Tracked.init : Tracked (GS.init : GS F (Tf T)) := ⟨_, _, SimV.init⟩

theorem Tracked.edge {s : GS F (Tf T)} {A : AGraph (Tf T)} {S : Finset Nat} (h : SimV s A S) {a b : FrameId} {p : Tf T} :
    getEdgeProperty a b s = .ok p s ↔ A.edges a b = some p := by
  rw [← h.sim.edges]
  show _ ↔ absEdge s.g a b = _
  unfold getEdgeProperty getEdge
  cases hf : s.g.vertexOf a with
  | none => simp [absEdge_none_left hf]
  | some u =>
    cases hf' : s.g.vertexOf b with
    | none => simp [absEdge_none_right hf']
    | some v =>
      rw [absEdge_of hf hf']
      cases he : s.g.edge u v <;> simp [he]

/-- what one call does to the transform between two frames; `ok`: it returned normally -/
theorem step_pair {s s' : GS F (Tf T)} (h : Tracked s) {c : TCall F T} (hc : c.NoSelf) (ok : Bool)
    (hx : if ok then texec c s = .ok () s' else ∃ x, texec c s = .throw x s') :
    Tracked s' ∧ ∀ a b : FrameId,
      ((∀ p, getEdgeProperty a b s' = .ok p s' ↔ getEdgeProperty a b s = .ok p s) ∧
        (ok = true → ∀ p, ¬ c.Writes s a b p ∧ ¬ c.Writes s b a p)) ∨
      ((∀ p, getEdgeProperty a b s' = .ok p s' ↔ getEdgeProperty a b s = .ok p s) ∧ ok = false) ∨
      (¬ s'.Conn a b ∧ c.Cuts s a b) ∨
      (ok = true ∧ ∃ p, c.Writes s a b p ∧ getEdgeProperty a b s' = .ok p s') ∨
      (ok = true ∧ ∃ p, c.Writes s b a p ∧ getEdgeProperty a b s' = .ok p.inverse s') := by
  obtain ⟨A, S, h⟩ := h
  have hub : ∀ m, texec c s ≠ .ub m := by
    intro m hm
    cases ok <;> simp [hm] at hx
  obtain ⟨c', h1, h2, h3, h4⟩ := texec_cmd h.wf h.paired hub
  rw [h1] at hx
  obtain ⟨e1, e2⟩ := h.exec (h2 hc)
  have key : ∃ x A' S', A.StepV S c' x A' ∧ SimV s' A' S' ∧ (x = none ↔ ok = true) := by
    cases ok with
    | true =>
      obtain ⟨A', i1, i2⟩ := e1 s' hx
      exact ⟨_, A', _, i1, i2, by simp⟩
    | false =>
      obtain ⟨x, hx⟩ := hx
      obtain ⟨A', i1, i2⟩ := e2 x s' hx
      exact ⟨_, A', _, i1, i2, by simp⟩
  obtain ⟨x, A', S', hst, hs', hok⟩ := key
  refine ⟨⟨A', S', hs'⟩, fun a b => ?_⟩
  have hsame : A'.edges a b = A.edges a b → ∀ p, getEdgeProperty a b s' = .ok p s' ↔ getEdgeProperty a b s = .ok p s := by
    intro he p
    rw [Tracked.edge h, Tracked.edge hs', he]
  rcases AGraph.step_edges hst a b with ⟨i1, i2⟩ | ⟨i1, i2⟩ | ⟨i1, i2⟩ | ⟨i1, p, i2, i3⟩ | ⟨i1, p, i2, i3⟩
  · left
    refine ⟨hsame i1, fun ht p => ?_⟩
    obtain ⟨⟨j1, j2⟩, j3, j4⟩ := i2 (hok.2 ht) p
    rw [h3, h3]
    tauto
  · refine .inr (.inl ⟨hsame i1, ?_⟩)
    cases ok
    · rfl
    · exact absurd (hok.2 rfl) i2
  · refine .inr (.inr (.inl ⟨?_, (h4 a b).1 i2⟩))
    rw [conn_of_edgeProperty]
    rintro ⟨p, hp⟩
    rw [Tracked.edge hs', i1] at hp
    cases hp
  · exact .inr (.inr (.inr (.inl ⟨hok.1 i1, p, (h3 a b p).2 i2, (Tracked.edge hs').2 i3⟩)))
  · exact .inr (.inr (.inr (.inr ⟨hok.1 i1, p, (h3 b a p).2 i2, (Tracked.edge hs').2 i3⟩)))

/-- a call that runs writes one transform, and then it cuts nothing -/
theorem Writes_unique {s : GS F (Tf T)} (h : Tracked s) {c : TCall F T} (hub : ∀ m, texec c s ≠ .ub m) {a b : FrameId} {p : Tf T}
    (hw : c.Writes s a b p) : (∀ x y q, c.Writes s x y q → x = a ∧ y = b ∧ q = p) ∧ ∀ x y, ¬ c.Cuts s x y := by
  obtain ⟨A, S, h⟩ := h
  obtain ⟨c', -, -, h3, h4⟩ := texec_cmd h.wf h.paired hub
  have := (h3 a b p).1 hw
  constructor
  · intro x y q hq
    have hq := (h3 x y q).1 hq
    rcases this with rfl | rfl <;> simpa [eq_comm] using hq
  · intro x y hc
    have hc := (h4 x y).2 hc
    rcases this with rfl | rfl <;> exact hc

theorem tracked_conn_symm {s : GS F (Tf T)} (h : Tracked s) {a b : FrameId} (hc : s.Conn a b) : s.Conn b a := by
  obtain ⟨A, S, h⟩ := h
  obtain ⟨p, hp⟩ := conn_of_edgeProperty.1 hc
  obtain ⟨u, v, e, hu, hv, he, hp'⟩ := getEdgeProperty_ok hp
  obtain ⟨m, s1, t1⟩ := G.edge_some he
  obtain ⟨e', m', s2, t2, -⟩ := h.paired.inv e m
  have : s.g.edge v u = some e' := h.paired.edge_iff.2 ⟨m', s2.trans t1, t2.trans s1⟩
  exact conn_of_edgeProperty.2 ⟨_, getEdgeProperty_of hv hu this⟩

theorem tracked_conn_ne {s : GS F (Tf T)} (h : Tracked s) {a b : FrameId} (hc : s.Conn a b) : a ≠ b := by
  rintro rfl
  obtain ⟨A, S, h⟩ := h
  obtain ⟨p, hp⟩ := conn_of_edgeProperty.1 hc
  obtain ⟨u, v, e, hu, hv, he, hp'⟩ := getEdgeProperty_ok hp
  obtain ⟨m, s1, t1⟩ := G.edge_some he
  rw [hu] at hv
  obtain rfl := Option.some.inj hv
  exact h.paired.noself e m (s1.trans t1.symm)

end GS
end Verif
