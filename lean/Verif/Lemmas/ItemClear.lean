import Verif.Lemmas.ItemAnswers
import Verif.Lemmas.ItemChain

set_option linter.unusedSectionVars false
/-! Lemmas for the properties of the item calls. -/

namespace Verif
open EG GS
variable {E : Type} [EdgeProp E] {ty : ItemId → TypeIdx}

/-- the abstract store of a sound state without subscribed views -/
theorem ESim.of {s : EG E} (hg : EG.Good ty s) (hp : Paired s.gs.g) (hsub : s.gs.subs = []) {M : Shelf}
    (hM : Stocked ty s.gs.g M) :
    ESim ty s ⟨⟨(names s.gs.g).toFinset, absEdge s.gs.g⟩, M, fun i => (s.heap i).frame⟩ :=
  ⟨hg, ⟨hg.wf, hp, hsub, fun f => by rw [List.mem_toFinset, mem_names hg.wf], fun _ _ => rfl⟩, hM, fun _ => rfl⟩

/-- If removing these connections one after the other makes sense and leaves none, each was named exactly once. -/
theorem Mirror.removed_once (ps : List (FrameId × FrameId)) : ∀ (m m' : Mirror), (∀ a b, (a, b) ∈ m.conns → (b, a) ∈ m.conns ∧ a ≠ b) →
    m.replay (ps.map (fun p => .edgeRemoved p.1 p.2)) = some m' → m'.conns = ∅ →
    ps.Nodup ∧ (∀ p ∈ ps, (p.2, p.1) ∉ ps) ∧ (∀ a b, (a, b) ∈ m.conns ↔ (a, b) ∈ ps ∨ (b, a) ∈ ps) ∧ m'.frames = m.frames := by
  induction ps with
  | nil =>
    intro m m' _ h h0
    simp only [List.map_nil, Mirror.replay, Option.some.injEq] at h
    subst h
    simp [h0]
  | cons p ps ih =>
    intro m m' hs h h0
    obtain ⟨a, b⟩ := p
    simp only [List.map_cons, Mirror.replay, Mirror.apply] at h
    by_cases hab : (a, b) ∈ m.conns
    · simp only [hab, if_true, Option.bind_some] at h
      obtain ⟨h1, h2, h3, h4⟩ := ih _ m' (by
        intro x y hxy
        simp only [Finset.mem_erase, ne_eq, Prod.mk.injEq, not_and] at hxy ⊢
        obtain ⟨c1, c2, c3⟩ := hxy
        obtain ⟨d1, d2⟩ := hs x y c3
        exact ⟨⟨fun e1 e2 => c2 e2 e1, fun e1 e2 => c1 e2 e1, d1⟩, d2⟩) h h0
      simp only [Finset.mem_erase, ne_eq, Prod.mk.injEq] at h3
      obtain ⟨hba, hne⟩ := hs a b hab
      have n1 : (a, b) ∉ ps := fun hm => by have := (h3 a b).2 (Or.inl hm); simp at this
      have n2 : (b, a) ∉ ps := fun hm => by have := (h3 b a).2 (Or.inl hm); simp at this
      refine ⟨List.nodup_cons.2 ⟨n1, h1⟩, ?_, ?_, h4⟩
      · intro p hp
        rcases List.mem_cons.1 hp with rfl | hp
        · simp only [List.mem_cons, Prod.mk.injEq, not_or]
          exact ⟨fun e => hne e.2, n2⟩
        · simp only [List.mem_cons, Prod.mk.injEq, not_or]
          refine ⟨?_, h2 p hp⟩
          rintro ⟨e1, e2⟩
          apply n2
          rw [← e1, ← e2]
          exact hp
      · intro x y
        have h3' := h3 x y
        simp only [List.mem_cons, Prod.mk.injEq]
        constructor
        · intro hxy
          by_cases c1 : x = a ∧ y = b
          · exact Or.inl (Or.inl c1)
          · by_cases c2 : x = b ∧ y = a
            · exact Or.inr (Or.inl ⟨c2.2, c2.1⟩)
            · rcases h3'.1 ⟨c2, c1, hxy⟩ with h | h
              · exact Or.inl (Or.inr h)
              · exact Or.inr (Or.inr h)
        · rintro ((⟨rfl, rfl⟩ | hp) | (⟨rfl, rfl⟩ | hp))
          · exact hab
          · exact (h3'.2 (Or.inl hp)).2.2
          · exact hba
          · exact (h3'.2 (Or.inr hp)).2.2
    · simp [hab] at h

/-- the events of `clear` -/
theorem clear_events {s : EG E} (hw : WF s.gs.g) (hp : Paired s.gs.g) (hsub : s.gs.subs = []) {m : Mirror} (hm : MirrorOf s.gs.g m) :
    ∃ s' ps, EG.clear s = .ok () s' ∧ s'.heap = s.heap ∧ Sim s'.gs AGraph.empty ∧
      s'.gs.trace.map Prod.fst = s.gs.trace.map Prod.fst ++ ps.map (fun p => .edgeRemoved p.1 p.2) ++
        (names s.gs.g).flatMap (EG.leaving s.gs.g) ∧ OncePerConnection s.gs.g ps := by
  have h : Sim s.gs ⟨(names s.gs.g).toFinset, absEdge s.gs.g⟩ :=
    ⟨hw, hp, hsub, fun f => by rw [List.mem_toFinset, mem_names hw], fun _ _ => rfl⟩
  obtain ⟨s', l1, l2, a1, a2, a3, a4, ⟨g1, a5, a6⟩, a7⟩ := EG.clear_sim h
  have hps : ∀ l : List (Event × G EFrame E), (∀ x ∈ l, ∃ a b, x.1 = Event.edgeRemoved a b) →
      ∃ ps : List (FrameId × FrameId), l.map Prod.fst = ps.map (fun p => Event.edgeRemoved p.1 p.2) := by
    intro l
    induction l with
    | nil => intro _; exact ⟨[], rfl⟩
    | cons x l ih =>
      intro hl
      obtain ⟨ps, hps⟩ := ih (fun y hy => hl y (by simp [hy]))
      obtain ⟨a, b, hab⟩ := hl x (by simp)
      exact ⟨(a, b) :: ps, by simp [hps, hab]⟩
  obtain ⟨ps, hps⟩ := hps l1 (fun x hx => GSteps.forall a5 x hx)
  obtain ⟨m', b1, b2⟩ := MirrorOf.steps (by
    rintro g e ⟨a, b, rfl⟩; simp [GS.cleanEv, Event.isSelfAdd, Event.isDup]) a5 hw hp hm
  rw [hps] at b1
  obtain ⟨c1, c2, c3, -⟩ := Mirror.removed_once ps m m' (by
    intro a b hab
    rw [hm.conns] at hab
    exact ⟨(hm.conns b a).2 (absEdge_symm hp hab), absEdge_ne hp hab⟩) b1 (by
    ext ⟨a, b⟩; rw [b2.conns, a6]; simp)
  refine ⟨s', ps, a1, a2, a3, by rw [a4, List.map_append, List.map_append, hps, a7], c1, c2, fun a b => ?_⟩
  rw [← hm.conns, c3]

end Verif
