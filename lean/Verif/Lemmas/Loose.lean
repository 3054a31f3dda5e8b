import Verif.Lemmas.Mirror
import Verif.Lemmas.NoSelf
import Verif.Spec.Loose

set_option linter.unusedSectionVars false
set_option linter.unusedSimpArgs false
/-! The observer without checks follows every elementary step, also with self edges. -/

namespace Verif
variable {F E : Type} [FrameProp F] [EdgeProp E]

theorem absEdge_isSome_iff {g : G F E} {a b : FrameId} : (absEdge g a b).isSome ↔
    ∃ u v, g.vertexOf a = some u ∧ g.vertexOf b = some v ∧ ∃ e ∈ g.edges, e.src = u ∧ e.tgt = v := by
  constructor
  · intro h
    obtain ⟨u, v, e, hu, hv, he⟩ := absEdge_isSome h
    obtain ⟨m, h1, h2⟩ := G.edge_some he
    exact ⟨u, v, hu, hv, e, m, h1, h2⟩
  · rintro ⟨u, v, hu, hv, h⟩
    rw [absEdge_of hu hv, Option.isSome_map]
    exact G.edge_isSome.2 h

theorem MirrorOf.take {g g' : G F E} {x : Event × G F E} {m : Mirror} (hs : GStep g x g') (hw : WF g) (hp : Paired g.ns)
    (h : MirrorOf g m) : MirrorOf g' (m.take x.1) := by
  cases hs with
  | @addV f p hn hid =>
    refine ⟨?_, ?_⟩
    · intro f'
      rw [G.vertexOf_addVertex p hn]
      simp only [Mirror.take, Finset.mem_insert, h.frames]
      by_cases hff : f = f'
      · simp [hff]
      · simp [hff, Ne.symm hff]
    · intro a b
      rw [absEdge_addVertex hw p hn]
      exact h.conns a b
  | @dupV f v hv =>
    refine ⟨?_, h.conns⟩
    intro f'
    simp only [Mirror.take, Finset.mem_insert, h.frames]
    constructor
    · rintro (rfl | h1)
      · simp [hv]
      · exact h1
    · exact Or.inr
  | @addE a b u v p ha hb hn =>
    refine ⟨h.frames, ?_⟩
    intro x y
    simp only [Mirror.take, Finset.mem_insert, Prod.mk.injEq, h.conns, absEdge_isSome_iff]
    have hl : ∀ z, ((g.addEdge u v p).1.addEdge v u (EdgeProp.inverse p)).1.vertexOf z = g.vertexOf z := fun z => rfl
    simp only [hl, G.addEdge, List.mem_append, List.mem_singleton]
    constructor
    · rintro (⟨rfl, rfl⟩ | ⟨rfl, rfl⟩ | ⟨u', v', h1, h2, e, h3, h4⟩)
      · exact ⟨u, v, ha, hb, _, Or.inl (Or.inr rfl), rfl, rfl⟩
      · exact ⟨v, u, hb, ha, _, Or.inr rfl, rfl, rfl⟩
      · exact ⟨u', v', h1, h2, e, Or.inl (Or.inl h3), h4⟩
    · rintro ⟨u', v', h1, h2, e, (h3 | rfl) | rfl, h4, h5⟩
      · exact Or.inr (Or.inr ⟨u', v', h1, h2, e, h3, h4, h5⟩)
      · refine Or.inl ⟨hw.vertexOf_inj h1 ?_, hw.vertexOf_inj h2 ?_⟩
        · rw [ha, ← h4]
        · rw [hb, ← h5]
      · refine Or.inr (Or.inl ⟨hw.vertexOf_inj h1 ?_, hw.vertexOf_inj h2 ?_⟩)
        · rw [hb, ← h4]
        · rw [ha, ← h5]
  | @rmE g1 _ a b u v e1 e2 ha hb h1 h2 hg1 hg2 =>
    have huv : u ≠ v := by
      rintro rfl
      rw [h1] at h2
      obtain rfl := Option.some.inj h2
      obtain ⟨-, rfl⟩ := G.removeEdge_some hg1
      obtain ⟨⟨r, hr, hri⟩, -⟩ := G.removeEdge_some hg2
      simp [hri] at hr
    obtain ⟨e2', g1', g2', k1, k2, k3, -, k4, -⟩ := GS.removePair_exists_ns hw hp huv h1
    obtain rfl := Option.some.inj (h2.symm.trans k1)
    obtain rfl := Option.some.inj (hg1.symm.trans k2)
    obtain rfl := Option.some.inj (hg2.symm.trans k3)
    subst k4
    refine ⟨h.frames, ?_⟩
    intro x y
    rw [absEdge_cut hw ha hb]
    simp only [Mirror.take, Finset.mem_erase, ne_eq, Prod.mk.injEq, h.conns]
    by_cases c1 : x = a ∧ y = b
    · simp [c1]
    · by_cases c2 : x = b ∧ y = a
      · simp [c2]
      · simp [c1, c2]
  | @setP a b u v e1 e2 p ha hb h1 h2 =>
    refine ⟨h.frames, ?_⟩
    intro x y
    have hl : ∀ z, ((g.setProp e1.id p).setProp e2.id (EdgeProp.inverse p)).vertexOf z = g.vertexOf z := fun z => rfl
    have he : ∀ u v, (((g.setProp e1.id p).setProp e2.id (EdgeProp.inverse p)).edge u v).isSome = (g.edge u v).isSome := by
      intro u v
      rw [G.edge_setProp, G.edge_setProp, Option.isSome_map, Option.isSome_map]
    simp only [Mirror.take, h.conns]
    have key : ∀ g0 : G F E, (absEdge g0 x y).isSome ↔ ∃ u v, g0.vertexOf x = some u ∧ g0.vertexOf y = some v ∧ (g0.edge u v).isSome = true := by
      intro g0
      rw [absEdge_isSome_iff]
      simp only [G.edge_isSome]
    rw [key, key]
    simp only [hl, he]
  | @rmV f v hv hd =>
    refine ⟨?_, ?_⟩
    · intro f'
      rw [G.vertexOf_removeVertex]
      simp only [Mirror.take, Finset.mem_erase, h.frames]
      by_cases hff : f = f'
      · simp [hff]
      · simp [hff, Ne.symm hff]
    · intro a b
      rw [absEdge_removeVertex hv hd]
      exact h.conns a b

theorem MirrorOf.takes {P : G F E → Event → Prop} {g g' : G F E} {l : List (Event × G F E)} (hs : GSteps P g l g') :
    ∀ {m : Mirror}, WF g → Paired g.ns → MirrorOf g m → MirrorOf g' ((l.map Prod.fst).foldl Mirror.take m) := by
  induction hs with
  | nil g => intro m _ _ h; exact h
  | cons hs _ _ ih => intro m hw hp h; exact ih (hs.wf hw) (hs.paired_ns hw hp) (h.take hs hw hp)

end Verif
