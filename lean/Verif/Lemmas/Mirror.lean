import Verif.Lemmas.Calls
import Verif.Spec.Mirror

set_option linter.unusedSectionVars false
set_option linter.unusedSimpArgs false
/-! The strict observer follows every clean elementary step. -/

namespace Verif
variable {F E : Type} [FrameProp F] [EdgeProp E]

/-- the observer's knowledge agrees with the graph -/
structure MirrorOf (g : G F E) (m : Mirror) : Prop where
  frames : ∀ f, f ∈ m.frames ↔ (g.vertexOf f).isSome
  conns : ∀ a b, (a, b) ∈ m.conns ↔ (absEdge g a b).isSome

theorem Mirror.replay_append (m : Mirror) (l l' : List Event) :
    m.replay (l ++ l') = (m.replay l).bind (fun m' => m'.replay l') := by
  induction l generalizing m with
  | nil => rfl
  | cons e l ih =>
    simp only [List.cons_append, Mirror.replay]
    cases m.apply e with
    | none => rfl
    | some m' => exact ih m'

theorem MirrorOf.empty : MirrorOf (G.empty : G F E) Mirror.empty := by
  constructor
  · intro f; simp [Mirror.empty, G.empty, G.vertexOf]
  · intro a b; simp [Mirror.empty, G.empty, absEdge, G.vertexOf]

theorem MirrorOf.unique {g : G F E} {m m' : Mirror} (h : MirrorOf g m) (h' : MirrorOf g m') : m = m' := by
  cases m; cases m'
  simp only [Mirror.mk.injEq]
  constructor
  · ext f; rw [h.frames, h'.frames]
  · ext ⟨a, b⟩; rw [h.conns, h'.conns]

theorem absEdge_ne {g : G F E} (hp : Paired g) {a b : FrameId} (h : (absEdge g a b).isSome) : a ≠ b := by
  rintro rfl
  obtain ⟨u, v, e, hu, hv, he⟩ := absEdge_isSome h
  rw [hu] at hv
  obtain rfl := Option.some.inj hv
  obtain ⟨m, h1, h2⟩ := G.edge_some he
  exact hp.noself e m (h1.trans h2.symm)

theorem absEdge_symm {g : G F E} (hp : Paired g) {a b : FrameId} (h : (absEdge g a b).isSome) : (absEdge g b a).isSome := by
  obtain ⟨u, v, e, hu, hv, he⟩ := absEdge_isSome h
  obtain ⟨e', he', -⟩ := hp.inverse he
  rw [absEdge_of hv hu, he']; rfl

theorem MirrorOf.step {g g' : G F E} {x : Event × G F E} {m : Mirror} (hs : GStep g x g') (hw : WF g) (hp : Paired g)
    (hx : GS.cleanEv g x.1) (h : MirrorOf g m) : ∃ m', m.apply x.1 = some m' ∧ MirrorOf g' m' := by
  cases hs with
  | @addV f p hn hid =>
    have hf : f ∉ m.frames := by rw [h.frames]; simp [hn]
    refine ⟨_, by simp only [Mirror.apply, if_neg hf]; rfl, ?_, ?_⟩
    · intro f'
      rw [G.vertexOf_addVertex p hn]
      simp only [Finset.mem_insert, h.frames]
      by_cases hff : f = f'
      · simp [hff]
      · simp [hff, Ne.symm hff]
    · intro a b
      rw [absEdge_addVertex hw p hn]
      exact h.conns a b
  | dupV hv => exact (hx.2 (by simp [Event.isDup, hv])).elim
  | @addE a b u v p ha hb hn =>
    have hab : a ≠ b := hx.1
    have h1 : a ∈ m.frames := by rw [h.frames]; simp [ha]
    have h2 : b ∈ m.frames := by rw [h.frames]; simp [hb]
    have h3 : (a, b) ∉ m.conns := by rw [h.conns, absEdge_of ha hb, hn]; simp
    refine ⟨_, by simp only [Mirror.apply, if_pos (show _ ∧ _ ∧ _ ∧ _ from ⟨h1, h2, hab, h3⟩)]; rfl, ?_, ?_⟩
    · intro f; exact h.frames f
    · intro x y
      rw [absEdge_addPair hw hp ha hb hab hn]
      simp only [Finset.mem_insert, Prod.mk.injEq, h.conns]
      by_cases c1 : x = a ∧ y = b
      · simp [c1]
      · by_cases c2 : x = b ∧ y = a
        · obtain ⟨rfl, rfl⟩ := c2
          simp [hab]
        · simp [c1, c2]
  | @rmE g1 g2 a b u v e1 e2 ha hb h1 h2 hg1 hg2 =>
    have h3 : (a, b) ∈ m.conns := by rw [h.conns, absEdge_of ha hb, h1]; rfl
    obtain rfl := removePair_cut hw hp h1 h2 hg1 hg2
    refine ⟨_, by simp only [Mirror.apply, if_pos h3]; rfl, ?_, ?_⟩
    · intro f; exact h.frames f
    · intro x y
      rw [absEdge_cut hw ha hb]
      simp only [Finset.mem_erase, ne_eq, Prod.mk.injEq, h.conns]
      by_cases c1 : x = a ∧ y = b
      · simp [c1]
      · by_cases c2 : x = b ∧ y = a
        · simp [c2]
        · simp [c1, c2]
  | @setP a b u v e1 e2 p ha hb h1 h2 =>
    have h3 : (a, b) ∈ m.conns := by rw [h.conns, absEdge_of ha hb, h1]; rfl
    refine ⟨_, by simp only [Mirror.apply, if_pos h3]; rfl, ?_, ?_⟩
    · intro f; exact h.frames f
    · intro x y
      rw [absEdge_setPair hw hp ha hb h1 h2, h.conns]
      have hab : (absEdge g a b).isSome := (h.conns a b).1 h3
      by_cases c1 : x = a ∧ y = b
      · simp [c1, hab]
      · by_cases c2 : x = b ∧ y = a
        · simp only [c1, c2, and_self, if_true, if_false]
          have := absEdge_symm hp hab
          simp only [this, true_iff]
          split <;> rfl
        · simp [c1, c2]
  | @rmV f v hv hd =>
    have h1 : f ∈ m.frames := by rw [h.frames]; simp [hv]
    have hz := (degree_zero_iff hw hv).1 hd
    have h2 : ∀ c ∈ m.conns, c.1 ≠ f ∧ c.2 ≠ f := by
      rintro ⟨a, b⟩ hc
      rw [h.conns] at hc
      constructor
      · rintro rfl; simp [(hz b).1] at hc
      · rintro rfl; simp [(hz a).2] at hc
    refine ⟨_, by simp only [Mirror.apply, if_pos (And.intro h1 h2)]; rfl, ?_, ?_⟩
    · intro f'
      rw [G.vertexOf_removeVertex]
      simp only [Finset.mem_erase, h.frames]
      by_cases hff : f = f'
      · simp [hff]
      · simp [hff, Ne.symm hff]
    · intro a b
      rw [absEdge_removeVertex hv hd]
      exact h.conns a b

theorem MirrorOf.steps {P : G F E → Event → Prop} (hP : ∀ g e, P g e → GS.cleanEv g e) {g g' : G F E}
    {l : List (Event × G F E)} (hs : GSteps P g l g') : ∀ {m : Mirror}, WF g → Paired g → MirrorOf g m →
    ∃ m', m.replay (l.map Prod.fst) = some m' ∧ MirrorOf g' m' := by
  induction hs with
  | nil g => intro m _ _ h; exact ⟨m, rfl, h⟩
  | @cons g g' g'' x l hs hx _ ih =>
    intro m hw hp h
    obtain ⟨m', h1, h2⟩ := h.step hs hw hp (hP _ _ hx)
    obtain ⟨m'', h3, h4⟩ := ih (hs.wf hw) (hs.paired hw hp (hP _ _ hx).1) h2
    exact ⟨m'', by simp [Mirror.replay, h1, h3], h4⟩

theorem containsEdge_iff (s : GS F E) (a b : FrameId) :
    GS.containsEdge a b s = .ok true s ↔ (absEdge s.g a b).isSome := by
  unfold GS.containsEdge
  cases ha : s.g.vertexOf a with
  | none => simp [absEdge_none_left ha]
  | some u =>
    cases hb : s.g.vertexOf b with
    | none => simp [absEdge_none_right hb]
    | some v => simp [absEdge_of ha hb]

theorem noSelf_of {cs : List (GS.Cmd F E)} (hns : ∀ a p, GS.Cmd.addEdge a a p ∉ cs) : ∀ c ∈ cs, c.noSelf := by
  intro c hc
  cases c with
  | addEdge o t p => rintro rfl; exact hns _ _ hc
  | _ => trivial

end Verif
