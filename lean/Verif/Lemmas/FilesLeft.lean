import Verif.Lemmas.Files

set_option linter.unusedSectionVars false
/-! # What a cut file leaves in the graph, compared with what the whole file gives -/

namespace Verif
variable {D E : Type}
namespace IArchive

theorem loadFramesT_grows {H : String → Bool} {off : Nat} : ∀ {n : Nat} {g g1 : G EFrame E} {a a1 : IArchive D E},
    loadFramesT H off n g a = .ok a1 g1 → (∃ l, g1.verts = g.verts ++ l) ∧ g1.edges = g.edges := by
  intro n
  induction n with
  | zero => intro g g1 a a1 h; cases h; exact ⟨⟨[], by simp⟩, rfl⟩
  | succ n ih =>
    intro g g1 a a1 h
    rw [loadFramesT] at h
    cases h2 : loadFrame H a with
    | throw x b => rw [h2] at h; cases h
    | ub m => rw [h2] at h; cases h
    | ok fr b =>
      rw [h2] at h
      obtain ⟨⟨l, i1⟩, i2⟩ := ih h
      exact ⟨⟨⟨g.nextV, g.nextIdx, fr.shift off⟩ :: l, by rw [i1]; simp [G.push]⟩, i2⟩

theorem loadEdgesT_grows {dflt : E} {vs : List VId} : ∀ {n : Nat} {g g1 : G EFrame E} {a a1 : IArchive D E},
    loadEdgesT dflt vs n g a = .ok a1 g1 → (∃ l, g1.edges = g.edges ++ l) ∧ g1.verts = g.verts := by
  intro n
  induction n with
  | zero => intro g g1 a a1 h; cases h; exact ⟨⟨[], by simp⟩, rfl⟩
  | succ n ih =>
    intro g g1 a a1 h
    rw [loadEdgesT] at h
    cases h2 : a.read size? with
    | throw x b => rw [h2] at h; cases h
    | ub m => rw [h2] at h; cases h
    | ok u b =>
      rw [h2] at h
      simp only at h
      cases h3 : b.read size? with
      | throw x b => rw [h3] at h; cases h
      | ub m => rw [h3] at h; cases h
      | ok v b =>
        rw [h3] at h
        simp only at h
        cases h5 : vs[u]? with
        | none => rw [h5] at h; cases h
        | some u =>
          cases h6 : vs[v]? with
          | none => rw [h5, h6] at h; cases h
          | some v =>
            rw [h5, h6] at h
            simp only at h
            cases h7 : b.read edge? with
            | throw x b => rw [h7] at h; cases h
            | ub m => rw [h7] at h; cases h
            | ok p b =>
              rw [h7] at h
              obtain ⟨⟨l, i1⟩, i2⟩ := ih h
              exact ⟨⟨⟨g.nextE, u, v, p⟩ :: l, by rw [i1]; simp [G.addEdge]⟩, i2⟩

/-- the name in a frame that was not read to its end is the right one, if there is one -/
theorem unfinished_name {H : String → Bool} {p q : List (Tok D E)} {o : List (SObj D)} {fr : EFrame} {a : IArchive D E}
    (h : loadFrame H ⟨p ++ q, o⟩ = .ok fr a) :
    (unfinished (⟨p, o⟩ : IArchive D E)).items = [] ∧
      ((unfinished (⟨p, o⟩ : IArchive D E)).id = "" ∨ (unfinished (⟨p, o⟩ : IArchive D E)).id = fr.id) := by
  have hm := Mono.read (D := D) (E := E) str? p q o
  unfold unfinished
  cases h2 : (⟨p, o⟩ : IArchive D E).read str? with
  | throw x b => exact ⟨rfl, .inl rfl⟩
  | ub m => exact ⟨rfl, .inl rfl⟩
  | ok f b =>
    simp only [h2] at hm
    refine ⟨rfl, .inr ?_⟩
    unfold loadFrame at h
    rw [hm] at h
    simp only [bind] at h
    cases h3 : loadMap H ⟨b.toks ++ q, b.objs⟩ with
    | throw x b => rw [h3] at h; cases h
    | ub m => rw [h3] at h; cases h
    | ok m b => rw [h3] at h; cases h; rfl

/-- the vertices that are left: those in front of the cut, and one that was not read to its end -/
theorem left_frames {H : String → Bool} {off : Nat} : ∀ {n : Nat} {g g1 g' : G EFrame E} {p q : List (Tok D E)} {o : List (SObj D)}
    {a1 : IArchive D E} {x : Exn}, loadFramesT H off n g ⟨p ++ q, o⟩ = .ok a1 g1 → loadFramesT H off n g ⟨p, o⟩ = .throw x g' →
    ∃ l1 r l2 fr, g1.verts = g.verts ++ l1 ++ r :: l2 ∧ g'.verts = g.verts ++ l1 ++ [⟨r.id, r.idx, fr⟩] ∧ fr.items = [] ∧
      (fr.id = "" ∨ fr.id = r.prop.id) ∧ g'.edges = g.edges ∧ g1.edges = g.edges := by
  intro n
  induction n with
  | zero => intro g g1 g' p q o a1 x h h'; cases h'
  | succ n ih =>
    intro g g1 g' p q o a1 x h h'
    have hm := Mono.loadFrame (E := E) H p q o
    rw [loadFramesT] at h h'
    cases h2 : loadFrame H ⟨p, o⟩ with
    | ub m => rw [h2] at h'; cases h'
    | ok fr b =>
      rw [h2] at hm h'
      simp only at hm h'
      rw [hm] at h
      obtain ⟨l1, r, l2, fr', i1, i2, i3, i4, i5, i6⟩ := ih h h'
      exact ⟨⟨g.nextV, g.nextIdx, fr.shift off⟩ :: l1, r, l2, fr', by rw [i1]; simp [G.push], by rw [i2]; simp [G.push], i3, i4, i5, i6⟩
    | throw y b =>
      rw [h2] at h'
      simp only [Res.throw.injEq] at h'
      obtain ⟨-, rfl⟩ := h'
      cases h3 : loadFrame H ⟨p ++ q, o⟩ with
      | throw x b => rw [h3] at h; cases h
      | ub m => rw [h3] at h; cases h
      | ok fr b =>
        rw [h3] at h
        simp only at h
        obtain ⟨⟨l, i1⟩, i2⟩ := loadFramesT_grows h
        obtain ⟨j1, j2⟩ := unfinished_name h3
        refine ⟨[], ⟨g.nextV, g.nextIdx, fr.shift off⟩, l, _, ?_, ?_, j1, ?_, rfl, i2⟩
        · rw [i1]; simp [G.push]
        · simp [G.push]
        · rcases j2 with j | j
          · exact .inl j
          · exact .inr j

/-- the edges that are left: those in front of the cut, and at most one with the default property -/
theorem left_edges {dflt : E} {vs : List VId} : ∀ {n : Nat} {g g1 g' : G EFrame E} {p q : List (Tok D E)} {o : List (SObj D)}
    {a1 : IArchive D E} {x : Exn}, loadEdgesT dflt vs n g ⟨p ++ q, o⟩ = .ok a1 g1 → loadEdgesT dflt vs n g ⟨p, o⟩ = .throw x g' →
    g'.verts = g.verts ∧ g1.verts = g.verts ∧ ∃ l1 e l2, g1.edges = g.edges ++ l1 ++ e :: l2 ∧
      (g'.edges = g.edges ++ l1 ∨ g'.edges = g.edges ++ l1 ++ [{ e with prop := dflt }]) := by
  intro n
  induction n with
  | zero => intro g g1 g' p q o a1 x h h'; cases h'
  | succ n ih =>
    intro g g1 g' p q o a1 x h h'
    -- the whole file
    have hfull := h
    rw [loadEdgesT] at h
    cases f2 : (⟨p ++ q, o⟩ : IArchive D E).read size? with
    | throw x b => rw [f2] at h; cases h
    | ub m => rw [f2] at h; cases h
    | ok u0 b0 =>
    rw [f2] at h; simp only at h
    cases f3 : b0.read size? with
    | throw x b => rw [f3] at h; cases h
    | ub m => rw [f3] at h; cases h
    | ok v0 b1 =>
    rw [f3] at h; simp only at h
    cases f4 : vs[u0]? with
    | none => rw [f4] at h; cases h
    | some u =>
    cases f5 : vs[v0]? with
    | none => rw [f4, f5] at h; cases h
    | some v =>
    rw [f4, f5] at h; simp only at h
    cases f6 : b1.read edge? with
    | throw x b => rw [f6] at h; cases h
    | ub m => rw [f6] at h; cases h
    | ok pr b2 =>
    rw [f6] at h; simp only at h
    obtain ⟨⟨l, i1⟩, i2⟩ := loadEdgesT_grows h
    have first : ∃ l1 e l2, g1.edges = g.edges ++ l1 ++ e :: l2 ∧ l1 = [] ∧ { e with prop := dflt } = (⟨g.nextE, u, v, dflt⟩ : ERec E) :=
      ⟨[], ⟨g.nextE, u, v, pr⟩, l, by rw [i1]; simp [G.addEdge], rfl, rfl⟩
    obtain ⟨_, e, l2, k1, rfl, k2⟩ := first
    have hv : g1.verts = g.verts := i2
    -- the cut file
    rw [loadEdgesT] at h'
    have m1 := Mono.read (D := D) (E := E) size? p q o
    cases c2 : (⟨p, o⟩ : IArchive D E).read size? with
    | ub m => rw [c2] at h'; cases h'
    | throw y b =>
      rw [c2] at h'
      simp only [Res.throw.injEq] at h'
      obtain ⟨-, rfl⟩ := h'
      exact ⟨rfl, hv, [], e, l2, k1, .inl (by simp)⟩
    | ok u1 c0 =>
    simp only [c2] at m1 h'
    rw [f2] at m1
    injection m1 with m1 m1'
    subst m1 m1'
    have m2 := Mono.read (D := D) (E := E) size? c0.toks q c0.objs
    cases c3 : (⟨c0.toks, c0.objs⟩ : IArchive D E).read size? with
    | ub m => rw [c3] at h'; cases h'
    | throw y b =>
      rw [c3] at h'
      simp only [Res.throw.injEq] at h'
      obtain ⟨-, rfl⟩ := h'
      exact ⟨rfl, hv, [], e, l2, k1, .inl (by simp)⟩
    | ok v1 c1 =>
    simp only [c3] at m2 h'
    rw [f3] at m2
    injection m2 with m2 m2'
    subst m2 m2'
    rw [f4, f5] at h'
    simp only at h'
    have m3 := Mono.read (D := D) (E := E) edge? c1.toks q c1.objs
    cases c4 : (⟨c1.toks, c1.objs⟩ : IArchive D E).read edge? with
    | ub m => rw [c4] at h'; cases h'
    | throw y b =>
      rw [c4] at h'
      simp only [Res.throw.injEq] at h'
      obtain ⟨-, rfl⟩ := h'
      exact ⟨rfl, hv, [], e, l2, k1, .inr (by rw [k2]; simp [G.addEdge])⟩
    | ok pr1 c2' =>
    simp only [c4] at m3 h'
    rw [f6] at m3
    injection m3 with m3 m3'
    subst m3 m3'
    obtain ⟨j1, j2, l1, e', l2', j3, j4⟩ := ih h h'
    refine ⟨j1, j2, ⟨g.nextE, u, v, pr⟩ :: l1, e', l2', by rw [j3]; simp [G.addEdge], ?_⟩
    rcases j4 with j | j
    · exact .inl (by rw [j]; simp [G.addEdge])
    · exact .inr (by rw [j]; simp [G.addEdge])

/-- what is left of the whole file -/
theorem left_graph {H : String → Bool} {off : Nat} {dflt : E} {g g1 g' : G EFrame E} {p q : List (Tok D E)} {o : List (SObj D)}
    {a1 : IArchive D E} {x : Exn} (h : loadGraphT H off dflt g ⟨p ++ q, o⟩ = .ok a1 g1) (h' : loadGraphT H off dflt g ⟨p, o⟩ = .throw x g') :
    g' = g ∨
    (g'.edges = g.edges ∧ ∃ l1 r l2 fr, g1.verts = g.verts ++ l1 ++ r :: l2 ∧ g'.verts = g.verts ++ l1 ++ [⟨r.id, r.idx, fr⟩] ∧ fr.items = [] ∧
      (fr.id = "" ∨ fr.id = r.prop.id)) ∨
    (g'.verts = g1.verts ∧ ∃ l1 e l2, g1.edges = g.edges ++ l1 ++ e :: l2 ∧
      (g'.edges = g.edges ++ l1 ∨ g'.edges = g.edges ++ l1 ++ [{ e with prop := dflt }])) := by
  simp only [loadGraphT] at h h'
  have m1 := Mono.read (D := D) (E := E) size? p q o
  cases c1 : (⟨p, o⟩ : IArchive D E).read size? with
  | ub m => rw [c1] at h'; cases h'
  | throw y b => rw [c1] at h'; cases h'; exact .inl rfl
  | ok n b =>
  simp only [c1] at m1 h'
  rw [m1] at h
  simp only at h
  have m2 := Mono.read (D := D) (E := E) size? b.toks q b.objs
  cases c2 : (⟨b.toks, b.objs⟩ : IArchive D E).read size? with
  | ub m => rw [c2] at h'; cases h'
  | throw y b => rw [c2] at h'; cases h'; exact .inl rfl
  | ok k b2 =>
  simp only [c2] at m2 h'
  rw [m2] at h
  simp only at h
  cases f3 : loadFramesT H off n g ⟨b2.toks ++ q, b2.objs⟩ with
  | ub m => rw [f3] at h; cases h
  | throw y b => rw [f3] at h; cases h
  | ok a3 g3 =>
  rw [f3] at h
  simp only at h
  cases f4 : loadEdgesT dflt ((g3.verts.drop g.verts.length).map VRec.id) k g3 a3 with
  | ub m => rw [f4] at h; cases h
  | throw y b => rw [f4] at h; cases h
  | ok a4 g4 =>
  rw [f4] at h
  simp only [Res.ok.injEq] at h
  obtain ⟨-, rfl⟩ := h
  have hv4 : g4.regenerateLabelMap.verts = g3.verts := (loadEdgesT_grows f4).2
  have he4 : g4.regenerateLabelMap.edges = g4.edges := rfl
  have m3 := MonoG.loadFramesT (D := D) H off n g b2.toks q b2.objs
  cases c3 : loadFramesT H off n g ⟨b2.toks, b2.objs⟩ with
  | ub m => rw [c3] at h'; cases h'
  | throw y g5 =>
    rw [c3] at h'
    cases h'
    obtain ⟨l1, r, l2, fr, i1, i2, i3, i4, i5, -⟩ := left_frames f3 c3
    exact .inr (.inl ⟨i5, l1, r, l2, fr, by rw [hv4, i1], i2, i3, i4⟩)
  | ok a5 g5 =>
    simp only [c3] at m3 h'
    rw [f3] at m3
    injection m3 with m3 m3'
    subst m3 m3'
    cases c4 : loadEdgesT dflt ((g3.verts.drop g.verts.length).map VRec.id) k g3 ⟨a5.toks, a5.objs⟩ with
    | ub m => rw [c4] at h'; cases h'
    | ok a g => rw [c4] at h'; cases h'
    | throw y g6 =>
      rw [c4] at h'
      cases h'
      obtain ⟨i1, -, l1, e, l2, i2, i3⟩ := left_edges f4 c4
      have hg := (loadFramesT_grows f3).2
      rw [hg] at i2 i3
      exact .inr (.inr ⟨by rw [hv4, i1], l1, e, l2, by rw [he4, i2], i3⟩)

end IArchive
end Verif
