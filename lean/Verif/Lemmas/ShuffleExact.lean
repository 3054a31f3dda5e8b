import Verif.Lemmas.ShuffleLast
import Verif.Lemmas.ShuffleRuns
import Verif.Props.C24Exact
/-! # Removing a connection for every order of the children -/

namespace Verif
open GS TreeView
variable {F E : Type} [FrameProp F] [EdgeProp E]

theorem TreeView.Shuffle.sealed_iff {w w' : TreeView} (h : w.Shuffle w') (a b : VId) : w'.Sealed a b ↔ w.Sealed a b := by
  unfold TreeView.Sealed
  rw [h.cross, h.treeEdge]
  simp only [h.cut]

theorem GS.Shuffle.connEq {s s' : GS F E} (h : s.Shuffle s') (o t : FrameId) : s'.Conn o t ↔ s.Conn o t := by rw [h.conn]

theorem removeEdge_all_orders {s : GS F E} (hw : WF s.g) (hp : Paired s.g) (hsub : s.subs.Nodup)
    (hok : ∀ q ∈ s.subs, ∃ root, IsTreeView s.g root (s.views q)) {o t : FrameId} {u v : VId} (hu : s.g.vertexOf o = some u)
    (hv : s.g.vertexOf t = some v) (hc : s.Conn o t) :
    (∀ s', s.Shuffle s' → ∃ r, GS.removeEdge o t s' = .ok () r) ↔
      ∀ q ∈ s.subs, (s.views q).Sealed u v ∧ (s.views q).DeepestFirst u v := by
  have key : ∀ s', s.Shuffle s' → ((∃ r, GS.removeEdge o t s' = .ok () r) ↔
      ∀ q ∈ s.subs, (s'.views q).Sealed u v ∧ (s'.views q).ClosedBackwards u v) := by
    intro s' hs
    have := removeEdge_returns_iff (s := s') (by rw [hs.g]; exact hw) (by rw [hs.g]; exact hp) (by rw [hs.subs]; exact hsub)
      (by rw [hs.subs, hs.g]; intro q hq; obtain ⟨r, hr⟩ := hok q hq; exact ⟨r, (hs.views q).isTreeView hr⟩)
      (o := o) (t := t) (by rw [hs.g]; exact hu) (by rw [hs.g]; exact hv) ((hs.connEq o t).2 hc)
    rw [this, hs.subs]
  constructor
  · intro hall q hq
    have hs := ((key s (.refl s)).1 (hall s (.refl s)) q hq).1
    refine ⟨hs, ?_⟩
    by_cases ht : (s.views q).TreeEdge u v
    · obtain ⟨root, hroot⟩ := hok q hq
      refine (closed_all_orders (hroot.tidy hp) ht hs).1 ?_
      intro w' hw'
      have hsh : s.Shuffle { s with views := setView s.views q w' } := by
        refine ⟨rfl, rfl, rfl, ?_⟩
        intro p
        show (s.views p).Shuffle (setView s.views q w' p)
        unfold setView
        split
        · rename_i h; rw [h]; exact hw'
        · exact .refl _
      have := ((key _ hsh).1 (hall _ hsh) q hq).2
      simpa [setView] using this
    · exact fun h => absurd h ht
  · intro hall s' hs
    rw [key s' hs]
    intro q hq
    obtain ⟨h1, h2⟩ := hall q hq
    refine ⟨((hs.views q).sealed_iff u v).2 h1, ?_⟩
    by_cases ht : (s.views q).TreeEdge u v
    · obtain ⟨root, hroot⟩ := hok q hq
      exact (closed_all_orders (hroot.tidy hp) ht h1).2 h2 _ (hs.views q)
    · exact fun h => absurd (((hs.views q).treeEdge u v).1 h) ht

/-- two executions end alike if the views are tidy in the states of one of them -/
theorem run_alike (cs : List (Cmd F E)) : ∀ {s s' r r' : GS F E}, s.Shuffle s' → run cs s = some r → RunShuffled cs s' r' →
    (∀ ds es, cs = ds ++ es → ∀ u, run ds s = some u → TidySubs u) → r.Shuffle r' := by
  induction cs with
  | nil =>
    intro s s' r r' h hr hr' _
    cases hr
    cases hr' with
    | nil k => exact h.trans k
  | cons c cs ih =>
    intro s s' r r' h hr hr' ht
    have hT : TidySubs s := ht [] (c :: cs) rfl s rfl
    have hnext : ∀ s2, (∀ ds u, run ds s2 = some u → run (c :: ds) s = some u) →
        ∀ ds es, cs = ds ++ es → ∀ u, run ds s2 = some u → TidySubs u := by
      intro s2 h2 ds es he u hu
      exact ht (c :: ds) es (by rw [he]; rfl) u (h2 ds u hu)
    have hkey : ∀ s1 s2', s'.Shuffle s1 → (exec c s1 = .ok () s2' ∨ ∃ x, exec c s1 = .throw x s2') → RunShuffled cs s2' r' → r.Shuffle r' := by
      intro s1 s2' hs1 he hrest
      have := exec_shuffle c (h.trans hs1) hT
      rw [run] at hr
      have hrun : ∀ ds, run (c :: ds) s = (match exec c s with | .ok _ s' => run ds s' | .throw _ s' => run ds s' | .ub _ => none) := fun ds => by
        rw [run]
        cases exec c s <;> rfl
      cases hx : exec c s with
      | ub m => rw [hx] at hr; cases hr
      | ok x s2 =>
        rw [hx] at hr this
        rcases he with he | ⟨x', he⟩
        · rw [he] at this
          rcases this with hso | hf | hf
          · cases hso with
            | ok k => exact ih k hr hrest (hnext s2 (fun ds u hu => by rw [hrun, hx]; exact hu))
          · exact absurd hf (by simp [IsUB])
          · exact absurd hf (by simp [IsUB])
        · rw [he] at this
          rcases this with hso | hf | hf
          · cases hso
          · exact absurd hf (by simp [IsUB])
          · exact absurd hf (by simp [IsUB])
      | throw x s2 =>
        rw [hx] at hr this
        rcases he with he | ⟨x', he⟩
        · rw [he] at this
          rcases this with hso | hf | hf
          · cases hso
          · exact absurd hf (by simp [IsUB])
          · exact absurd hf (by simp [IsUB])
        · rw [he] at this
          rcases this with hso | hf | hf
          · cases hso with
            | throw k => exact ih k hr hrest (hnext s2 (fun ds u hu => by rw [hrun, hx]; exact hu))
          · exact absurd hf (by simp [IsUB])
          · exact absurd hf (by simp [IsUB])
    cases hr' with
    | ok h1 h2 h3 => exact hkey _ _ h1 (Or.inl h2) h3
    | throw h1 h2 h3 => exact hkey _ _ h1 (Or.inr ⟨_, h2⟩) h3

namespace TreeView

/-- the calls of a visit in another order of the children -/
theorem visits_perm {w w' : TreeView} (h : w.Shuffle w') {q : List VId} {calls calls' : List (VId × Option VId)} (k : Visits w q calls)
    (k' : Visits w' q calls') : calls'.Perm calls := by
  have hmem : ∀ (w : TreeView) (l : List (VId × Option VId)), Visits w q l → ∀ x, x ∈ l ↔ (x.1 ∈ l.map Prod.fst ∧ x.2 = w.parentOf x.1) := by
    intro w l hl x
    refine ⟨fun hx => ⟨List.mem_map_of_mem hx, hl.par x hx⟩, ?_⟩
    rintro ⟨h1, h2⟩
    obtain ⟨y, hy, hyx⟩ := List.mem_map.1 h1
    have := hl.par y hy
    have : y = x := Prod.ext hyx (by rw [this, h2, hyx])
    rw [← this]; exact hy
  refine (List.perm_ext_iff_of_nodup (List.Nodup.of_map _ k'.nodup) (List.Nodup.of_map _ k.nodup)).2 ?_
  intro x
  rw [hmem w' calls' k', hmem w calls k, k'.mem, k.mem, h.parentOf]
  simp only [h.under]

end TreeView
end Verif
