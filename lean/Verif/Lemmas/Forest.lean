import Verif.Lemmas.ViewRemove
import Verif.Lemmas.GraphSearch
import Verif.Spec.TreeHistory

set_option linter.unusedSectionVars false
set_option linter.unusedSimpArgs false
/-! Graphs without cycles. -/

namespace Verif
open GS TreeView
variable {F E : Type} [FrameProp F] [EdgeProp E]

/-- no edge lies on a cycle -/
def G.Forest (g : G F E) : Prop := ∀ a b, g.Adj a b → ¬ (g.cut a b).Reach a b

theorem G.Forest.empty : (G.empty : G F E).Forest := by
  rintro a b ⟨e, he, -⟩
  simp [G.empty] at he

theorem G.Forest.of_adj {g g' : G F E} (h : g.Forest) (hs : ∀ x y, g'.Adj x y → g.Adj x y) : g'.Forest := by
  intro a b hab hr
  refine h a b (hs a b hab) (hr.mono ?_)
  intro x y hxy
  obtain ⟨h1, h2⟩ := cut_adj.1 hxy
  exact cut_adj.2 ⟨hs x y h1, h2⟩

theorem G.Forest.of_edges {g g' : G F E} (h : g.Forest) (he : g'.edges = g.edges) : g'.Forest :=
  h.of_adj (fun x y => by simp only [G.Adj, he]; exact id)

theorem G.Forest.cut {g : G F E} (h : g.Forest) (a b : VId) : (g.cut a b).Forest :=
  h.of_adj (fun _ _ hxy => (cut_adj.1 hxy).1)

/-- reachability after one more connection -/
theorem reach_add {adj adj2 : VId → VId → Prop} {a b : VId}
    (h2 : ∀ x y, adj2 x y → adj x y ∨ (x = a ∧ y = b) ∨ (x = b ∧ y = a)) {x y : VId} (hr : Relation.ReflTransGen adj2 x y) :
    Relation.ReflTransGen adj x y ∨ (Relation.ReflTransGen adj x a ∧ Relation.ReflTransGen adj b y) ∨
      (Relation.ReflTransGen adj x b ∧ Relation.ReflTransGen adj a y) := by
  induction hr with
  | refl => exact Or.inl .refl
  | tail _ hyz ih =>
    rcases h2 _ _ hyz with hyz | ⟨rfl, rfl⟩ | ⟨rfl, rfl⟩
    · rcases ih with ih | ⟨i1, i2⟩ | ⟨i1, i2⟩
      · exact Or.inl (ih.tail hyz)
      · exact Or.inr (Or.inl ⟨i1, i2.tail hyz⟩)
      · exact Or.inr (Or.inr ⟨i1, i2.tail hyz⟩)
    · rcases ih with ih | ⟨i1, i2⟩ | ⟨i1, i2⟩
      · exact Or.inr (Or.inl ⟨ih, .refl⟩)
      · exact Or.inr (Or.inl ⟨i1, .refl⟩)
      · exact Or.inl i1
    · rcases ih with ih | ⟨i1, i2⟩ | ⟨i1, i2⟩
      · exact Or.inr (Or.inr ⟨ih, .refl⟩)
      · exact Or.inl i1
      · exact Or.inr (Or.inr ⟨i1, .refl⟩)

theorem G.Forest.add {g g2 : G F E} (hp : Paired g) {e e' : ERec E} (h : g.Forest) (ha : AddedPair g g2 e e')
    (hn : ¬ g.Reach e.src e.tgt) : g2.Forest := by
  intro x y hxy hr
  have hn' : ¬ g.Reach e.tgt e.src := fun hh => hn (hh.symm hp)
  by_cases hnew : (x = e.src ∧ y = e.tgt) ∨ (x = e.tgt ∧ y = e.src)
  · have hsub : g.Reach x y := hr.mono (by
      intro u v huv
      obtain ⟨h1, h2⟩ := cut_adj.1 huv
      rcases ha.adj.1 h1 with h1 | h1
      · exact h1
      · exfalso
        apply h2
        rcases hnew with ⟨rfl, rfl⟩ | ⟨rfl, rfl⟩
        · exact h1
        · exact h1.symm)
    rcases hnew with ⟨rfl, rfl⟩ | ⟨rfl, rfl⟩
    · exact hn hsub
    · exact hn' hsub
  · have hold : g.Adj x y := by
      rcases ha.adj.1 hxy with h1 | h1
      · exact h1
      · exact absurd h1 hnew
    have hmono : ∀ {u v : VId}, (g.cut x y).Reach u v → g.Reach u v := fun hh => hh.mono (fun _ _ h1 => (cut_adj.1 h1).1)
    have key := reach_add (adj := (g.cut x y).Adj) (a := e.src) (b := e.tgt) (by
      intro u v huv
      obtain ⟨h1, h2⟩ := cut_adj.1 huv
      rcases ha.adj.1 h1 with h1 | h1
      · exact Or.inl (cut_adj.2 ⟨h1, h2⟩)
      · exact Or.inr h1) hr
    have hyx : g.Reach y x := .single (hold.symm hp)
    rcases key with k | ⟨k1, k2⟩ | ⟨k1, k2⟩
    · exact h x y hold k
    · -- src ~ x ~ y ~ tgt
      exact hn ((((hmono k1).symm hp).trans (hyx.symm hp)).trans ((hmono k2).symm hp))
    · exact hn' ((((hmono k1).symm hp).trans (hyx.symm hp)).trans ((hmono k2).symm hp))

/-- a correct view of a graph without cycles has no cross edges -/
theorem G.Forest.no_cross {g : G F E} (hp : Paired g) (h : g.Forest) {root : VId} {w : TreeView} (hw : IsTreeView g root w) :
    w.crossEdges = [] := by
  rw [List.eq_nil_iff_forall_not_mem]
  intro c hc
  have hj : c.Joins c.origin c.target := Or.inl ⟨rfl, rfl⟩
  obtain ⟨hab, hba, hoin, htin⟩ := joins_adj hp hw hc hj
  have hnt : ¬ w.TreeEdge c.origin c.target := by
    intro ht
    have h1 := hw.tree_not_cross _ _ hab ((hw.span _).1 hoin) ht
    have : c ∈ w.crossEdges.filter (fun x => x.Joins c.origin c.target) := by
      simp only [List.mem_filter, decide_eq_true_eq]; exact ⟨hc, hj⟩
    rw [h1] at this; cases this
  obtain ⟨d, hd⟩ := hw.rank
  have hup : ∀ n v, d v ≤ n → w.vertexExists v = true → (g.cut c.origin c.target).Reach root v := by
    intro n
    induction n with
    | zero =>
      intro v hdv hv
      by_cases hvr : v = root
      · subst hvr; exact .refl
      · obtain ⟨p, hvp, -⟩ := hw.parent v hv hvr
        have := hd v p hvp
        omega
    | succ n ih =>
      intro v hdv hv
      by_cases hvr : v = root
      · subst hvr; exact .refl
      · obtain ⟨p, hvp, hga⟩ := hw.parent v hv hvr
        have := hd v p hvp
        refine (ih p (by omega) (hw.parent_in hp hvp)).tail (cut_adj.2 ⟨hga, ?_⟩)
        rintro (⟨rfl, rfl⟩ | ⟨rfl, rfl⟩)
        · exact hnt (Or.inr hvp)
        · exact hnt (Or.inl hvp)
  have h1 := hup _ _ (Nat.le_refl _) hoin
  have h2 := hup _ _ (Nat.le_refl _) htin
  exact h _ _ hab ((h1.symm (cut_paired hp _ _)).trans h2)

theorem cleanCut_of_nil {w : TreeView} (h : w.crossEdges = []) (a b : VId) : w.CleanCut a b :=
  ⟨by simp [h], by simp [h], by simp [h]⟩

/-! ### histories -/

theorem reach_live {g : G F E} (hw : WF g) {u v : VId} (h : g.Reach u v) (hne : u ≠ v) : Live g u ∧ Live g v := by
  constructor
  · rcases Relation.ReflTransGen.cases_head h with rfl | ⟨y, ⟨e, he, rfl, -⟩, -⟩
    · exact absurd rfl hne
    · exact hw.esrc e he
  · rcases Relation.ReflTransGen.cases_tail h with rfl | ⟨y, -, ⟨e, he, -, rfl⟩⟩
    · exact absurd rfl hne
    · exact hw.etgt e he

theorem adj_iff_conn {s : GS F E} {a b : FrameId} {u v : VId} (ha : s.g.vertexOf a = some u) (hb : s.g.vertexOf b = some v) :
    s.Conn a b ↔ s.g.Adj u v := by
  unfold GS.Conn GS.containsEdge
  simp only [ha, hb, Res.ok.injEq, and_true]
  exact G.edge_isSome

theorem GS.getVertex_ok {s : GS F E} {f : FrameId} {u : VId} (h : getVertex f s = .ok u s) : s.g.vertexOf f = some u := by
  unfold getVertex at h
  cases hv : s.g.vertexOf f <;> simp [hv] at h
  rw [h]

/-- no path leads to a frame that does not exist -/
theorem GS.noPath_new {s : GS F E} {a b : FrameId} (hab : a ≠ b) (hb : s.g.vertexOf b = none) (l : List FrameId) :
    ¬ IsPath s.Conn a b l := by
  intro h
  obtain ⟨l', rfl⟩ : ∃ l', l = l' ++ [b] := by
    obtain ⟨l', hl'⟩ := List.getLast?_eq_some_iff.1 h.last
    exact ⟨l', hl'⟩
  cases hl : l'.getLast? with
  | none =>
    rw [List.getLast?_eq_none_iff] at hl
    subst hl
    have := h.first
    simp at this
    exact hab this.symm
  | some x =>
    have hc := (List.isChain_append.1 h.steps).2.2 x (by simp [hl]) b (by simp)
    obtain ⟨u, v, -, h2, -⟩ := conn_iff.1 hc
    rw [hb] at h2; cases h2

/-- reachable vertices are joined by a path of frames -/
theorem path_of_reach {s : GS F E} (hw : WF s.g) {u v : VId} (h : s.g.Reach u v) :
    ∃ l, IsPath s.Conn (nameOf s.g u) (nameOf s.g v) l := by
  induction h with
  | refl => exact ⟨[nameOf s.g u], rfl, rfl, by simp⟩
  | @tail x y hux hxy ih =>
    obtain ⟨l, hl⟩ := ih
    have hx : Live s.g x := by
      obtain ⟨e, he, rfl, -⟩ := hxy; exact hw.esrc e he
    have hy : Live s.g y := by
      obtain ⟨e, he, -, rfl⟩ := hxy; exact hw.etgt e he
    refine ⟨l ++ [nameOf s.g y], ?_, by simp, ?_⟩
    · rw [List.head?_append, hl.first]; rfl
    · rw [List.isChain_append]
      refine ⟨hl.steps, by simp, ?_⟩
      intro p hp q hq
      rw [hl.last] at hp
      simp only [Option.mem_def, Option.some.injEq, List.head?_cons] at hp hq
      subst hp; subst hq
      exact (adj_iff_conn (vertexOf_nameOf hw hx) (vertexOf_nameOf hw hy)).2 hxy

theorem reach_of_path {s : GS F E} {l : List FrameId} : ∀ {a b : FrameId} {u v : VId}, IsPath s.Conn a b l →
    s.g.vertexOf a = some u → s.g.vertexOf b = some v → s.g.Reach u v := by
  induction l with
  | nil => intro a b u v h; simpa using h.first
  | cons x l ih =>
    intro a b u v h ha hb
    have hx : x = a := by simpa using h.first
    subst hx
    cases l with
    | nil =>
      have : x = b := by simpa using h.last
      subst this
      rw [ha] at hb
      obtain rfl := Option.some.inj hb
      exact .refl
    | cons y l =>
      obtain ⟨h1, h2⟩ := List.isChain_cons_cons.1 h.steps
      obtain ⟨u', z, e1, e2, -⟩ := conn_iff.1 h1
      rw [ha] at e1
      obtain rfl := Option.some.inj e1
      exact .head ((adj_iff_conn ha e2).1 h1) (ih (a := y) ⟨rfl, by rw [← h.last, List.getLast?_cons_cons], h2⟩ e2 hb)

/-- `add_edge` on the level of the graph: first missing frames are created, then the pair of edges is added unless it is there. -/
theorem addEdge_graph {a b : FrameId} {p : E} {s s' : GS F E} (hw : WF s.g) (hp : Paired s.g)
    (h : (GS.addEdge a b p s).st? = some s') :
    ∃ (g1 : G F E) (u v : VId), WF g1 ∧ Paired g1 ∧ g1.edges = s.g.edges ∧ g1.vertexOf a = some u ∧ g1.vertexOf b = some v ∧
      (∀ f x, s.g.vertexOf f = some x → g1.vertexOf f = some x) ∧
      (∀ x, Live s.g x → Live g1 x) ∧
      (s.g.vertexOf a = none → ¬ Live s.g u) ∧ (s.g.vertexOf b = none → ¬ Live s.g v) ∧
      ((∃ e, g1.edge u v = some e) ∧ s'.g = g1 ∨
       g1.edge u v = none ∧ s'.g = ((g1.addEdge u v p).1.addEdge v u (EdgeProp.inverse p)).1) := by
  unfold GS.addEdge at h
  simp only at h
  generalize hs1 : orCreate a (s.g.vertexOf a) s = r1 at h
  generalize hs2 : orCreate b (s.g.vertexOf b) r1.1 = r2 at h
  have hcr : ∀ (f : FrameId) (t : GS F E), WF t.g → Paired t.g →
      WF (addVertexN f (FrameProp.setId f FrameProp.dflt) t).1.g ∧ Paired (addVertexN f (FrameProp.setId f FrameProp.dflt) t).1.g := by
    intro f t hw hp
    exact ⟨hw.addVertex (FrameProp.getId_setId _ _), hp.of_edges (addVertex_edges _ _ _)⟩
  have hw1 : WF r1.1.g ∧ Paired r1.1.g := by
    rw [← hs1]
    cases s.g.vertexOf a with
    | none => exact hcr a s hw hp
    | some v => exact ⟨hw, hp⟩
  have hw2 : WF r2.1.g ∧ Paired r2.1.g := by
    rw [← hs2]
    cases s.g.vertexOf b with
    | none => exact hcr b r1.1 hw1.1 hw1.2
    | some v => exact hw1
  have he1 : r1.1.g.edges = s.g.edges := by
    rw [← hs1]
    cases s.g.vertexOf a with
    | none => exact addVertex_edges _ _ _
    | some v => rfl
  have he2 : r2.1.g.edges = s.g.edges := by
    rw [← he1, ← hs2]
    cases s.g.vertexOf b with
    | none => exact addVertex_edges _ _ _
    | some v => rfl
  have hm1 : ∀ f x, s.g.vertexOf f = some x → r1.1.g.vertexOf f = some x := by
    intro f x hfx
    rw [← hs1]
    cases s.g.vertexOf a with
    | none => exact addVertexN_vertexOf_mono hfx
    | some v => exact hfx
  have hm2 : ∀ f x, r1.1.g.vertexOf f = some x → r2.1.g.vertexOf f = some x := by
    intro f x hfx
    rw [← hs2]
    cases s.g.vertexOf b with
    | none => exact addVertexN_vertexOf_mono hfx
    | some v => exact hfx
  have hva : r1.1.g.vertexOf a = some r1.2 := by
    rw [← hs1]
    cases h : s.g.vertexOf a with
    | none => exact addVertexN_vertexOf
    | some v => exact h
  have hvb2 : r2.1.g.vertexOf b = some r2.2 := by
    rw [← hs2]
    cases h : s.g.vertexOf b with
    | none => exact addVertexN_vertexOf
    | some v => exact hm1 b v h
  have hva2 := hm2 a _ hva
  have hl1 : ∀ x, Live s.g x → Live r1.1.g x := by
    intro x hx
    rw [← hs1]
    cases s.g.vertexOf a with
    | none => exact addVertexN_live hx
    | some v => exact hx
  have hl2 : ∀ x, Live r1.1.g x → Live r2.1.g x := by
    intro x hx
    rw [← hs2]
    cases s.g.vertexOf b with
    | none => exact addVertexN_live hx
    | some v => exact hx
  have hnolive : ∀ (f : FrameId) (x : VId), r2.1.g.vertexOf f = some x → s.g.vertexOf f = none → ¬ Live s.g x := by
    intro f x hx hnone hlive
    have h1 := vertexOf_nameOf hw hlive
    have h2 := hm2 _ _ (hm1 _ _ h1)
    have := hw2.1.vertexOf_inj h2 hx
    rw [this, hnone] at h1
    cases h1
  refine ⟨r2.1.g, r1.2, r2.2, hw2.1, hw2.2, he2, hva2, hvb2, fun f x hfx => hm2 f x (hm1 f x hfx),
    fun x hx => hl2 x (hl1 x hx), hnolive a _ hva2, hnolive b _ hvb2, ?_⟩
  obtain ⟨ra, hra⟩ : ∃ r, r2.1.g.findV r1.2 = some r := by
    obtain ⟨r, hr, hid⟩ := hw2.1.live hva2; exact ⟨r, hw2.1.findV_iff.2 ⟨hr, hid⟩⟩
  obtain ⟨rb, hrb⟩ : ∃ r, r2.1.g.findV r2.2 = some r := by
    obtain ⟨r, hr, hid⟩ := hw2.1.live hvb2; exact ⟨r, hw2.1.findV_iff.2 ⟨hr, hid⟩⟩
  unfold addEdgeD at h
  simp only [hra, hrb] at h
  cases hed : r2.1.g.edge r1.2 r2.2 with
  | some e =>
    simp only [hed, Res.st?, Option.some.injEq] at h
    subst h
    exact Or.inl ⟨⟨e, rfl⟩, rfl⟩
  | none =>
    refine Or.inr ⟨rfl, ?_⟩
    simp only [hed] at h
    split at h
    · simp only [Res.st?, Option.some.injEq] at h; subst h; rfl
    · simp only [Res.st?, Option.some.injEq] at h; subst h; rfl
    · cases h

/-- joined vertices are not connected before, in a history without cycles -/
theorem noCycle_not_reach {a b : FrameId} {s : GS F E} (hw : WF s.g) (hab : a ≠ b)
    (hc : ∀ l, ¬ IsPath s.Conn a b l) {g1 : G F E} {u v : VId} (hw1 : WF g1) (he : g1.edges = s.g.edges)
    (ha : g1.vertexOf a = some u) (hb : g1.vertexOf b = some v) (hm : ∀ f x, s.g.vertexOf f = some x → g1.vertexOf f = some x)
    (hna : s.g.vertexOf a = none → ¬ Live s.g u) (hnb : s.g.vertexOf b = none → ¬ Live s.g v) : ¬ g1.Reach u v := by
  intro hr
  have hr' : s.g.Reach u v := hr.mono (fun x y => by simp only [G.Adj, he]; exact id)
  have huv : u ≠ v := by
    rintro rfl
    exact hab (hw1.vertexOf_inj ha hb)
  obtain ⟨lu, lv⟩ := reach_live hw hr' huv
  have key : ∀ (f : FrameId) (x : VId), g1.vertexOf f = some x → (s.g.vertexOf f = none → ¬ Live s.g x) → Live s.g x →
      s.g.vertexOf f = some x := by
    intro f x hfx hn hl
    cases hv : s.g.vertexOf f with
    | none => exact absurd hl (hn hv)
    | some y => rw [hm f y hv] at hfx; exact hfx
  have ha' := key a u ha hna lu
  have hb' := key b v hb hnb lv
  obtain ⟨l, hl⟩ := path_of_reach hw hr'
  rw [nameOf_eq hw ha', nameOf_eq hw hb'] at hl
  exact hc l hl

theorem GStep.forest {g g' : G F E} {x : Event × G F E} (hs : GStep g x g') (h : g.Forest)
    (hx : ∀ a b i, x.1 ≠ .edgeAdded a b i) : g'.Forest := by
  cases hs with
  | addV hn hp' => exact h.of_edges (addVertex_edges _ _ _)
  | dupV => exact h
  | addE ha hb hn => exact absurd rfl (hx _ _ _)
  | rmE ha hb h1 h2 hg1 hg2 =>
    obtain ⟨-, rfl⟩ := G.removeEdge_some hg1
    obtain ⟨-, rfl⟩ := G.removeEdge_some hg2
    refine h.of_adj ?_
    rintro x y ⟨e, he, h1, h2⟩
    simp only [List.mem_filter] at he
    exact ⟨e, he.1.1, h1, h2⟩
  | setP ha hb h1 h2 =>
    refine h.of_adj ?_
    rintro x y ⟨e, he, rfl, rfl⟩
    obtain ⟨e1, he1, -, a1, a2, -⟩ := G.mem_setProp he
    obtain ⟨e2, he2, -, b1, b2, -⟩ := G.mem_setProp he1
    exact ⟨e2, he2, by rw [a1, b1], by rw [a2, b2]⟩
  | rmV hv hd => exact h.of_edges rfl

/-- the call does not add edges -/
def GS.Cmd.noAdd : Cmd F E → Prop
  | .addEdge _ _ _ => False
  | _ => True

theorem exec_advances_noAdd {c : Cmd F E} {s s' : GS F E} (hw : WF s.g) (hc : c.noAdd) (h : (exec c s).st? = some s') :
    Advances (fun _ e => ∀ a b i, e ≠ .edgeAdded a b i) s s' := by
  cases c with
  | addFrame f =>
    simp only [exec, st?_discard] at h
    exact (addFrame_advances h).mono (by rintro g e ⟨rfl, -⟩ a b i hh; cases hh)
  | emplaceFrame f p =>
    simp only [exec, st?_discard] at h
    exact (emplaceFrame_advances h).mono (by rintro g e ⟨rfl, -⟩ a b i hh; cases hh)
  | removeFrame f => exact (removeFrame_advances h).mono (by rintro _ e rfl a b i hh; cases hh)
  | disconnectFrame f => exact (disconnectFrame_advances hw h).mono (by rintro _ e ⟨b, rfl⟩ a b i hh; cases hh)
  | addEdge o t p => exact hc.elim
  | removeEdge o t => exact (removeEdge_advances h).mono (by rintro _ e rfl a b i hh; cases hh)
  | setEdge o t p => exact (setEdgeProperty_advances h).mono (by rintro _ e ⟨i, j, rfl⟩ a b i hh; cases hh)
  | getTree f k p => exact .refl (getTree_same h).1 (getTree_same h).2
  | unsubscribeView p =>
    simp only [exec, Res.st?, Option.some.injEq] at h
    subst h
    exact .refl (unsubscribeView_same p s).1 (unsubscribeView_same p s).2

theorem GSteps.inv {P : G F E → Event → Prop} {I : G F E → Prop}
    (hI : ∀ g x g', WF g → Paired g → I g → GStep g x g' → P g x.1 → I g' ∧ Paired g') {g g' : G F E}
    {l : List (Event × G F E)} (hs : GSteps P g l g') (hw : WF g) (hp : Paired g) (h : I g) : I g' := by
  induction hs with
  | nil => exact h
  | cons hs hP _ ih =>
    obtain ⟨h1, h2⟩ := hI _ _ _ hw hp h hs hP
    exact ih (hs.wf hw) h2 h1

theorem exec_forest {c : Cmd F E} {s s' : GS F E} (hw : WF s.g) (hp : Paired s.g) (hf : s.g.Forest) (hc : c.noCycle s)
    (h : (exec c s).st? = some s') : s'.g.Forest := by
  have key : c.noAdd → s'.g.Forest := by
    intro hna
    obtain ⟨l, a1, -⟩ := exec_advances_noAdd hw hna h
    refine GSteps.inv (I := G.Forest) ?_ a1 hw hp hf
    intro g x g' hw hp hf hs hP
    exact ⟨hs.forest hf hP, hs.paired hw hp (by
      intro hself
      cases x with
      | mk e g1 => cases e <;> first | exact hself | exact hP _ _ _ rfl)⟩
  cases c with
  | addEdge a b p =>
    obtain ⟨hab, hc⟩ := hc
    simp only [exec] at h
    obtain ⟨g1, u, v, hw1, hp1, he, ha, hb, hm, hlive, hna, hnb, hres⟩ := addEdge_graph hw hp h
    have hf1 : g1.Forest := hf.of_edges he
    rcases hres with ⟨-, hs⟩ | ⟨hnone, hs⟩
    · rw [hs]; exact hf1
    · rw [hs]
      have huv : u ≠ v := by rintro rfl; exact hab (hw1.vertexOf_inj ha hb)
      have hadd := addedPair_of hw1 hp1 huv (hw1.live ha) (hw1.live hb) hnone p (EdgeProp.inverse p)
      refine hf1.add hp1 hadd ?_
      have hnp : ∀ l, ¬ IsPath s.Conn a b l := by
        rcases hc with hc | hc
        · exfalso
          obtain ⟨u', v', e1, e2, -⟩ := conn_iff.1 hc
          have := (adj_iff_conn e1 e2).1 hc
          rw [hm _ _ e1] at ha
          rw [hm _ _ e2] at hb
          obtain rfl := Option.some.inj ha
          obtain rfl := Option.some.inj hb
          obtain ⟨e, hme, h1, h2⟩ := this
          exact G.edge_none.1 hnone e (by rw [he]; exact hme) ⟨h1, h2⟩
        · exact hc
      exact noCycle_not_reach hw hab hnp hw1 he ha hb hm hna hnb
  | _ => exact key trivial

end Verif
