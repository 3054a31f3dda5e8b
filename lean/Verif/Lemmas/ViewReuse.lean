import Verif.Lemmas.ViewBuild
import Verif.Lemmas.ViewFollow
import Verif.Lemmas.Forest
import Verif.Model.ViewReuse

set_option linter.unusedSectionVars false
/-! What a search adds to a view that is not empty. -/

namespace Verif
open GS TreeView

/-- the children after inserting `ks` one by one -/
def addAll (l ks : List VId) : List VId := ks.foldl setInsert l

theorem mem_setInsert {l : List VId} {v x : VId} : x ∈ setInsert l v ↔ x ∈ l ∨ x = v := by
  unfold setInsert
  split
  · constructor
    · exact .inl
    · rintro (h | rfl) <;> assumption
  · simp

theorem nodup_setInsert {l : List VId} {v : VId} : (setInsert l v).Nodup ↔ l.Nodup := by
  unfold setInsert
  split
  · rfl
  · rename_i h
    rw [List.nodup_append]
    constructor
    · exact fun h => h.1
    · intro hn
      refine ⟨hn, by simp, ?_⟩
      intro a ha b hb
      simp only [List.mem_singleton] at hb
      rintro rfl
      exact h (hb ▸ ha)

theorem mem_addAll {l ks : List VId} {x : VId} : x ∈ addAll l ks ↔ x ∈ l ∨ x ∈ ks := by
  induction ks generalizing l with
  | nil => simp [addAll]
  | cons k ks ih =>
    have : addAll l (k :: ks) = addAll (setInsert l k) ks := rfl
    rw [this, ih, mem_setInsert, List.mem_cons, or_assoc]

theorem nodup_addAll {l ks : List VId} : (addAll l ks).Nodup ↔ l.Nodup := by
  induction ks generalizing l with
  | nil => rfl
  | cons k ks ih =>
    have : addAll l (k :: ks) = addAll (setInsert l k) ks := rfl
    rw [this, ih, nodup_setInsert]

theorem TreeView.addEdge_get_any {w : TreeView} {o t : VId} (hot : o ≠ t) (v : VId) :
    (w.addEdge o t).tree.get v = if v = t then some ⟨some o, (w.relOf t).children⟩
      else if v = o then some ⟨(w.relOf o).parent, setInsert (w.relOf o).children t⟩ else w.tree.get v := by
  simp only [TreeView.addEdge, AMap.get_set]
  by_cases hv : t = v
  · subst hv
    have h2 : ∀ x : VRel, (w.tree.set o x).get t = w.tree.get t := fun x => by rw [AMap.get_set_ne hot]
    simp [TreeView.relOf, h2]
  · rw [if_neg hv, if_neg (Ne.symm hv)]
    by_cases ho : o = v
    · subst ho; simp
    · rw [if_neg ho, if_neg (Ne.symm ho)]

/-- Closed form of the view after the callbacks of a search, started on any view `w0` whose root has no parent. -/
theorem Good.build_any {root : VId} {lvl : VId → Nat} {l : List BfsEv} (h : Good root lvl l) {w0 : TreeView}
    (hr : w0.tree.get root = some ⟨none, (w0.relOf root).children⟩) :
    (∀ v, (w0.build l).tree.get v = if v ∈ discovered l then some ⟨par (treeArcs l) v, addAll (w0.relOf v).children (kids (treeArcs l) v)⟩
      else w0.tree.get v) ∧
    (w0.build l).crossEdges = w0.crossEdges ++ (grayArcs l).map (fun a => ⟨a.src, a.tgt, a.id⟩) ∧
    (w0.build l).root = w0.root ∧ (w0.build l).publisher = w0.publisher := by
  induction h with
  | init =>
    refine ⟨?_, by simp [TreeView.build, grayArcs, buildStep], rfl, rfl⟩
    intro v
    have : discovered [BfsEv.discover root] = [root] := rfl
    rw [this]
    simp only [TreeView.build, List.foldl_cons, buildStep, List.foldl_nil, List.mem_singleton]
    split
    · rename_i hv; subst hv; rw [hr]; rfl
    · rfl
  | @tree l a h h1 h2 h3 ih =>
    obtain ⟨i1, i2, i3, i4⟩ := ih
    have hT : treeArcs (l ++ [.treeEdge a, .discover a.tgt]) = treeArcs l ++ [a] := by rw [treeArcs_append]; rfl
    have hD : discovered (l ++ [.treeEdge a, .discover a.tgt]) = discovered l ++ [a.tgt] := by simp [discovered]
    have hb : w0.build (l ++ [.treeEdge a, .discover a.tgt]) = (w0.build l).addEdge a.src a.tgt := by
      simp [TreeView.build, buildStep]
    have hG : grayArcs (l ++ [.treeEdge a, .discover a.tgt]) = grayArcs l := by simp [grayArcs]
    have hst : a.src ≠ a.tgt := by rintro he; exact h2 (he ▸ h1)
    have htT : a.tgt ∉ (treeArcs l).map Arc.tgt := by
      intro hh; apply h2; rw [h.tgts]; exact List.mem_cons_of_mem _ hh
    have hkt : kids (treeArcs l) a.tgt = [] := by
      rw [List.eq_nil_iff_forall_not_mem]
      intro c hc
      obtain ⟨b, hb, hbs, -⟩ := mem_kids.1 hc
      exact h2 (hbs ▸ (h.tree_arc hb).1)
    rw [hb]
    refine ⟨?_, by rw [hG]; exact i2, i3, i4⟩
    intro v
    rw [TreeView.addEdge_get_any hst, hT, hD]
    by_cases hv : v = a.tgt
    · subst hv
      have e2 : par (treeArcs l ++ [a]) a.tgt = some a.src := by
        have : (treeArcs l).find? (fun b => b.tgt = a.tgt) = none := by
          rw [List.find?_eq_none]
          intro b hb hbt
          exact htT (List.mem_map.2 ⟨b, hb, by simpa using hbt⟩)
        simp [par, List.find?_append, this]
      have e3 : (w0.build l).relOf a.tgt = w0.relOf a.tgt := by
        unfold TreeView.relOf
        rw [i1, if_neg h2]
      rw [if_pos rfl, if_pos (by simp), e2, kids_append, hkt, e3]
      simp [kids, hst, addAll]
    · rw [if_neg hv]
      have hp : par (treeArcs l ++ [a]) v = par (treeArcs l) v := by
        simp only [par, List.find?_append]
        cases (treeArcs l).find? (fun b => b.tgt = v) with
        | some b => rfl
        | none => simp [Ne.symm hv]
      have hm : v ∈ discovered l ++ [a.tgt] ↔ v ∈ discovered l := by simp [hv]
      by_cases ho : v = a.src
      · subst ho
        have e3 : (w0.build l).relOf a.src = ⟨par (treeArcs l) a.src, addAll (w0.relOf a.src).children (kids (treeArcs l) a.src)⟩ := by
          unfold TreeView.relOf
          rw [i1, if_pos h1]
          rfl
        rw [if_pos rfl, if_pos (hm.2 h1), hp, e3, kids_append]
        simp [kids, addAll, List.foldl_append]
      · have hk : kids (treeArcs l ++ [a]) v = kids (treeArcs l) v := by
          rw [kids_append]; simp [kids, Ne.symm ho]
        rw [if_neg ho, i1, hp, hk]
        by_cases hv' : v ∈ discovered l
        · rw [if_pos hv', if_pos (hm.2 hv')]
        · rw [if_neg hv', if_neg (fun x => hv' (hm.1 x))]
  | @gray l a h ih =>
    obtain ⟨i1, i2, i3, i4⟩ := ih
    have hb : w0.build (l ++ [.grayTarget a]) = (w0.build l).addCrossEdge a.src a.tgt a.id := by simp [TreeView.build, buildStep]
    have hT : treeArcs (l ++ [.grayTarget a]) = treeArcs l := by simp [treeArcs]
    have hD : discovered (l ++ [.grayTarget a]) = discovered l := by simp [discovered]
    have hG : grayArcs (l ++ [.grayTarget a]) = grayArcs l ++ [a] := by simp [grayArcs]
    rw [hb, hT, hD, hG]
    refine ⟨i1, ?_, i3, i4⟩
    simp [TreeView.addCrossEdge, i2]
  | @black l a h ih =>
    have hb : w0.build (l ++ [.blackTarget a]) = w0.build l := by simp [TreeView.build, buildStep]
    have hT : treeArcs (l ++ [.blackTarget a]) = treeArcs l := by simp [treeArcs]
    have hD : discovered (l ++ [.blackTarget a]) = discovered l := by simp [discovered]
    have hG : grayArcs (l ++ [.blackTarget a]) = grayArcs l := by simp [grayArcs]
    rw [hb, hT, hD, hG]
    exact ih

/-- the same after `addRoot` -/
theorem Good.build_used {root : VId} {lvl : VId → Nat} {l : List BfsEv} (h : Good root lvl l) (w : TreeView) :
    (∀ v, ((w.addRoot root).build l).tree.get v =
      if v ∈ discovered l then some ⟨par (treeArcs l) v, addAll (w.relOf v).children (kids (treeArcs l) v)⟩ else w.tree.get v) ∧
    ((w.addRoot root).build l).crossEdges = w.crossEdges ++ (grayArcs l).map (fun a => ⟨a.src, a.tgt, a.id⟩) ∧
    ((w.addRoot root).build l).root = some root ∧ ((w.addRoot root).build l).publisher = w.publisher := by
  have hg : ∀ v, (w.addRoot root).tree.get v = if root = v then some ⟨none, (w.relOf root).children⟩ else w.tree.get v := by
    intro v
    simp only [TreeView.addRoot, AMap.get_set]
  have hrel : ∀ v, ((w.addRoot root).relOf v).children = (w.relOf v).children := by
    intro v
    unfold TreeView.relOf
    rw [hg]
    split
    · rename_i h; subst h; rfl
    · rfl
  obtain ⟨h1, h2, h3, h4⟩ := h.build_any (w0 := w.addRoot root) (by rw [hg, if_pos rfl, hrel])
  refine ⟨?_, h2, h3, h4⟩
  intro v
  rw [h1, hrel, hg]
  by_cases hv : v ∈ discovered l
  · rw [if_pos hv, if_pos hv]
  · rw [if_neg hv, if_neg hv, if_neg]
    rintro rfl
    exact hv h.root_mem

variable {F E : Type} [FrameProp F] [EdgeProp E]

/-- Exactly when a search into a used view gives a correct view. -/
theorem used_isTreeView {g : G F E} (hw : WF g) (hp : Paired g) {root : VId} {evs : List BfsEv} {lvl : VId → Nat}
    (h : BfsDone g.outArcs root evs lvl) (w : TreeView) :
    IsTreeView g root ((w.addRoot root).build evs) ↔
      w.crossEdges = [] ∧ (∀ v, w.vertexExists v = true → g.Reach root v) ∧
      ∀ p rel, w.tree.get p = some rel → rel.children.Nodup ∧
        ∀ c ∈ rel.children, ((TreeView.empty.addRoot root).build evs).parentOf c = some p := by
  obtain ⟨u1, u2, u3, -⟩ := h.good.build_used w
  have hf := built_isTreeView hw hp h
  have fget := getTreeInto_get h.good
  have fpar := built_parentOf h.good
  obtain ⟨fcross, -, -⟩ := getTreeInto_cross h.good
  generalize (TreeView.empty.addRoot root).build evs = fr at hf fget fpar fcross ⊢
  generalize (w.addRoot root).build evs = fi at u1 u2 u3 ⊢
  have hreach : ∀ v, g.Reach root v ↔ v ∈ discovered evs := by
    intro v
    rw [← hf.span, TreeView.vertexExists, fget]
    by_cases hv : v ∈ discovered evs <;> simp [hv]
  have hpar : ∀ v, v ∈ discovered evs → fi.parentOf v = fr.parentOf v := by
    intro v hv
    rw [fpar, TreeView.parentOf, u1, if_pos hv]
    rfl
  have hcr : fi.crossEdges = w.crossEdges ++ fr.crossEdges := by rw [u2, fcross]
  have hkid : ∀ p c, c ∈ kids (treeArcs evs) p ↔ fr.parentOf c = some p := by
    intro p c
    rw [fpar, h.good.par_iff, mem_kids]
    constructor
    · rintro ⟨a, h1, h2, h3⟩; exact ⟨a, h1, h3, h2⟩
    · rintro ⟨a, h1, h2, h3⟩; exact ⟨a, h1, h3, h2⟩
  have htree : ∀ u v, u ∈ discovered evs → v ∈ discovered evs → (fi.TreeEdge u v ↔ fr.TreeEdge u v) := by
    intro u v hu hv
    rw [TreeView.TreeEdge, TreeView.TreeEdge, hpar u hu, hpar v hv]
  have hadj : ∀ {u v}, g.Adj u v → g.Reach root u → v ∈ discovered evs := fun huv hu => (hreach _).1 (hu.tail huv)
  constructor
  · intro hi
    have hold : ∀ v, w.vertexExists v = true → g.Reach root v := by
      intro v hv
      rw [← hi.span, TreeView.vertexExists, u1]
      split
      · rfl
      · exact hv
    refine ⟨?_, hold, ?_⟩
    · rw [List.eq_nil_iff_forall_not_mem]
      intro c hc
      have hc' : c ∈ fi.crossEdges := by rw [hcr]; exact List.mem_append_left _ hc
      obtain ⟨e, he, -, h1, h2, h3⟩ := hi.cross_edge c hc'
      have ha : g.Adj e.src e.tgt := ⟨e, he, rfl, rfl⟩
      have hj : c.Joins e.src e.tgt := .inl ⟨h1.symm, h2.symm⟩
      have ht := htree _ _ ((hreach _).1 h3) (hadj ha h3)
      by_cases hte : fi.TreeEdge e.src e.tgt
      · have := hi.tree_not_cross _ _ ha h3 hte
        have hm : c ∈ fi.crossEdges.filter (fun c => c.Joins e.src e.tgt) := List.mem_filter.2 ⟨hc', by simpa using hj⟩
        rw [this] at hm
        cases hm
      · have e1 := hi.cross_once _ _ ha h3 hte
        have e2 := hf.cross_once _ _ ha h3 (fun x => hte (ht.2 x))
        rw [hcr, List.filter_append, List.length_append, e2] at e1
        have hm : c ∈ w.crossEdges.filter (fun c => c.Joins e.src e.tgt) := List.mem_filter.2 ⟨hc, by simpa using hj⟩
        have := List.length_pos_of_mem hm
        omega
    · intro p rel hrel
      have hpd : p ∈ discovered evs := (hreach p).1 (hold p (by simp [TreeView.vertexExists, hrel]))
      have hro : w.relOf p = rel := by simp [TreeView.relOf, hrel]
      obtain ⟨c1, c2⟩ := hi.children p _ (by rw [u1, if_pos hpd])
      rw [hro] at c1 c2
      refine ⟨nodup_addAll.1 c1, ?_⟩
      intro c hc
      have := (c2 c).1 (mem_addAll.2 (.inl hc))
      have hcd : c ∈ discovered evs := by
        rw [← hreach, ← hi.span]
        unfold TreeView.parentOf at this
        unfold TreeView.vertexExists
        cases hx : fi.tree.get c with
        | none => rw [hx] at this; cases this
        | some _ => rfl
      rwa [hpar c hcd] at this
  · rintro ⟨k1, k2, k3⟩
    rw [k1, List.nil_append] at hcr
    have hget : ∀ v, v ∉ discovered evs → fi.tree.get v = none := by
      intro v hv
      rw [u1, if_neg hv]
      cases hx : w.tree.get v with
      | none => rfl
      | some r => exact absurd ((hreach v).1 (k2 v (by simp [TreeView.vertexExists, hx]))) hv
    have hpar' : ∀ v, fi.parentOf v = fr.parentOf v := by
      intro v
      by_cases hv : v ∈ discovered evs
      · exact hpar v hv
      · rw [TreeView.parentOf, TreeView.parentOf, hget v hv, fget, if_neg hv]
    have hex : ∀ v, fi.vertexExists v = true ↔ fr.vertexExists v = true := by
      intro v
      unfold TreeView.vertexExists
      by_cases hv : v ∈ discovered evs
      · rw [u1, if_pos hv, fget, if_pos hv]; simp
      · rw [hget v hv, fget, if_neg hv]
    have hte : ∀ u v, fi.TreeEdge u v ↔ fr.TreeEdge u v := fun u v => by rw [TreeView.TreeEdge, TreeView.TreeEdge, hpar', hpar']
    refine ⟨u3, fun v => (hex v).trans (hf.span v), by rw [hpar', hf.root_parent], ?_, ?_, ?_, ?_, ?_, ?_⟩
    · intro v hv hne
      rw [hpar']
      exact hf.parent v ((hex v).1 hv) hne
    · intro p rel hrel
      by_cases hv : p ∈ discovered evs
      · rw [u1, if_pos hv] at hrel
        obtain rfl := Option.some.inj hrel
        have hsub : (w.relOf p).children.Nodup ∧ ∀ c ∈ (w.relOf p).children, fr.parentOf c = some p := by
          cases hx : w.tree.get p with
          | none => simp [TreeView.relOf, hx]
          | some r => simpa [TreeView.relOf, hx] using k3 p r hx
        refine ⟨nodup_addAll.2 hsub.1, ?_⟩
        intro c
        rw [mem_addAll, hpar', hkid]
        exact ⟨fun x => x.elim (hsub.2 c) id, .inr⟩
      · rw [hget p hv] at hrel; cases hrel
    · obtain ⟨d, hd⟩ := hf.rank
      exact ⟨d, fun v p hvp => hd v p (by rwa [← hpar'])⟩
    · rw [hcr]; exact hf.cross_edge
    · intro u v huv hu ht
      rw [hcr]; exact hf.tree_not_cross u v huv hu ((hte u v).1 ht)
    · intro u v huv hu ht
      rw [hcr]; exact hf.cross_once u v huv hu (fun x => ht ((hte u v).2 x))

/-- in a graph without cycles there is only one correct view with a given root -/
theorem G.Forest.parent_unique {g : G F E} (hp : Paired g) (hf : g.Forest) {root : VId} {a b : TreeView} (ha : IsTreeView g root a)
    (hb : IsTreeView g root b) {c p : VId} (h : a.parentOf c = some p) : b.parentOf c = some p := by
  obtain ⟨d, hd⟩ := ha.rank
  have key : ∀ n c p, d c ≤ n → a.parentOf c = some p → b.parentOf c = some p := by
    intro n
    induction n with
    | zero => intro c p hn h; have := hd c p h; omega
    | succ n ih =>
      intro c p hn h
      have hdc := hd c p h
      have hpin := ha.parent_in hp h
      have hpr := (ha.span p).1 hpin
      have hadj : g.Adj p c := (ha.parent_adj h).1
      by_cases ht : b.TreeEdge p c
      · rcases ht with ht | ht
        · have hne : p ≠ root := by
            rintro rfl
            rw [hb.root_parent] at ht
            cases ht
          obtain ⟨q, hq, -⟩ := ha.parent p hpin hne
          have hdq := hd p q hq
          have := ih p q (by omega) hq
          rw [ht] at this
          obtain rfl := Option.some.inj this
          omega
        · exact ht
      · have := hb.cross_once p c hadj hpr ht
        rw [hf.no_cross hp hb] at this
        cases this
  exact key _ c p (Nat.le_refl _) h

/-- `getTree` of a contained frame into any view -/
theorem getTree_used {s : GS F E} (hw : WF s.g) {f : FrameId} {u : VId} (hf : s.g.vertexOf f = some u) (keep : Bool) (p : Nat)
    (hk : keep = false ∨ (s.views p).publisher = false) :
    ∃ evs lvl s', BfsDone s.g.outArcs u evs lvl ∧ getTreeFresh f s = .ok ((TreeView.empty.addRoot u).build evs) s ∧
      getTree f keep p s = .ok () s' ∧ s'.g = s.g ∧ s'.subs = (if keep then s.subs ++ [p] else s.subs) ∧ s'.trace = s.trace ∧
      (s'.views p).tree = (((s.views p).addRoot u).build evs).tree ∧
      (s'.views p).crossEdges = (((s.views p).addRoot u).build evs).crossEdges ∧
      (s'.views p).root = (((s.views p).addRoot u).build evs).root ∧
      ∀ q, q ≠ p → s'.views q = s.views q := by
  obtain ⟨evs, lvl, h1, h2⟩ := searchEvents_done hw (hw.live hf)
  have hpub : (((s.views p).addRoot u).build evs).publisher = (s.views p).publisher := (h2.good.build_used (s.views p)).2.2.2
  have hfr : getTreeFresh f s = .ok ((TreeView.empty.addRoot u).build evs) s := by simp [getTreeFresh, hf, getTreeInto, h1]
  cases keep with
  | false =>
    have e : getTree f false p s = .ok () { s with views := setView s.views p (((s.views p).addRoot u).build evs) } := by
      simp [getTree, hf, getTreeInto, h1]
    refine ⟨evs, lvl, _, h2, hfr, e, rfl, rfl, rfl, ?_⟩
    simp only [setView, if_true, true_and]
    exact fun q hq => if_neg hq
  | true =>
    have hk : (s.views p).publisher = false := by simpa using hk
    have e : getTree f true p s = .ok () { s with
        subs := s.subs ++ [p]
        views := setView (setView s.views p (((s.views p).addRoot u).build evs)) p
          { ((s.views p).addRoot u).build evs with publisher := true } } := by
      simp [getTree, hf, getTreeInto, h1, subscribeTreeView, setView, hpub, hk]
    refine ⟨evs, lvl, _, h2, hfr, e, rfl, rfl, rfl, ?_⟩
    refine ⟨by simp [setView], by simp [setView], by simp [setView], ?_⟩
    intro q hq
    simp [setView, hq]

end Verif
