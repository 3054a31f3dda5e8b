import Verif.Lemmas.ReuseSteps
set_option linter.unusedSectionVars false
/-! View objects mention only vertices and edges that the graph has created. -/

namespace Verif
variable {F E : Type} [FrameProp F] [EdgeProp E]

namespace TreeView

/-- what is said of a relation -/
def relIn (P : VId → Prop) (r : VRel) : Prop := (∀ x, r.parent = some x → P x) ∧ ∀ x ∈ r.children, P x

/-- All vertices satisfy `P`, all edges `Q`. -/
structure In (P : VId → Prop) (Q : EId → Prop) (w : TreeView) : Prop where
  tree : ∀ x ∈ w.tree, P x.1 ∧ relIn P x.2
  cross : ∀ c ∈ w.crossEdges, P c.origin ∧ P c.target ∧ Q c.edge
  root : ∀ x, w.root = some x → P x
  nodup : (AMap.keys w.tree).Nodup

/-- the same without the last condition -/
structure In0 (P : VId → Prop) (Q : EId → Prop) (w : TreeView) : Prop where
  tree : ∀ x ∈ w.tree, P x.1 ∧ relIn P x.2
  cross : ∀ c ∈ w.crossEdges, P c.origin ∧ P c.target ∧ Q c.edge
  root : ∀ x, w.root = some x → P x

variable {P : VId → Prop} {Q : EId → Prop}

theorem in_vertexIds {w : TreeView} : In0 (fun x => x ∈ w.vertexIds) (fun e => e ∈ w.edgeIds) w := by
  refine ⟨fun x hx => ⟨?_, fun y hy => ?_, fun y hy => ?_⟩, fun c hc => ⟨?_, ?_, ?_⟩, fun x hx => ?_⟩
  · simp only [vertexIds, List.mem_append, List.mem_flatMap]
    exact Or.inl (Or.inl ⟨x, hx, by simp⟩)
  · simp only [vertexIds, List.mem_append, List.mem_flatMap]
    exact Or.inl (Or.inl ⟨x, hx, by simp [hy]⟩)
  · simp only [vertexIds, List.mem_append, List.mem_flatMap]
    exact Or.inl (Or.inl ⟨x, hx, by simp [hy]⟩)
  · simp only [vertexIds, List.mem_append, List.mem_flatMap]
    exact Or.inl (Or.inr ⟨c, hc, by simp⟩)
  · simp only [vertexIds, List.mem_append, List.mem_flatMap]
    exact Or.inl (Or.inr ⟨c, hc, by simp⟩)
  · exact List.mem_map_of_mem hc
  · simp [vertexIds, hx]

theorem In0.vertexIds {w : TreeView} (h : In0 P Q w) : ∀ x ∈ w.vertexIds, P x := by
  intro x hx
  simp only [TreeView.vertexIds, List.mem_append, List.mem_flatMap, List.mem_cons, Option.mem_toList] at hx
  rcases hx with (⟨y, hy, hx⟩ | ⟨c, hc, hx⟩) | hx
  · have := h.tree y hy
    rcases hx with rfl | hx | hx
    · exact this.1
    · exact this.2.1 x hx
    · exact this.2.2 x hx
  · have := h.cross c hc
    rcases hx with rfl | rfl | hx
    · exact this.1
    · exact this.2.1
    · cases hx
  · exact h.root x hx

theorem In0.edgeIds {w : TreeView} (h : In0 P Q w) : ∀ x ∈ w.edgeIds, Q x := by
  intro x hx
  obtain ⟨c, hc, rfl⟩ := List.mem_map.1 hx
  exact (h.cross c hc).2.2

theorem In.weak {w : TreeView} (h : In P Q w) : In0 P Q w := ⟨h.tree, h.cross, h.root⟩

theorem In.vertexIds {w : TreeView} (h : In P Q w) : ∀ x ∈ w.vertexIds, P x := h.weak.vertexIds

theorem In.edgeIds {w : TreeView} (h : In P Q w) : ∀ x ∈ w.edgeIds, Q x := h.weak.edgeIds

theorem In.mono {w : TreeView} (h : In P Q w) {P' : VId → Prop} {Q' : EId → Prop} (hP : ∀ x, P x → P' x) (hQ : ∀ x, Q x → Q' x) : In P' Q' w :=
  ⟨fun x hx => ⟨hP _ (h.tree x hx).1, fun y hy => hP _ ((h.tree x hx).2.1 y hy), fun y hy => hP _ ((h.tree x hx).2.2 y hy)⟩,
   fun c hc => ⟨hP _ (h.cross c hc).1, hP _ (h.cross c hc).2.1, hQ _ (h.cross c hc).2.2⟩, fun x hx => hP _ (h.root x hx), h.nodup⟩

theorem In.rel {w : TreeView} (h : In P Q w) (v : VId) : relIn P (w.relOf v) := by
  unfold relOf
  cases hg : w.tree.get v with
  | none => exact ⟨fun x hx => (by cases hx), fun x hx => (by cases hx)⟩
  | some r => exact (h.tree _ (AMap.mem_of_get hg)).2

theorem mem_set {m : AMap VId VRel} {v : VId} {r : VRel} : ∀ {x}, x ∈ m.set v r → x = (v, r) ∨ x ∈ m := by
  induction m with
  | nil => intro x hx; simp [AMap.set] at hx; exact Or.inl hx
  | cons y m ih =>
    intro x hx
    obtain ⟨k, q⟩ := y
    simp only [AMap.set] at hx
    split at hx
    · rcases List.mem_cons.1 hx with h | h
      · exact Or.inl h
      · exact Or.inr (by simp [h])
    · rcases List.mem_cons.1 hx with h | h
      · exact Or.inr (by simp [h])
      · rcases ih h with h | h
        · exact Or.inl h
        · exact Or.inr (by simp [h])

theorem In.setTree {w : TreeView} (h : In P Q w) {v : VId} {r : VRel} (hv : P v) (hr : relIn P r) : In P Q { w with tree := w.tree.set v r } := by
  refine ⟨fun x hx => ?_, h.cross, h.root, AMap.nodup_keys_set h.nodup _ _⟩
  rcases mem_set hx with rfl | hx
  · exact ⟨hv, hr⟩
  · exact h.tree x hx

theorem setInsert_mem {l : List VId} {v x : VId} (h : x ∈ setInsert l v) : x = v ∨ x ∈ l := by
  unfold setInsert at h
  split at h
  · exact Or.inr h
  · simp at h; exact h.symm

theorem In.addEdge {w : TreeView} (h : In P Q w) {o t : VId} (ho : P o) (ht : P t) : In P Q (w.addEdge o t) := by
  have h1 := h.setTree (v := o) (r := { w.relOf o with children := setInsert (w.relOf o).children t }) ho
    ⟨(h.rel o).1, fun x hx => by
      rcases setInsert_mem hx with rfl | hx
      · exact ht
      · exact (h.rel o).2 x hx⟩
  unfold TreeView.addEdge
  generalize ({ w with tree := w.tree.set o { w.relOf o with children := setInsert (w.relOf o).children t } } : TreeView) = w1 at h1
  have h2 := h1.setTree (v := t) (r := { w1.relOf t with parent := some o }) ht ⟨fun x hx => by cases hx; exact ho, (h1.rel t).2⟩
  exact ⟨h2.tree, h2.cross, h2.root, h2.nodup⟩

theorem In.addCrossEdge {w : TreeView} (h : In P Q w) {o t : VId} {e : EId} (ho : P o) (ht : P t) (he : Q e) : In P Q (w.addCrossEdge o t e) := by
  refine ⟨h.tree, fun c hc => ?_, h.root, h.nodup⟩
  simp only [TreeView.addCrossEdge, List.mem_append, List.mem_singleton] at hc
  rcases hc with hc | rfl
  · exact h.cross c hc
  · exact ⟨ho, ht, he⟩

theorem In.addRoot {w : TreeView} (h : In P Q w) {r : VId} (hr : P r) : In P Q (w.addRoot r) := by
  have h1 := h.setTree (v := r) (r := { w.relOf r with parent := none }) hr ⟨fun x hx => (by cases hx), (h.rel r).2⟩
  exact ⟨h1.tree, h1.cross, fun x hx => (by cases hx; exact hr), h1.nodup⟩

/-- the arc of a callback -/
def evIn (P : VId → Prop) (Q : EId → Prop) : BfsEv → Prop
  | .treeEdge a => P a.src ∧ P a.tgt ∧ Q a.id
  | .grayTarget a => P a.src ∧ P a.tgt ∧ Q a.id
  | _ => True

theorem In.build (evs : List BfsEv) : ∀ {w : TreeView}, In P Q w → (∀ ev ∈ evs, evIn P Q ev) → In P Q (w.build evs) := by
  induction evs with
  | nil => intro w h _; exact h
  | cons ev evs ih =>
    intro w h hev
    have h0 := hev ev (by simp)
    simp only [TreeView.build, List.foldl_cons]
    refine ih ?_ (fun x hx => hev x (by simp [hx]))
    cases ev with
    | discover v => exact h
    | treeEdge a => exact h.addEdge h0.1 h0.2.1
    | grayTarget a => exact h.addCrossEdge h0.1 h0.2.1 h0.2.2
    | blackTarget a => exact h

theorem In.rmVerts (vs : List VId) : ∀ {w w' : TreeView}, In P Q w → (w.rmVerts vs).st? = some w' → In P Q w' := by
  induction vs with
  | nil => intro w w' h hw; cases hw; exact h
  | cons v vs ih =>
    intro w w' h hw
    simp only [TreeView.rmVerts] at hw
    cases hp : (w.relOf v).parent with
    | none => rw [hp] at hw; cases hw
    | some p =>
      rw [hp] at hw
      simp only at hw
      have h1 := h.setTree (v := p) (r := { w.relOf p with children := (w.relOf p).children.filter (· ≠ v) }) ((h.rel v).1 p hp)
        ⟨(h.rel p).1, fun x hx => (h.rel p).2 x (List.mem_of_mem_filter hx)⟩
      split at hw
      · refine ih (w := _) ?_ hw
        refine ⟨fun x hx => ?_, h.cross, h.root, AMap.nodup_keys_erase h1.nodup _⟩
        exact h1.tree x (List.mem_of_mem_filter hx)
      · cases hw

theorem rmCross_cur {st st' : RmSt} {i : Nat} (h : rmCross st i = some st') : ∀ c ∈ st'.cur, c ∈ st.cur := by
  unfold rmCross at h
  split at h
  · split at h <;> cases h
    · intro c hc; exact List.mem_of_mem_filter hc
    · exact fun c hc => hc
  · cases h

theorem foldlM_rmCross_cur (l : List Nat) : ∀ {st st' : RmSt}, l.foldlM rmCross st = some st' → ∀ c ∈ st'.cur, c ∈ st.cur := by
  induction l with
  | nil => intro st st' h; cases h; exact fun c hc => hc
  | cons i l ih =>
    intro st st' h
    simp only [List.foldlM_cons, Option.bind_eq_bind, Option.bind_eq_some_iff] at h
    obtain ⟨st1, h1, h2⟩ := h
    exact fun c hc => rmCross_cur h1 c (ih h2 c hc)

theorem rmVisit_cur (ces : List (Nat × CrossEdge)) (vs : List VId) : ∀ {st st' : RmSt}, rmVisit ces st vs = some st' → ∀ c ∈ st'.cur, c ∈ st.cur := by
  induction vs with
  | nil => intro st st' h; cases h; exact fun c hc => hc
  | cons v vs ih =>
    intro st st' h
    simp only [rmVisit] at h
    cases h1 : (incident ces v).foldlM rmCross st with
    | none => rw [h1] at h; cases h
    | some st1 =>
      rw [h1] at h
      exact fun c hc => foldlM_rmCross_cur _ h1 c (ih h c hc)

theorem number_mem {α : Type} (l : List α) : ∀ {n : Nat} {x : Nat × α}, x ∈ number n l → x.2 ∈ l := by
  induction l with
  | nil => intro n x hx; cases hx
  | cons a l ih =>
    intro n x hx
    rcases List.mem_cons.1 hx with rfl | hx
    · simp
    · simp [ih hx]

theorem visitBfs_state (w : TreeView) (n : Nat) : ∀ q, (∀ s, (w.visitBfs n q).st? = some s → s = w) := by
  induction n with
  | zero =>
    intro q s h
    cases q with
    | nil => simp only [visitBfs] at h; cases h; rfl
    | cons v q => simp only [visitBfs] at h; cases h
  | succ n ih =>
    intro q s h
    cases q with
    | nil => simp only [visitBfs] at h; cases h; rfl
    | cons v q =>
      simp only [visitBfs] at h
      cases hv : w.tree.get v with
      | none => rw [hv] at h; cases h; rfl
      | some r =>
        rw [hv] at h
        simp only at h
        have := ih (q ++ r.children)
        generalize w.visitBfs n (q ++ r.children) = z at h this
        cases z with
        | ok l s' => cases h; rfl
        | throw e s' => cases h; exact this _ rfl
        | ub m => cases h

theorem In.removeEdge {w w' : TreeView} (h : In P Q w) {o t : VId} (hw : (w.removeEdge o t).st? = some w') : In P Q w' := by
  unfold TreeView.removeEdge at hw
  simp only at hw
  split at hw
  · cases hw
  · rename_i rt _
    have hs := visitBfs_state w (w.tree.length + 1) [rt]
    split at hw
    · cases hw
    · split at hw
      · cases hw
      · rename_i st hst
        cases hw
        refine ⟨h.tree, fun c hc => ?_, h.root, h.nodup⟩
        obtain ⟨x, hx, rfl⟩ := List.mem_map.1 hc
        exact h.cross _ (number_mem _ (rmVisit_cur _ _ hst x hx))
    · rename_i calls s1 h1
      split at hw
      · cases hw
      · rename_i st hst
        have h2 : In P Q { w with crossEdges := st.cur.map (·.2) } := by
          refine ⟨h.tree, fun c hc => ?_, h.root, h.nodup⟩
          obtain ⟨x, hx, rfl⟩ := List.mem_map.1 hc
          exact h.cross _ (number_mem _ (rmVisit_cur _ _ hst x hx))
        split at hw
        · cases hw
        · rename_i e s2 h3
          cases hw
          exact h2.rmVerts _ (by rw [h3]; rfl)
        · rename_i w2 h3
          have h4 := h2.rmVerts _ (by rw [h3]; rfl)
          split at hw <;> cases hw <;> exact h4

end TreeView

/-! ### The search reports only arcs of the graph -/

theorem bfsArc_evs {R : BfsEv → Prop} {s : BfsSt} {a : Arc} (ha : R (.treeEdge a) ∧ R (.grayTarget a)) (hd : ∀ v, R (.discover v))
    (hb : ∀ a, R (.blackTarget a)) (h : ∀ ev ∈ s.evs, R ev) : ∀ ev ∈ (bfsArc s a).evs, R ev := by
  unfold bfsArc
  intro ev hev
  split at hev
  · simp only [List.mem_append, List.mem_cons, List.not_mem_nil, or_false] at hev
    rcases hev with h1 | rfl | rfl
    · exact h ev h1
    · exact ha.1
    · exact hd _
  · simp only [List.mem_append, List.mem_cons, List.not_mem_nil, or_false] at hev
    rcases hev with h1 | rfl
    · exact h ev h1
    · exact ha.2
  · simp only [List.mem_append, List.mem_cons, List.not_mem_nil, or_false] at hev
    rcases hev with h1 | rfl
    · exact h ev h1
    · exact hb _

theorem bfsLoop_evs {R : BfsEv → Prop} {out : VId → List Arc} (ha : ∀ u, ∀ a ∈ out u, R (.treeEdge a) ∧ R (.grayTarget a))
    (hd : ∀ v, R (.discover v)) (hb : ∀ a, R (.blackTarget a)) (n : Nat) : ∀ {s s' : BfsSt}, (∀ ev ∈ s.evs, R ev) →
    bfsLoop out n s = some s' → ∀ ev ∈ s'.evs, R ev := by
  have scan : ∀ (as : List Arc) (s : BfsSt), (∀ a ∈ as, R (.treeEdge a) ∧ R (.grayTarget a)) → (∀ ev ∈ s.evs, R ev) →
      ∀ ev ∈ (bfsScan s as).evs, R ev := by
    intro as
    induction as with
    | nil => intro s _ h; exact h
    | cons a as ih =>
      intro s h1 h2
      simp only [bfsScan, List.foldl_cons]
      exact ih _ (fun x hx => h1 x (by simp [hx])) (bfsArc_evs (h1 a (by simp)) hd hb h2)
  induction n with
  | zero =>
    intro s s' h hs
    rw [bfsLoop.eq_def] at hs
    cases hq : s.queue with
    | nil => simp only [hq] at hs; cases hs; exact h
    | cons u q => simp only [hq] at hs; cases hs
  | succ n ih =>
    intro s s' h hs
    rw [bfsLoop.eq_def] at hs
    cases hq : s.queue with
    | nil => simp only [hq] at hs; cases hs; exact h
    | cons u q =>
      simp only [hq] at hs
      refine ih ?_ hs
      exact scan (out u) { s with queue := q } (ha u) h

namespace GS
open TreeView

/-- the graph's own vertices and edges -/
def gIn (P : VId → Prop) (Q : EId → Prop) (g : G F E) : Prop := ∀ e ∈ g.edges, P e.src ∧ P e.tgt ∧ Q e.id

theorem bfs_in {P : VId → Prop} {Q : EId → Prop} {out : VId → List Arc} (h : ∀ u, ∀ a ∈ out u, P a.src ∧ P a.tgt ∧ Q a.id) {n : Nat}
    {r : VId} {evs : List BfsEv} (hb : bfs out n r = some evs) : ∀ ev ∈ evs, evIn P Q ev := by
  unfold bfs at hb
  cases h1 : bfsLoop out n (bfsInit r) with
  | none => rw [h1] at hb; cases hb
  | some s =>
    rw [h1] at hb; cases hb
    exact bfsLoop_evs (fun u a ha => ⟨h u a ha, h u a ha⟩) (fun _ => trivial) (fun _ => trivial) n (by simp [bfsInit, evIn]) h1

theorem outArcs_in {P : VId → Prop} {Q : EId → Prop} {g : G F E} (h : gIn P Q g) (u : VId) : ∀ a ∈ g.outArcs u, P a.src ∧ P a.tgt ∧ Q a.id := by
  intro a ha
  obtain ⟨e, he, rfl⟩ := List.mem_map.1 ha
  exact h e (List.mem_of_mem_filter he)

theorem addEdgeToTreeView_in {P : VId → Prop} {Q : EId → Prop} {g : G F E} (h : gIn P Q g) {e : ERec E} (he : e ∈ g.edges) {w w' : TreeView}
    (hw : In P Q w) (hr : (addEdgeToTreeView g e w).st? = some w') : In P Q w' := by
  have att : ∀ a b, P a → P b → (addEdgeToTreeView.attach g w a b).st? = some w' → In P Q w' := by
    intro a b ha hb hr
    have h1 := hw.addEdge ha hb
    unfold addEdgeToTreeView.attach at hr
    simp only at hr
    split at hr
    · split at hr
      · split at hr
        · cases hr
        · rename_i evs hevs
          cases hr
          refine In.build _ h1 (bfs_in (fun u a ha => ?_) hevs)
          exact outArcs_in h u a (List.mem_of_mem_filter ha)
      · cases hr; exact h1
    · cases hr; exact h1
  obtain ⟨h1, h2, h3⟩ := h e he
  unfold addEdgeToTreeView at hr
  simp only at hr
  split at hr
  · split at hr
    · cases hr
    · cases hr; exact hw
    · cases hr; exact hw.addCrossEdge h1 h2 h3
  · split at hr
    · exact att _ _ h1 h2 hr
    · split at hr
      · exact att _ _ h2 h1 hr
      · cases hr; exact hw

/-- all view objects -/
def VIn (P : VId → Prop) (Q : EId → Prop) (vs : Nat → TreeView) : Prop := ∀ p, In P Q (vs p)

theorem VIn.set {P : VId → Prop} {Q : EId → Prop} {vs : Nat → TreeView} (h : VIn P Q vs) (p : Nat) {w : TreeView} (hw : In P Q w) :
    VIn P Q (setView vs p w) := by
  intro q; unfold setView; split
  · exact hw
  · exact h q

theorem addEdgeToTreeViews_in {P : VId → Prop} {Q : EId → Prop} {g : G F E} (h : gIn P Q g) {e : ERec E} (he : e ∈ g.edges) (ps : List Nat) :
    ∀ {vs vs' : Nat → TreeView}, VIn P Q vs → (addEdgeToTreeViews g e ps vs).st? = some vs' → VIn P Q vs' := by
  induction ps with
  | nil => intro vs vs' hv hr; cases hr; exact hv
  | cons p ps ih =>
    intro vs vs' hv hr
    simp only [addEdgeToTreeViews] at hr
    have := fun w' => addEdgeToTreeView_in h he (hv p) (w' := w')
    generalize addEdgeToTreeView g e (vs p) = r at hr this
    cases r with
    | ok _ w => exact ih (hv.set p (this w rfl)) hr
    | throw x w => cases hr; exact hv.set p (this w rfl)
    | ub m => cases hr

theorem removeEdgeFromTreeViews_in {P : VId → Prop} {Q : EId → Prop} (o t : VId) (ps : List Nat) :
    ∀ {vs vs' : Nat → TreeView}, VIn P Q vs → (removeEdgeFromTreeViews o t ps vs).st? = some vs' → VIn P Q vs' := by
  induction ps with
  | nil => intro vs vs' hv hr; cases hr; exact hv
  | cons p ps ih =>
    intro vs vs' hv hr
    simp only [removeEdgeFromTreeViews] at hr
    split at hr
    · cases hr
    · exact ih hv hr
    · have := fun w' => (hv p).removeEdge (o := o) (t := t) (w' := w')
      generalize (vs p).removeEdge o t = r at hr this
      cases r with
      | ok _ w => exact ih (hv.set p (this w rfl)) hr
      | throw x w => cases hr; exact hv.set p (this w rfl)
      | ub m => cases hr

/-- the view objects mention only what was created -/
def Below (s : GS F E) : Prop := VIn (fun x : VId => (x : Nat) < s.g.nextV) (fun e : EId => (e : Nat) < s.g.nextE) s.views

theorem Below.of {s s' : GS F E} (h : Below s) (hv : s'.views = s.views) (h1 : s.g.nextV ≤ s'.g.nextV) (h2 : s.g.nextE ≤ s'.g.nextE) : Below s' := by
  intro p
  rw [hv]
  exact (h p).mono (fun x hx => Nat.lt_of_lt_of_le hx h1) (fun x hx => Nat.lt_of_lt_of_le hx h2)

theorem WF.gIn {g : G F E} (hw : WF g) : gIn (fun x : VId => (x : Nat) < g.nextV) (fun e : EId => (e : Nat) < g.nextE) g := by
  intro e he
  obtain ⟨r, hr, h1⟩ := hw.esrc e he
  obtain ⟨r', hr', h2⟩ := hw.etgt e he
  exact ⟨h1 ▸ hw.vlt r hr, h2 ▸ hw.vlt r' hr', hw.elt e he⟩

theorem init_below : Below (init : GS F E) := fun _ => ⟨fun x hx => (by cases hx), fun c hc => (by cases hc), fun x hx => (by cases hx), .nil⟩

theorem addVertexN_below {f : FrameId} {p : F} {s : GS F E} (h : Below s) : Below (addVertexN f p s).1 := by
  refine h.of rfl ?_ ?_
  · simp only [addVertexN, GS.notify, G.addVertex]; split
    · exact Nat.le_refl _
    · exact Nat.le_succ _
  · simp only [addVertexN, GS.notify, G.addVertex]; split <;> exact Nat.le_refl _

theorem orCreate_below {f : FrameId} {v : Option VId} {s : GS F E} (h : Below s) : Below (orCreate f v s).1 := by
  unfold orCreate; split
  · exact addVertexN_below h
  · exact h

theorem addEdgeD_below {o t : VId} {p : E} {s s' : GS F E} (hw : WF s.g) (h : Below s) (hr : (addEdgeD o t p s).st? = some s') : Below s' := by
  unfold addEdgeD at hr
  split at hr
  · rename_i ro rt h1 h2
    split at hr
    · cases hr; exact h
    · simp only at hr
      have hg : GS.gIn (fun x : VId => (x : Nat) < ((s.g.addEdge o t p).1.addEdge t o (EdgeProp.inverse p)).1.nextV)
          (fun e : EId => (e : Nat) < ((s.g.addEdge o t p).1.addEdge t o (EdgeProp.inverse p)).1.nextE)
          ((s.g.addEdge o t p).1.addEdge t o (EdgeProp.inverse p)).1 := by
        have m1 := hw.vlt _ (G.findV_some h1).1
        have m2 := hw.vlt _ (G.findV_some h2).1
        rw [(G.findV_some h1).2] at m1
        rw [(G.findV_some h2).2] at m2
        intro e he
        simp only [G.addEdge, List.mem_append, List.mem_singleton] at he ⊢
        rcases he with (he | rfl) | rfl
        · obtain ⟨k1, k2, k3⟩ := WF.gIn hw e he
          exact ⟨k1, k2, Nat.lt_succ_of_lt (Nat.lt_succ_of_lt k3)⟩
        · exact ⟨m1, m2, Nat.lt_succ_of_lt (Nat.lt_succ_self _)⟩
        · exact ⟨m2, m1, Nat.lt_succ_self _⟩
      have hv : VIn (fun x : VId => (x : Nat) < ((s.g.addEdge o t p).1.addEdge t o (EdgeProp.inverse p)).1.nextV)
          (fun e : EId => (e : Nat) < ((s.g.addEdge o t p).1.addEdge t o (EdgeProp.inverse p)).1.nextE) s.views := by
        intro q
        exact (h q).mono (fun x hx => hx) (fun x hx => Nat.lt_succ_of_lt (Nat.lt_succ_of_lt hx))
      have := fun vs' => addEdgeToTreeViews_in hg (e := (s.g.addEdge o t p).2) (by simp [G.addEdge]) s.subs (vs' := vs') hv
      split at hr
      · rename_i vs hvs
        cases hr
        exact this vs (by rw [hvs]; rfl)
      · rename_i x vs hvs
        cases hr
        exact this vs (by rw [hvs]; rfl)
      · cases hr
  · cases hr

theorem removeEdge_next {g g' : G F E} {e : EId} (h : g.removeEdge e = some g') : g'.nextV = g.nextV ∧ g'.nextE = g.nextE := by
  unfold G.removeEdge at h
  split at h <;> cases h
  exact ⟨rfl, rfl⟩

theorem removeEdgeBoth_below {o t : FrameId} {vo vt : VId} {s s' : GS F E} (h : Below s) (hr : (removeEdgeBoth o t vo vt s).st? = some s') :
    Below s' := by
  unfold removeEdgeBoth at hr
  split at hr
  · split at hr
    · cases hr
    · rename_i g1 hg1
      split at hr
      · cases hr
      · rename_i g2 hg2
        simp only [GS.notify] at hr
        have := fun vs' => removeEdgeFromTreeViews_in vo vt s.subs (vs' := vs') h
        have n1 := removeEdge_next hg1
        have n2 := removeEdge_next hg2
        split at hr
        · rename_i vs hvs
          cases hr
          have := this vs (by rw [hvs]; rfl)
          simp only [Below, n2.1, n2.2, n1.1, n1.2]; exact this
        · rename_i x vs hvs
          cases hr
          have := this vs (by rw [hvs]; rfl)
          simp only [Below, n2.1, n2.2, n1.1, n1.2]; exact this
        · cases hr
  · cases hr; exact h

theorem removeEdgeD_below {vo vt : VId} {s s' : GS F E} (h : Below s) (hr : (removeEdgeD vo vt s).st? = some s') : Below s' := by
  unfold removeEdgeD at hr
  split at hr
  · exact removeEdgeBoth_below h hr
  · cases hr

theorem disconnectLoop_below (v : VId) (n : Nat) : ∀ {s s' : GS F E}, Below s → (disconnectLoop v n s).st? = some s' → Below s' := by
  induction n with
  | zero =>
    intro s s' h hr
    rw [disconnectLoop.eq_def] at hr
    simp only at hr
    split at hr
    · cases hr; exact h
    · cases hr
  | succ n ih =>
    intro s s' h hr
    rw [disconnectLoop.eq_def] at hr
    simp only at hr
    split at hr
    · cases hr; exact h
    · rename_i e l _
      have := fun s' => removeEdgeD_below (vo := v) (vt := e.tgt) (s' := s') h
      generalize removeEdgeD v e.tgt s = r at hr this
      cases r with
      | ok _ s1 => exact ih (this _ rfl) hr
      | throw x s1 => cases hr; exact this _ rfl
      | ub m => cases hr

theorem exec_below {c : Cmd F E} {s s' : GS F E} (hw : WF s.g) (h : Below s) (hr : (exec c s).st? = some s') : Below s' := by
  cases c with
  | addFrame f =>
    simp only [exec, addFrame] at hr
    split at hr
    · cases hr; exact addVertexN_below h
    · cases hr; exact h
  | emplaceFrame f p =>
    simp only [exec, emplaceFrame] at hr
    split at hr
    · cases hr; exact addVertexN_below h
    · cases hr; exact h
  | removeFrame f =>
    simp only [exec, removeFrame] at hr
    split at hr
    · cases hr; exact h
    · split at hr
      · cases hr; exact h
      · cases hr; exact h.of rfl (Nat.le_refl _) (Nat.le_refl _)
  | disconnectFrame f =>
    simp only [exec, disconnectFrame] at hr
    split at hr
    · cases hr; exact h
    · exact disconnectLoop_below _ _ h hr
  | addEdge o t p =>
    simp only [exec, GS.addEdge] at hr
    have w1 : WF (orCreate o (s.g.vertexOf o) s).1.g := by
      unfold orCreate; split
      · exact hw.addVertex (FrameProp.getId_setId _ _)
      · exact hw
    have w2 : WF (orCreate t (s.g.vertexOf t) (orCreate o (s.g.vertexOf o) s).1).1.g := by
      generalize orCreate o (s.g.vertexOf o) s = z at w1
      unfold orCreate; split
      · exact w1.addVertex (FrameProp.getId_setId _ _)
      · exact w1
    exact addEdgeD_below w2 (orCreate_below (orCreate_below h)) hr
  | removeEdge o t =>
    simp only [exec, GS.removeEdge] at hr
    split at hr
    · cases hr; exact h
    · split at hr
      · cases hr; exact h
      · exact removeEdgeBoth_below h hr
  | setEdge o t p =>
    simp only [exec, setEdgeProperty] at hr
    split at hr
    · cases hr; exact h
    · split at hr
      · cases hr; exact h
      · split at hr
        · cases hr; exact h
        · split at hr
          · cases hr
          · cases hr; exact h.of rfl (Nat.le_refl _) (Nat.le_refl _)
  | getTree f k p =>
    simp only [exec, getTree] at hr
    split at hr
    · cases hr; exact h
    · rename_i v hv
      have hv' : (v : Nat) < s.g.nextV := by
        obtain ⟨r, hr, h1⟩ := hw.live hv
        exact h1 ▸ hw.vlt r hr
      simp only [getTreeInto] at hr
      cases hev : searchEvents s.g v with
      | none => rw [hev] at hr; cases hr
      | some evs =>
        rw [hev] at hr
        simp only at hr
        have h1 : VIn _ _ (setView s.views p (((s.views p).addRoot v).build evs)) :=
          VIn.set h p (In.build evs ((h p).addRoot hv') (bfs_in (fun u => outArcs_in (WF.gIn hw) u) hev))
        split at hr
        · unfold subscribeTreeView at hr
          split at hr
          · cases hr
          · cases hr
            have h2 := h1 p
            exact VIn.set h1 p ⟨h2.tree, h2.cross, h2.root, h2.nodup⟩
        · cases hr; exact h1
  | unsubscribeView p =>
    simp only [exec, unsubscribeView] at hr
    cases hr
    split
    · have h2 := h p
      exact VIn.set h p ⟨h2.tree, h2.cross, h2.root, h2.nodup⟩
    · exact h

end GS
end Verif
