import Verif.Lemmas.Steps
import Verif.Model.Reenter
set_option linter.unusedSectionVars false
set_option linter.unusedSimpArgs false
/-! Lemmas about event handlers that call the graph. -/

namespace Verif
variable {F E : Type} [FrameProp F] [EdgeProp E]

/-- change the state in an outcome -/
def Res.mapSt {σ α : Type} (f : σ → σ) : Res σ α → Res σ α
  | .ok a s => .ok a (f s)
  | .throw x s => .throw x (f s)
  | .ub r => .ub r

namespace GS

/-- the same state after more events -/
def under (tr : List (Event × G F E)) (s : GS F E) : GS F E := { s with trace := tr ++ s.trace }

theorem notify_under (tr : List (Event × G F E)) (ev : Event) (s : GS F E) : notify ev (under tr s) = under tr (notify ev s) := by
  simp [notify, under]

theorem addVertexN_under (tr : List (Event × G F E)) (f : FrameId) (p : F) (s : GS F E) :
    addVertexN f p (under tr s) = (under tr (addVertexN f p s).1, (addVertexN f p s).2) := by
  simp [addVertexN, notify, under]

theorem addEdgeD_under (tr : List (Event × G F E)) (o t : VId) (p : E) (s : GS F E) :
    addEdgeD o t p (under tr s) = (addEdgeD o t p s).mapSt (under tr) := by
  have h1 : (under tr s).g = s.g := rfl
  have h2 : (under tr s).subs = s.subs := rfl
  have h3 : (under tr s).views = s.views := rfl
  simp only [addEdgeD, h1, h2, h3]
  cases s.g.findV o with
  | none => rfl
  | some ro =>
    cases s.g.findV t with
    | none => rfl
    | some rt =>
      simp only
      cases s.g.edge o t with
      | some _ => rfl
      | none =>
        simp only
        cases addEdgeToTreeViews ((s.g.addEdge o t p).1.addEdge t o (EdgeProp.inverse p)).1 (s.g.addEdge o t p).2 s.subs s.views with
        | ok a vs => simp [Res.mapSt, notify, under]
        | throw x vs => rfl
        | ub r => rfl

theorem orCreate_under (tr : List (Event × G F E)) (f : FrameId) (v : Option VId) (s : GS F E) :
    orCreate f v (under tr s) = (under tr (orCreate f v s).1, (orCreate f v s).2) := by
  cases v with
  | none => exact addVertexN_under tr f _ s
  | some v => rfl

theorem removeEdgeBoth_under (tr : List (Event × G F E)) (o t : FrameId) (vo vt : VId) (s : GS F E) :
    removeEdgeBoth o t vo vt (under tr s) = (removeEdgeBoth o t vo vt s).mapSt (under tr) := by
  simp only [removeEdgeBoth]
  change (match s.g.edge vo vt, s.g.edge vt vo with | some e1, some e2 => _ | _, _ => _) = _
  cases s.g.edge vo vt with
  | none => rfl
  | some e1 =>
    cases s.g.edge vt vo with
    | none => rfl
    | some e2 =>
      simp only
      change (match s.g.removeEdge e1.id with | none => _ | some g1 => _) = _
      cases s.g.removeEdge e1.id with
      | none => rfl
      | some g1 =>
        simp only
        cases g1.removeEdge e2.id with
        | none => rfl
        | some g2 =>
          simp only [notify, under]
          cases removeEdgeFromTreeViews vo vt s.subs s.views <;> simp [Res.mapSt, under]

theorem removeEdgeD_under (tr : List (Event × G F E)) (vo vt : VId) (s : GS F E) :
    removeEdgeD vo vt (under tr s) = (removeEdgeD vo vt s).mapSt (under tr) := by
  simp only [removeEdgeD]
  change (match s.g.findV vo, s.g.findV vt with | some ro, some rt => _ | _, _ => _) = _
  cases s.g.findV vo with
  | none => rfl
  | some ro =>
    cases s.g.findV vt with
    | none => rfl
    | some rt => exact removeEdgeBoth_under tr _ _ vo vt s

theorem disconnectLoop_under (tr : List (Event × G F E)) (v : VId) : ∀ (n : Nat) (s : GS F E),
    disconnectLoop v n (under tr s) = (disconnectLoop v n s).mapSt (under tr) := by
  intro n
  induction n with
  | zero =>
    intro s
    rw [disconnectLoop.eq_def, disconnectLoop.eq_def]
    simp only
    change (match s.g.outEdges v with | [] => _ | e :: _ => _) = _
    cases s.g.outEdges v <;> rfl
  | succ n ih =>
    intro s
    rw [disconnectLoop.eq_def, disconnectLoop.eq_def]
    simp only
    change (match s.g.outEdges v with | [] => _ | e :: _ => _) = _
    cases s.g.outEdges v with
    | nil => rfl
    | cons e _ =>
      simp only
      rw [removeEdgeD_under]
      cases removeEdgeD v e.tgt s with
      | ok a s1 => exact ih s1
      | throw x s1 => rfl
      | ub r => rfl

theorem exec_under (tr : List (Event × G F E)) (c : Cmd F E) (s : GS F E) :
    exec c (under tr s) = (exec c s).mapSt (under tr) := by
  cases c with
  | addFrame f =>
    simp only [exec, addFrame]
    change discard (match s.g.vertexOf f with | none => _ | some _ => _) = _
    cases s.g.vertexOf f with
    | none => simp only [addVertexN_under]; rfl
    | some v => rfl
  | emplaceFrame f p =>
    simp only [exec, emplaceFrame]
    change discard (match s.g.vertexOf f with | none => _ | some _ => _) = _
    cases s.g.vertexOf f with
    | none => simp only [addVertexN_under]; rfl
    | some v => rfl
  | removeFrame f =>
    simp only [exec, removeFrame]
    change (match s.g.vertexOf f with | none => _ | some v => _) = _
    cases s.g.vertexOf f with
    | none => rfl
    | some v =>
      simp only
      change (if s.g.degree v > 0 then _ else _) = _
      split
      · rfl
      · simp [Res.mapSt, notify, under]
  | disconnectFrame f =>
    simp only [exec, disconnectFrame]
    change (match s.g.vertexOf f with | none => _ | some v => _) = _
    cases s.g.vertexOf f with
    | none => rfl
    | some v => exact disconnectLoop_under tr v _ s
  | addEdge o t p =>
    simp only [exec, addEdge]
    have h1 : (under tr s).g = s.g := rfl
    rw [h1, orCreate_under, orCreate_under, addEdgeD_under]
  | removeEdge o t =>
    simp only [exec, removeEdge]
    change (match s.g.vertexOf o with | none => _ | some vo => _) = _
    cases s.g.vertexOf o with
    | none => rfl
    | some vo =>
      simp only
      change (match s.g.vertexOf t with | none => _ | some vo => _) = _
      cases s.g.vertexOf t with
      | none => rfl
      | some vt => exact removeEdgeBoth_under tr o t vo vt s
  | setEdge o t p =>
    simp only [exec, setEdgeProperty]
    change (match s.g.vertexOf o with | none => _ | some vo => _) = _
    cases s.g.vertexOf o with
    | none => rfl
    | some vo =>
      simp only
      change (match s.g.vertexOf t with | none => _ | some vo => _) = _
      cases s.g.vertexOf t with
      | none => rfl
      | some vt =>
        simp only
        change (match s.g.edge vo vt with | none => _ | some e1 => _) = _
        cases s.g.edge vo vt with
        | none => rfl
        | some e1 =>
          simp only
          change (match (s.g.setProp e1.id p).edge vt vo with | none => _ | some e1 => _) = _
          cases (s.g.setProp e1.id p).edge vt vo with
          | none => rfl
          | some e2 => simp [Res.mapSt, notify, under]
  | getTree f k v =>
    simp only [exec, getTree]
    change (match s.g.vertexOf f with | none => _ | some vo => _) = _
    cases s.g.vertexOf f with
    | none => rfl
    | some u =>
      simp only
      change (match getTreeInto s.g u (s.views v) with | .ub r => _ | .throw x w => _ | .ok _ w => _) = _
      cases getTreeInto s.g u (s.views v) with
      | ub r => rfl
      | throw x w => rfl
      | ok a w =>
        cases k with
        | false => rfl
        | true =>
          simp only [if_true, subscribeTreeView]
          change (if (setView s.views v w v).publisher then _ else _) = _
          split <;> rfl
  | unsubscribeView v =>
    simp only [exec, unsubscribeView, Res.mapSt]
    change Res.ok () (if (s.views v).publisher then _ else _) = _
    split <;> rfl

theorem run_under (tr : List (Event × G F E)) (cs : List (Cmd F E)) : ∀ (s : GS F E),
    run cs (under tr s) = (run cs s).map (under tr) := by
  induction cs with
  | nil => intro s; rfl
  | cons c cs ih =>
    intro s
    simp only [run]
    rw [exec_under]
    cases exec c s with
    | ok a s1 => exact ih s1
    | throw x s1 => exact ih s1
    | ub r => rfl

theorem run_append_some {cs ds : List (Cmd F E)} : ∀ {s t u : GS F E}, run cs s = some t → run ds t = some u →
    run (cs ++ ds) s = some u := by
  induction cs with
  | nil => intro s t u h1 h2; simp only [run, Option.some.injEq] at h1; subst h1; exact h2
  | cons c cs ih =>
    intro s t u h1 h2
    simp only [List.cons_append, run] at h1 ⊢
    cases hx : exec c s with
    | ok a s1 => rw [hx] at h1; exact ih h1 h2
    | throw x s1 => rw [hx] at h1; exact ih h1 h2
    | ub r => rw [hx] at h1; cases h1

/-- is it the announcement of a new frame -/
def isAnnounce : Event → Bool
  | .frameAdded _ => true
  | _ => false

/-- the first history of events is the second one with further announcements of frames -/
structure TraceLike (l m : List (Event × G F E)) : Prop where
  sub : m.Sublist l
  rest : l.filter (fun x => !isAnnounce x.1) = m.filter (fun x => !isAnnounce x.1)

theorem TraceLike.refl (l : List (Event × G F E)) : TraceLike l l := ⟨List.Sublist.refl l, rfl⟩

theorem TraceLike.trans {a b c : List (Event × G F E)} (h : TraceLike a b) (k : TraceLike b c) : TraceLike a c :=
  ⟨k.sub.trans h.sub, h.rest.trans k.rest⟩

theorem TraceLike.append {a b : List (Event × G F E)} (h : TraceLike a b) (u : List (Event × G F E)) :
    TraceLike (a ++ u) (b ++ u) :=
  ⟨h.sub.append_right u, by rw [List.filter_append, List.filter_append, h.rest]⟩

/-- the same graph, subscribed views and view objects; the first has seen the events of the second and possibly further
announcements of frames -/
structure AlikeTrace (s t : GS F E) : Prop where
  g : s.g = t.g
  subs : s.subs = t.subs
  views : s.views = t.views
  trace : TraceLike s.trace t.trace

theorem AlikeTrace.refl (s : GS F E) : AlikeTrace s s := ⟨rfl, rfl, rfl, .refl _⟩

/-- the state `s'` could have been reached from `s` by calls one after the other -/
def Lin (s s' : GS F E) : Prop := ∃ cs t, run cs s = some t ∧ AlikeTrace s' t

theorem Lin.refl (s : GS F E) : Lin s s := ⟨[], s, rfl, .refl s⟩

theorem Lin.trans {a b c : GS F E} (h : Lin a b) (k : Lin b c) : Lin a c := by
  obtain ⟨cs, t, h1, h2⟩ := h
  obtain ⟨ds, u, k1, k2⟩ := k
  have hb : b = under b.trace { b with trace := [] } := by simp [under]
  have ht : t = under t.trace { b with trace := [] } := by
    obtain ⟨tg, ts, tv, tt⟩ := t
    obtain ⟨bg, bs, bv, bt⟩ := b
    obtain ⟨rfl, rfl, rfl, -⟩ := h2
    simp [under]
  rw [hb, run_under] at k1
  obtain ⟨w, hw, rfl⟩ := Option.map_eq_some_iff.1 k1
  refine ⟨cs ++ ds, under t.trace w, run_append_some h1 ?_, ?_⟩
  · rw [ht, run_under]; rw [hw]; simp [under]
  · refine ⟨k2.g, k2.subs, k2.views, k2.trace.trans ?_⟩
    exact h2.trace.append w.trace

theorem Lin.of_exec {c : Cmd F E} {s s' : GS F E} (h : (exec c s).st? = some s') : Lin s s' := by
  refine ⟨[c], s', ?_, .refl s'⟩
  simp only [run]
  cases hx : exec c s with
  | ok a s1 => rw [hx] at h; simpa [Res.st?] using h
  | throw x s1 => rw [hx] at h; simpa [Res.st?] using h
  | ub r => rw [hx] at h; cases h

theorem Lin.wf {s s' : GS F E} (h : Lin s s') (hw : WF s.g) : WF s'.g := by
  obtain ⟨cs, t, h1, h2⟩ := h
  rw [h2.g]; exact run_wf hw h1

end GS

/-- the descriptor has been given out, and if it is in use, then with this name -/
def VNamed (g : G F E) (v : VId) (f : FrameId) : Prop :=
  v < g.nextV ∧ ∀ r ∈ g.verts, r.id = v → FrameProp.getId r.prop = f

theorem GStep.named {g g' : G F E} {x : Event × G F E} (hs : GStep g x g') {v : VId} {f : FrameId} (h : VNamed g v f) :
    VNamed g' v f := by
  cases hs with
  | addV hn hp =>
    obtain ⟨h1, h2⟩ := h
    have hn' : AMap.get g.labels _ = none := hn
    simp only [G.addVertex, hn']
    refine ⟨Nat.lt_succ_of_lt h1, ?_⟩
    intro r hr he
    rcases List.mem_append.1 hr with hr | hr
    · exact h2 r hr he
    · simp at hr; subst hr; simp at he; subst he; exact absurd h1 (Nat.lt_irrefl _)
  | dupV => exact h
  | addE ha hb hn => exact h
  | rmE ha hb h1 h2 hg1 hg2 =>
    simp only [G.removeEdge] at hg1 hg2
    split at hg1
    · cases hg1
      split at hg2
      · cases hg2; exact h
      · cases hg2
    · cases hg1
  | setP ha hb h1 h2 => exact h
  | rmV hv hd => exact ⟨h.1, fun r hr he => h.2 r (List.mem_filter.1 hr).1 he⟩

theorem GSteps.named {P : G F E → Event → Prop} {g g' : G F E} {l : List (Event × G F E)} (hs : GSteps P g l g') {v : VId}
    {f : FrameId} (h : VNamed g v f) : VNamed g' v f := by
  induction hs with
  | nil => exact h
  | cons hs _ _ ih => exact ih (hs.named h)

theorem WF.named {g : G F E} (hw : WF g) {f : FrameId} {v : VId} (h : g.vertexOf f = some v) : VNamed g v f := by
  obtain ⟨r, hr, h1, h2⟩ := hw.vertexOf_iff.1 h
  refine ⟨h1 ▸ hw.vlt r hr, fun r' hr' he => ?_⟩
  rw [map_inj_of_nodup hw.vnodup hr' hr (by rw [he, h1]), h2]

theorem VNamed.vertexOf {g : G F E} {v : VId} {f : FrameId} (h : VNamed g v f) (hw : WF g) {r : VRec F} (hr : g.findV v = some r) :
    g.vertexOf f = some v := by
  have hm := List.mem_of_find?_eq_some hr
  have hi : r.id = v := by simpa using List.find?_some hr
  exact hw.vertexOf_iff.2 ⟨r, hm, hi, h.2 r hm hi⟩

namespace GS

theorem Lin.named {s s' : GS F E} (h : Lin s s') (hw : WF s.g) {v : VId} {f : FrameId} (hn : VNamed s.g v f) :
    VNamed s'.g v f := by
  obtain ⟨cs, t, h1, h2⟩ := h
  obtain ⟨l, h3, -⟩ := run_advances hw h1
  rw [h2.g]; exact h3.named hn

/-- the handlers do not react to the removal of an edge -/
def QuietRemoval (nt : Notify F E) : Prop := ∀ o t s, nt (.edgeRemoved o t) s = .ok () (notify (.edgeRemoved o t) s)

theorem removeEdgeBothH_quiet {nt : Notify F E} (hq : QuietRemoval nt) (o t : FrameId) (vo vt : VId) (s : GS F E) :
    removeEdgeBothH nt o t vo vt s = removeEdgeBoth o t vo vt s := by
  simp only [removeEdgeBothH, removeEdgeBoth, hq o t]
  cases s.g.edge vo vt with
  | none => rfl
  | some e1 =>
    cases s.g.edge vt vo with
    | none => rfl
    | some e2 =>
      simp only
      cases s.g.removeEdge e1.id <;> rfl

theorem removeEdgeDH_quiet {nt : Notify F E} (hq : QuietRemoval nt) (vo vt : VId) (s : GS F E) :
    removeEdgeDH nt vo vt s = removeEdgeD vo vt s := by
  simp only [removeEdgeDH, removeEdgeD, removeEdgeBothH_quiet hq]
  rfl

theorem removeEdge_length {g g' : G F E} {e : EId} (h : g.removeEdge e = some g') :
    g'.edges.length < g.edges.length ∧ g'.verts = g.verts := by
  unfold G.removeEdge at h
  split at h
  · rename_i ha
    cases h
    obtain ⟨r, hr, he⟩ := List.any_eq_true.1 ha
    refine ⟨?_, rfl⟩
    simp only
    exact List.length_filter_lt_length_iff_exists.2 ⟨r, hr, by simpa using he⟩
  · cases h

theorem removeEdgeD_shrinks {vo vt : VId} {s s' : GS F E} {a : Unit} (h : removeEdgeD vo vt s = .ok a s') :
    s'.g.edges.length < s.g.edges.length ∧ s'.g.verts = s.g.verts := by
  simp only [removeEdgeD] at h
  split at h
  · simp only [removeEdgeBoth] at h
    split at h
    · split at h
      · cases h
      · rename_i g1 h1
        split at h
        · cases h
        · rename_i g2 h2
          split at h
          · cases h
            have a1 := removeEdge_length h1
            have a2 := removeEdge_length h2
            exact ⟨Nat.lt_trans a2.1 a1.1, a2.2.trans a1.2⟩
          · cases h
          · cases h
    · cases h
  · cases h

theorem disconnectLoopH_quiet {nt : Notify F E} (hq : QuietRemoval nt) (v : VId) (k : Nat) : ∀ (m : Nat) (s : GS F E),
    (s.g.findV v).isSome → s.g.edges.length ≤ m → disconnectLoopH nt v (m + k) s = disconnectLoop v m s := by
  intro m
  induction m with
  | zero =>
    intro s hv hm
    have : s.g.edges = [] := List.length_eq_zero_iff.1 (Nat.le_zero.1 hm)
    obtain ⟨r, hr⟩ := Option.isSome_iff_exists.1 hv
    rw [disconnectLoopH.eq_def, disconnectLoop.eq_def]
    simp [hr, G.outEdges, this]
  | succ m ih =>
    intro s hv hm
    obtain ⟨r, hr⟩ := Option.isSome_iff_exists.1 hv
    have e1 : m + 1 + k = (m + k) + 1 := by omega
    rw [e1, disconnectLoopH.eq_def, disconnectLoop.eq_def]
    simp only [hr]
    cases s.g.outEdges v with
    | nil => rfl
    | cons e _ =>
      simp only [removeEdgeDH_quiet hq]
      cases hx : removeEdgeD v e.tgt s with
      | ok a s1 =>
        obtain ⟨h1, h2⟩ := removeEdgeD_shrinks hx
        refine ih s1 ?_ (by omega)
        simp only [G.findV, h2]; exact hv
      | throw x s1 => rfl
      | ub w => rfl

theorem WF.findV_of {g : G F E} (hw : WF g) {f : FrameId} {v : VId} (h : g.vertexOf f = some v) : (g.findV v).isSome := by
  obtain ⟨r, hr, h1⟩ := hw.live h
  simp only [G.findV, List.find?_isSome]
  exact ⟨r, hr, by simpa using h1⟩

theorem disconnectFrameH_quiet {nt : Notify F E} (hq : QuietRemoval nt) (k : Nat) (f : FrameId) (s : GS F E) (hw : WF s.g) :
    disconnectFrameH nt k f s = disconnectFrame f s := by
  simp only [disconnectFrameH, disconnectFrame]
  cases hv : s.g.vertexOf f with
  | none => rfl
  | some v => exact disconnectLoopH_quiet hq v k _ s (WF.findV_of hw hv) (Nat.le_refl _)

/-- everything the handlers do could be done by calls one after the other -/
def LinNotify (nt : Notify F E) : Prop := ∀ ev s s', WF s.g → (nt ev s).st? = some s' → Lin (notify ev s) s'

theorem addVertexH_st? {nt : Notify F E} {f : FrameId} {p : F} {s : GS F E} :
    (addVertexH nt f p s).st? = (nt (.frameAdded f) { s with g := (s.g.addVertex f p).1 }).st? := by
  simp only [addVertexH]
  cases nt (.frameAdded f) { s with g := (s.g.addVertex f p).1 } <;> rfl

theorem addVertexH_ok {nt : Notify F E} {f : FrameId} {p : F} {s s' : GS F E} {v : VId} (h : addVertexH nt f p s = .ok v s') :
    v = (s.g.addVertex f p).2 := by
  simp only [addVertexH] at h
  split at h <;> cases h
  rfl

/-- the creation of a frame inside `add_edge`; the frame may be there already -/
theorem addVertexH_lin {nt : Notify F E} (hl : LinNotify nt) {f : FrameId} {s s' : GS F E} (hw : WF s.g)
    (h : (addVertexH nt f (FrameProp.setId f FrameProp.dflt) s).st? = some s') : Lin s s' := by
  rw [addVertexH_st?] at h
  cases hv : s.g.vertexOf f with
  | none =>
    have h1 : (exec (.addFrame f) s).st? =
        some (notify (.frameAdded f) { s with g := (s.g.addVertex f (FrameProp.setId f FrameProp.dflt)).1 }) := by
      simp [exec, addFrame, hv, discard, Res.st?, addVertexN]
    have l1 := Lin.of_exec h1
    exact l1.trans (hl _ _ _ (l1.wf hw) h)
  | some v =>
    have hg : s.g.addVertex f (FrameProp.setId f FrameProp.dflt) = (s.g, v) := by
      have hv' : s.g.labels.get f = some v := hv
      simp [G.addVertex, hv']
    rw [hg] at h
    have l1 : Lin s (notify (.frameAdded f) s) := by
      refine ⟨[], s, rfl, rfl, rfl, rfl, ?_⟩
      refine ⟨List.sublist_append_left _ _, ?_⟩
      simp [notify, isAnnounce]
    exact l1.trans (hl _ _ _ hw h)

theorem addVertexH_named {nt : Notify F E} (hl : LinNotify nt) {f : FrameId} {s s' : GS F E} (hw : WF s.g) {v : VId}
    (h : addVertexH nt f (FrameProp.setId f FrameProp.dflt) s = .ok v s') : VNamed s'.g v f := by
  have hv := addVertexH_ok h
  have hs : (addVertexH nt f (FrameProp.setId f FrameProp.dflt) s).st? = some s' := by rw [h]; rfl
  rw [addVertexH_st?] at hs
  have hw1 : WF (s.g.addVertex f (FrameProp.setId f FrameProp.dflt)).1 := hw.addVertex (FrameProp.getId_setId _ _)
  have l1 := hl _ _ _ hw1 hs
  refine l1.named (v := v) hw1 ?_
  apply WF.named hw1
  rw [hv]
  exact addVertexN_vertexOf (f := f) (p := FrameProp.setId f FrameProp.dflt) (s := s)

theorem orCreateH_lin {nt : Notify F E} (hl : LinNotify nt) {f : FrameId} {v : Option VId} {s s' : GS F E} (hw : WF s.g)
    (h : (orCreateH nt f v s).st? = some s') : Lin s s' := by
  cases v with
  | none => exact addVertexH_lin hl hw h
  | some v => simp only [orCreateH, Res.st?, Option.some.injEq] at h; subst h; exact .refl _

theorem addEdgeDH_lin {nt : Notify F E} (hl : LinNotify nt) {o t : FrameId} {vo vt : VId} {p : E} {s s' : GS F E} (hw : WF s.g)
    (ho : VNamed s.g vo o) (ht : VNamed s.g vt t) (h : (addEdgeDH nt vo vt p s).st? = some s') : Lin s s' := by
  simp only [addEdgeDH] at h
  split at h
  · rename_i ro rt h1 h2
    have ho' := ho.vertexOf hw h1
    have ht' := ht.vertexOf hw h2
    have hx : exec (.addEdge o t p) s = addEdgeD vo vt p s := by simp [exec, addEdge, ho', ht', orCreate]
    simp only [addEdgeD, h1, h2] at hx
    cases he : s.g.edge vo vt with
    | some e =>
      rw [he] at h hx
      exact Lin.of_exec (c := .addEdge o t p) (by rw [hx]; exact h)
    | none =>
      rw [he] at h hx
      simp only at h hx
      cases ha : addEdgeToTreeViews ((s.g.addEdge vo vt p).1.addEdge vt vo (EdgeProp.inverse p)).1 (s.g.addEdge vo vt p).2
          s.subs s.views with
      | ok a vs =>
        rw [ha] at h hx
        have l1 : Lin s _ := Lin.of_exec (c := .addEdge o t p) (by rw [hx]; rfl)
        exact l1.trans (hl _ _ _ (l1.wf hw) h)
      | throw x vs =>
        rw [ha] at h hx
        exact Lin.of_exec (c := .addEdge o t p) (by rw [hx]; exact h)
      | ub r => rw [ha] at h; cases h
  · cases h

theorem addEdgeH_lin {nt : Notify F E} (hl : LinNotify nt) {o t : FrameId} {p : E} {s s' : GS F E} (hw : WF s.g)
    (h : (addEdgeH nt o t p s).st? = some s') : Lin s s' := by
  simp only [addEdgeH] at h
  cases h1 : orCreateH nt o (s.g.vertexOf o) s with
  | ub r => rw [h1] at h; cases h
  | throw x s1 =>
    rw [h1] at h
    exact orCreateH_lin hl hw (by rw [h1]; exact h)
  | ok vo s1 =>
    rw [h1] at h
    simp only at h
    have l1 : Lin s s1 := orCreateH_lin hl hw (by rw [h1]; rfl)
    have w1 := l1.wf hw
    have no : VNamed s1.g vo o := by
      cases hv : s.g.vertexOf o with
      | none => rw [hv] at h1; exact addVertexH_named hl hw h1
      | some v =>
        rw [hv] at h1
        simp only [orCreateH, Res.ok.injEq] at h1
        obtain ⟨rfl, rfl⟩ := h1
        exact WF.named hw hv
    cases h2 : orCreateH nt t (s.g.vertexOf t) s1 with
    | ub r => rw [h2] at h; cases h
    | throw x s2 =>
      rw [h2] at h
      exact l1.trans (orCreateH_lin hl w1 (by rw [h2]; exact h))
    | ok vt s2 =>
      rw [h2] at h
      simp only at h
      have l2 : Lin s1 s2 := orCreateH_lin hl w1 (by rw [h2]; rfl)
      have nt' : VNamed s2.g vt t := by
        cases hv : s.g.vertexOf t with
        | none => rw [hv] at h2; exact addVertexH_named hl w1 h2
        | some v =>
          rw [hv] at h2
          simp only [orCreateH, Res.ok.injEq] at h2
          obtain ⟨rfl, rfl⟩ := h2
          exact l1.named hw (WF.named hw hv)
      exact (l1.trans l2).trans (addEdgeDH_lin hl (l2.wf w1) (l2.named w1 no) nt' h)

theorem execH_lin {nt : Notify F E} (hq : QuietRemoval nt) (hl : LinNotify nt) (n : Nat) {c : Cmd F E} {s s' : GS F E}
    (hw : WF s.g) (h : (execH nt n c s).st? = some s') : Lin s s' := by
  cases c with
  | addFrame f =>
    simp only [execH, st?_discard, addFrameH] at h
    cases hv : s.g.vertexOf f with
    | none => rw [hv] at h; exact addVertexH_lin hl hw h
    | some v => rw [hv] at h; simp only [Res.st?, Option.some.injEq] at h; subst h; exact .refl _
  | emplaceFrame f p =>
    simp only [execH, st?_discard, emplaceFrameH] at h
    cases hv : s.g.vertexOf f with
    | none =>
      rw [hv] at h
      simp only [addVertexH_st?] at h
      have l1 : Lin s (notify (.frameAdded f) { s with g := (s.g.addVertex f (FrameProp.setId f p)).1 }) :=
        Lin.of_exec (c := .emplaceFrame f p) (by simp [exec, emplaceFrame, hv, discard, Res.st?, addVertexN])
      exact l1.trans (hl _ _ _ (l1.wf hw) h)
    | some v => rw [hv] at h; simp only [Res.st?, Option.some.injEq] at h; subst h; exact .refl _
  | removeFrame f =>
    simp only [execH, removeFrameH] at h
    cases hv : s.g.vertexOf f with
    | none => rw [hv] at h; simp only [Res.st?, Option.some.injEq] at h; subst h; exact .refl _
    | some v =>
      rw [hv] at h
      simp only at h
      split at h
      · simp only [Res.st?, Option.some.injEq] at h; subst h; exact .refl _
      · rename_i hd
        have l1 : Lin s (notify (.frameRemoved f) { s with g := s.g.removeVertex v f }) :=
          Lin.of_exec (c := .removeFrame f) (by simp [exec, removeFrame, hv, hd, Res.st?])
        exact l1.trans (hl _ _ _ (l1.wf hw) h)
  | disconnectFrame f =>
    simp only [execH, disconnectFrameH_quiet hq n f s hw] at h
    exact Lin.of_exec (c := .disconnectFrame f) h
  | addEdge o t p => exact addEdgeH_lin hl hw h
  | removeEdge o t =>
    simp only [execH, removeEdgeH, removeEdgeBothH_quiet hq] at h
    exact Lin.of_exec (c := .removeEdge o t) h
  | setEdge o t p =>
    simp only [execH, setEdgePropertyH] at h
    cases ho : s.g.vertexOf o with
    | none => rw [ho] at h; simp only [Res.st?, Option.some.injEq] at h; subst h; exact .refl _
    | some vo =>
      cases ht : s.g.vertexOf t with
      | none => rw [ho, ht] at h; simp only [Res.st?, Option.some.injEq] at h; subst h; exact .refl _
      | some vt =>
        cases he : s.g.edge vo vt with
        | none => rw [ho, ht] at h; simp only [he, Res.st?, Option.some.injEq] at h; subst h; exact .refl _
        | some e1 =>
          rw [ho, ht] at h
          simp only [he] at h
          cases h2 : (s.g.setProp e1.id p).edge vt vo with
          | none => rw [h2] at h; cases h
          | some e2 =>
            rw [h2] at h
            have l1 : Lin s (notify (.edgeModified o t e1.id e2.id)
                { s with g := (s.g.setProp e1.id p).setProp e2.id (EdgeProp.inverse p) }) :=
              Lin.of_exec (c := .setEdge o t p) (by simp [exec, setEdgeProperty, ho, ht, he, h2, Res.st?])
            exact l1.trans (hl _ _ _ (l1.wf hw) h)
  | getTree f k v => exact Lin.of_exec (c := .getTree f k v) h
  | unsubscribeView v => exact Lin.of_exec (c := .unsubscribeView v) h

theorem handleLoop_lin {hd : Handler F E} {call : Cmd F E → GS F E → Res (GS F E) Unit} {ev : Event}
    (hc : ∀ c s s', WF s.g → (call c s).st? = some s' → Lin s s') : ∀ (n k : Nat) (s s' : GS F E), WF s.g →
    (handleLoop hd call ev n k s).st? = some s' → Lin s s' := by
  intro n
  induction n with
  | zero =>
    intro k s s' hw h
    rw [handleLoop.eq_def] at h
    simp only at h
    split at h
    · simp only [Res.st?, Option.some.injEq] at h; subst h; exact .refl _
    · simp only [Res.st?, Option.some.injEq] at h; subst h; exact .refl _
    · cases h
  | succ n ih =>
    intro k s s' hw h
    rw [handleLoop.eq_def] at h
    simp only at h
    split at h
    · simp only [Res.st?, Option.some.injEq] at h; subst h; exact .refl _
    · simp only [Res.st?, Option.some.injEq] at h; subst h; exact .refl _
    · rename_i c caught hx
      cases hr : call c s with
      | ub r => rw [hr] at h; cases h
      | ok a s1 =>
        rw [hr] at h
        have l1 := hc c s s1 hw (by rw [hr]; rfl)
        exact l1.trans (ih _ _ _ (l1.wf hw) h)
      | throw x s1 =>
        rw [hr] at h
        have l1 := hc c s s1 hw (by rw [hr]; rfl)
        simp only at h
        split at h
        · exact l1.trans (ih _ _ _ (l1.wf hw) h)
        · simp only [Res.st?, Option.some.injEq] at h; subst h; exact l1

theorem hexec_lin {hd : Handler F E} (hq : ∀ o t s, hd (.edgeRemoved o t) 0 s = .done) : ∀ (n : Nat) (c : Cmd F E) (s s' : GS F E),
    WF s.g → (hexec hd n c s).st? = some s' → Lin s s' := by
  intro n
  induction n with
  | zero => intro c s s' _ h; cases h
  | succ n ih =>
    intro c s s' hw h
    refine execH_lin (n := n) (c := c) ?_ ?_ hw h
    · intro o t s
      change handleLoop hd (hexec hd n) (.edgeRemoved o t) n 0 (notify (.edgeRemoved o t) s) = _
      rw [handleLoop.eq_def]
      simp only [hq]
    · intro ev s s' hw h
      exact handleLoop_lin ih n 0 _ s' (by exact hw) h

/-- a handler that only listens -/
theorem execH_passive {nt : Notify F E} (hp : ∀ ev s, nt ev s = .ok () (notify ev s)) (n : Nat) (c : Cmd F E) (s : GS F E)
    (hw : WF s.g) : execH nt n c s = exec c s := by
  have hq : QuietRemoval nt := fun o t s => hp _ s
  have hav : ∀ f p s, addVertexH nt f p s = .ok (addVertexN f p s).2 (addVertexN f p s).1 := by
    intro f p s; simp [addVertexH, hp, addVertexN]
  have hoc : ∀ f v s, orCreateH nt f v s = .ok (orCreate f v s).2 (orCreate f v s).1 := by
    intro f v s; cases v <;> simp [orCreateH, orCreate, hav]
  have hed : ∀ vo vt p s, addEdgeDH nt vo vt p s = addEdgeD vo vt p s := by
    intro vo vt p s
    simp only [addEdgeDH, addEdgeD, hp]
    rfl
  cases c with
  | addFrame f => simp only [execH, exec, addFrameH, addFrame, hav]; cases s.g.vertexOf f <;> rfl
  | emplaceFrame f p => simp only [execH, exec, emplaceFrameH, emplaceFrame, hav]; cases s.g.vertexOf f <;> rfl
  | removeFrame f => simp only [execH, exec, removeFrameH, removeFrame, hp]; cases s.g.vertexOf f <;> rfl
  | disconnectFrame f => exact disconnectFrameH_quiet hq n f s hw
  | addEdge o t p => simp only [execH, exec, addEdgeH, addEdge, hoc, hed]
  | removeEdge o t =>
    simp only [execH, exec, removeEdgeH, removeEdge, removeEdgeBothH_quiet hq]
    cases s.g.vertexOf o <;> simp only
    cases s.g.vertexOf t <;> rfl
  | setEdge o t p =>
    simp only [execH, exec, setEdgePropertyH, setEdgeProperty, hp]
    rfl
  | getTree f k v => rfl
  | unsubscribeView v => rfl

end GS

/-- number of edges from `u` to `v` -/
def G.count (g : G F E) (u v : VId) : Nat := g.edges.countP (fun e => e.src = u ∧ e.tgt = v)

theorem countP_remove {l : List (ERec E)} {e : ERec E} (hn : (l.map ERec.id).Nodup) (he : e ∈ l) (p : ERec E → Bool) :
    l.countP p = (l.filter (fun r => r.id ≠ e.id)).countP p + if p e then 1 else 0 := by
  induction l with
  | nil => cases he
  | cons a l ih =>
    simp only [List.map_cons, List.nodup_cons] at hn
    by_cases ha : a.id = e.id
    · have hae : a = e := by
        rcases List.mem_cons.1 he with h | h
        · exact h.symm
        · exact absurd (ha ▸ List.mem_map_of_mem h) hn.1
      subst hae
      have : l.filter (fun r => r.id ≠ a.id) = l := by
        refine List.filter_eq_self.2 ?_
        intro r hr
        simp only [ne_eq, decide_not, Bool.not_eq_eq_eq_not, Bool.not_true, decide_eq_false_iff_not]
        intro hh
        exact hn.1 (hh ▸ List.mem_map_of_mem hr)
      rw [List.filter_cons_of_neg (by simp), this, List.countP_cons]
    · have hm : e ∈ l := by
        rcases List.mem_cons.1 he with h | h
        · subst h; exact absurd rfl ha
        · exact h
      rw [List.filter_cons_of_pos (by simpa using ha), List.countP_cons, List.countP_cons, ih hn.2 hm]
      omega

theorem WF.count_remove {g g' : G F E} (hw : WF g) {e : ERec E} (he : e ∈ g.edges) (h : g.removeEdge e.id = some g') (u v : VId) :
    g.count u v = g'.count u v + if e.src = u ∧ e.tgt = v then 1 else 0 := by
  unfold G.removeEdge at h
  split at h
  · cases h
    have := countP_remove hw.enodup he (fun e => decide (e.src = u ∧ e.tgt = v))
    simpa [G.count] using this
  · cases h

theorem GStep.count {g g' : G F E} {x : Event × G F E} (hs : GStep g x g') (hw : WF g) (u v : VId) :
    g'.count u v + g.count v u = g.count u v + g'.count v u := by
  cases hs with
  | addV hn hp =>
    have hn' : AMap.get g.labels _ = none := hn
    simp only [G.count, G.addVertex, hn']
  | dupV => rfl
  | addE ha hb hn =>
    rename_i a b p q r
    simp only [G.count, G.addEdge, List.countP_append, List.countP_cons, List.countP_nil]
    have e1 : (decide (p = v ∧ q = u)) = decide (q = u ∧ p = v) := by simp only [And.comm]
    have e2 : (decide (q = v ∧ p = u)) = decide (p = u ∧ q = v) := by simp only [And.comm]
    rw [e1, e2]
    omega
  | rmE ha hb h1 h2 hg1 hg2 =>
    rename_i g1 a b p q e1 e2
    obtain ⟨m1, s1, t1⟩ := G.edge_some h1
    obtain ⟨m2, s2, t2⟩ := G.edge_some h2
    have w1 := hw.removeEdge hg1
    have m2' : e2 ∈ g1.edges := by
      have hg2' := hg2
      have hg1' := hg1
      unfold G.removeEdge at hg1' hg2'
      split at hg1'
      · cases hg1'
        split at hg2'
        · rename_i hany
          obtain ⟨r, hr, hid⟩ := List.any_eq_true.1 hany
          have hr' := (List.mem_filter.1 hr).1
          have : r = e2 := map_inj_of_nodup hw.enodup hr' m2 (by simpa using hid)
          exact this ▸ hr
        · cases hg2'
      · cases hg1'
    have c1 := hw.count_remove m1 hg1 u v
    have c2 := hw.count_remove m1 hg1 v u
    have c3 := w1.count_remove m2' hg2 u v
    have c4 := w1.count_remove m2' hg2 v u
    rw [s1, t1] at c1 c2
    rw [s2, t2] at c3 c4
    simp only [And.comm (a := q = u)] at c3
    simp only [And.comm (a := q = v)] at c4
    omega
  | setP ha hb h1 h2 =>
    have : ∀ (g : G F E) (e : EId) (p : E) (u v : VId), (g.setProp e p).count u v = g.count u v := by
      intro g e p u v
      simp only [G.count, G.setProp, List.countP_map]
      congr 1
      funext r
      simp only [Function.comp]
      split <;> rfl
    simp only [this]
  | rmV hv hd => rfl

theorem GSteps.count {P : G F E → Event → Prop} {g g' : G F E} {l : List (Event × G F E)} (hs : GSteps P g l g') (hw : WF g)
    (u v : VId) : g'.count u v + g.count v u = g.count u v + g'.count v u := by
  induction hs with
  | nil => rfl
  | cons hs _ _ ih =>
    have a := hs.count hw u v
    have b := ih (hs.wf hw)
    omega

theorem G.edge_of_count {g : G F E} {u v : VId} (h : 0 < g.count u v) : (g.edge u v).isSome := by
  obtain ⟨e, he, hp⟩ := List.countP_pos_iff.1 h
  have hp' : e.src = u ∧ e.tgt = v := by simpa using hp
  exact G.edge_isSome.2 ⟨e, he, hp'.1, hp'.2⟩

end Verif
