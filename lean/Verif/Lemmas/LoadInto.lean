import Verif.Model.LoadInto
import Verif.Lemmas.Archive
import Verif.Lemmas.Copy
import Verif.Lemmas.ItemTyped
import Verif.Spec.TreeView
set_option linter.unusedSectionVars false
set_option linter.unusedSimpArgs false
/-! Loading into a graph with content: closed form and lookups. -/

namespace Verif
variable {D E : Type} [EdgeProp E]

/-- closed form: the old graph followed by the loaded one (labels not regenerated) -/
def G.sum (off : Nat) (g0 g : G EFrame E) : G EFrame E where
  verts := g0.verts ++ g.verts.map (fun r => ⟨g0.nextV + r.id, g0.nextIdx + r.idx, r.prop.shift off⟩)
  edges := g0.edges ++ g.edges.map (fun e => ⟨g0.nextE + e.id, g0.nextV + e.src, g0.nextV + e.tgt, e.prop⟩)
  labels := g0.labels
  nextV := g0.nextV + g.nextV
  nextE := g0.nextE + g.nextE
  nextIdx := g0.nextIdx + g.nextIdx

namespace IArchive
variable {off : Nat} {H : String → Bool}

theorem loadFramesInto_eq (g0 : G EFrame E) (n : Nat) : ∀ (g : G EFrame E) (a : IArchive D E),
    loadFramesInto H off n (g0.sum off g) a = bind (loadFrames H n g a) fun g a => .ok (g0.sum off g) a := by
  induction n with
  | zero => intro g a; rfl
  | succ n ih =>
    intro g a
    simp only [loadFramesInto, loadFrames]
    cases loadFrame H a with
    | throw x a => rfl
    | ub m => rfl
    | ok fr a =>
      simp only [bind]
      have := ih { g with verts := g.verts ++ [⟨g.nextV, g.nextIdx, fr⟩], nextV := g.nextV + 1, nextIdx := g.nextIdx + 1 } a
      simp only [bind] at this
      rw [← this]
      simp [G.sum, Nat.add_assoc]

theorem loadEdges_eq (g0 : G EFrame E) (vs : List VId) (n : Nat) : ∀ (g : G EFrame E) (a : IArchive D E),
    loadEdges (vs.map (fun v => (g0.nextV + v : Nat))) n (g0.sum off g) a = bind (loadEdges vs n g a) fun g a => .ok (g0.sum off g) a := by
  induction n with
  | zero => intro g a; rfl
  | succ n ih =>
    intro g a
    simp only [loadEdges]
    cases a.read size? with
    | throw x a => rfl
    | ub m => rfl
    | ok u a =>
      simp only [bind]
      cases a.read size? with
      | throw x a => rfl
      | ub m => rfl
      | ok v a =>
        simp only
        cases a.read edge? with
        | throw x a => rfl
        | ub m => rfl
        | ok p a =>
          simp only [List.getElem?_map]
          cases vs[u]? with
          | none => cases vs[v]? <;> rfl
          | some u =>
            cases vs[v]? with
            | none => rfl
            | some v =>
              simp only [Option.map_some]
              have := ih (g.addEdge u v p).1 a
              simp only [bind] at this
              rw [← this]
              simp [G.sum, G.addEdge, Nat.add_assoc]

/-- loading into `g0` is loading into an empty graph and putting the result behind `g0` -/
theorem loadGraphInto_eq (g0 : G EFrame E) {g : G EFrame E} {a a' : IArchive D E} (h : loadGraph H a = .ok g a') :
    loadGraphInto H off g0 a = .ok (g0.sum off g).regenerateLabelMap a' := by
  have h0 : g0.sum off G.empty = g0 := by cases g0; simp [G.sum, G.empty]
  unfold loadGraph at h
  unfold loadGraphInto
  cases h1 : a.read size? with
  | throw x a => rw [h1] at h; cases h
  | ub m => rw [h1] at h; cases h
  | ok n a1 =>
    rw [h1] at h
    simp only [bind] at h ⊢
    cases h2 : a1.read size? with
    | throw x a => rw [h2] at h; cases h
    | ub m => rw [h2] at h; cases h
    | ok m a2 =>
      rw [h2] at h
      simp only at h ⊢
      have hf := loadFramesInto_eq (off := off) (H := H) g0 n G.empty a2
      rw [h0] at hf
      cases h3 : loadFrames H n (G.empty : G EFrame E) a2 with
      | throw x a => rw [h3] at h; cases h
      | ub m => rw [h3] at h; cases h
      | ok g1 a3 =>
        rw [h3] at h hf
        simp only [bind] at h hf
        rw [hf]
        simp only
        have hd : ((g0.sum off g1).verts.drop g0.verts.length).map VRec.id = (g1.verts.map VRec.id).map (fun v => (g0.nextV + v : Nat)) := by
          simp [G.sum, Function.comp_def]
        have he := loadEdges_eq (off := off) g0 (g1.verts.map VRec.id) m g1 a3
        rw [hd, he]
        cases h4 : loadEdges (g1.verts.map VRec.id) m g1 a3 with
        | throw x a => rw [h4] at h; cases h
        | ub m => rw [h4] at h; cases h
        | ok g2 a4 =>
          rw [h4] at h
          simp only [bind, Res.ok.injEq] at h ⊢
          obtain ⟨rfl, rfl⟩ := h
          exact ⟨rfl, rfl⟩

end IArchive

theorem AMap.get_foldl_set {K V X : Type} [DecidableEq K] (k : X → K) (v : X → V) : ∀ (l : List X) (m : AMap K V), (l.map k).Nodup →
    (∀ x ∈ l, AMap.get (l.foldl (fun m x => m.set (k x) (v x)) m) (k x) = some (v x)) ∧
    (∀ f, f ∉ l.map k → AMap.get (l.foldl (fun m x => m.set (k x) (v x)) m) f = m.get f) := by
  intro l
  induction l with
  | nil => intro m _; simp
  | cons x l ih =>
    intro m hn
    simp only [List.map_cons, List.nodup_cons] at hn
    obtain ⟨h1, h2⟩ := ih (m.set (k x) (v x)) hn.2
    refine ⟨fun y hy => ?_, fun f hf => ?_⟩
    · rcases List.mem_cons.1 hy with rfl | hy
      · rw [List.foldl_cons, h2 _ hn.1, AMap.get_set_self]
      · exact h1 y hy
    · simp only [List.map_cons, List.mem_cons, not_or] at hf
      rw [List.foldl_cons, h2 _ hf.2, AMap.get_set_ne (Ne.symm hf.1)]

theorem ne_shift {a n v : Nat} (h : a < n) : a ≠ n + v := by omega

namespace G
variable {off : Nat} {g0 g : G EFrame E}

theorem names_nodup (hw : WF g) : (g.verts.map (fun r => FrameProp.getId r.prop)).Nodup :=
  (List.nodup_map_iff_inj_on (List.Nodup.of_map _ hw.vnodup)).2 (fun _ hr _ hr' he => hw.name_inj hr hr' he)

/-- names of the loaded graph mean the loaded frames, other names what they meant before -/
theorem sum_vertexOf (hw0 : WF g0) (hw : WF g) (f : FrameId) : (g0.sum off g).regenerateLabelMap.vertexOf f =
    match g.vertexOf f with
    | some v => some (g0.nextV + v : Nat)
    | none => g0.vertexOf f := by
  simp only [regenerateLabelMap, vertexOf, sum, List.foldl_append, List.foldl_map]
  set m1 := g0.verts.foldl (fun m r => AMap.set m (FrameProp.getId r.prop) r.id) g0.labels with hm1
  obtain ⟨a1, a2⟩ := AMap.get_foldl_set (fun r : VRec EFrame => FrameProp.getId r.prop) VRec.id g0.verts g0.labels (names_nodup hw0)
  obtain ⟨b1, b2⟩ := AMap.get_foldl_set (fun r : VRec EFrame => FrameProp.getId r.prop) (fun r => (g0.nextV + r.id : Nat)) g.verts m1 (names_nodup hw)
  have hold : m1.get f = g0.vertexOf f := by
    by_cases hf : f ∈ g0.verts.map (fun r => FrameProp.getId r.prop)
    · obtain ⟨r, hr, rfl⟩ := List.mem_map.1 hf
      rw [a1 r hr]
      exact (hw0.vertexOf_iff.2 ⟨r, hr, rfl, rfl⟩).symm
    · exact a2 f hf
  show AMap.get (g.verts.foldl (fun m r => AMap.set m (FrameProp.getId r.prop) (g0.nextV + r.id : Nat)) m1) f = _
  by_cases hf : f ∈ g.verts.map (fun r => FrameProp.getId r.prop)
  · obtain ⟨r, hr, rfl⟩ := List.mem_map.1 hf
    have : g.labels.get (FrameProp.getId r.prop) = some r.id := hw.vertexOf_iff.2 ⟨r, hr, rfl, rfl⟩
    rw [this]
    exact b1 r hr
  · have : g.labels.get f = none := by
      have : g.vertexOf f = none := by
        cases hv : g.vertexOf f with
        | none => rfl
        | some v =>
          obtain ⟨r, hr, -, h2⟩ := hw.vertexOf_iff.1 hv
          exact absurd (List.mem_map.2 ⟨r, hr, h2⟩) hf
      exact this
    rw [this]
    exact (b2 f hf).trans hold

theorem sum_findV_old (hw0 : WF g0) {v : VId} (hv : ∃ r ∈ g0.verts, r.id = v) : (g0.sum off g).findV v = g0.findV v := by
  obtain ⟨r, hr, rfl⟩ := hv
  simp only [findV, sum, List.find?_append]
  have := hw0.findV_iff.2 ⟨hr, rfl⟩
  unfold findV at this
  rw [this]; rfl

theorem sum_findV_new (hw0 : WF g0) (v : VId) : (g0.sum off g).findV (g0.nextV + v : Nat) =
    (g.findV v).map (fun r => ⟨g0.nextV + r.id, g0.nextIdx + r.idx, r.prop.shift off⟩) := by
  simp only [findV, sum, List.find?_append]
  have h0 : g0.verts.find? (fun r => r.id = (g0.nextV + v : Nat)) = none := by
    rw [List.find?_eq_none]
    intro r hr
    simp only [decide_eq_true_eq]
    exact ne_shift (hw0.vlt r hr)
  rw [h0, Option.none_or, List.find?_map]
  congr 2
  funext r
  simp only [Function.comp, decide_eq_decide]
  exact Nat.add_left_cancel_iff

theorem sum_edge_old (hw0 : WF g0) {u : VId} (hu : ∃ r ∈ g0.verts, r.id = u) (v : VId) : (g0.sum off g).edge u v = g0.edge u v := by
  obtain ⟨r, hr, rfl⟩ := hu
  have := hw0.vlt r hr
  simp only [edge, outEdges, sum, List.filter_append, List.find?_append]
  have h0 : (g.edges.map (fun e => (⟨g0.nextE + e.id, g0.nextV + e.src, g0.nextV + e.tgt, e.prop⟩ : ERec E))).filter (fun e => e.src = r.id) = [] := by
    rw [List.filter_eq_nil_iff]
    intro e he
    obtain ⟨e, -, rfl⟩ := List.mem_map.1 he
    simp only [decide_eq_true_eq]
    exact fun h => ne_shift this h.symm
  rw [h0]; simp

theorem sum_edge_new (hw0 : WF g0) (u v : VId) : (g0.sum off g).edge (g0.nextV + u : Nat) (g0.nextV + v : Nat) =
    (g.edge u v).map (fun e => ⟨g0.nextE + e.id, g0.nextV + e.src, g0.nextV + e.tgt, e.prop⟩) := by
  simp only [edge, outEdges, sum, List.filter_append, List.find?_append]
  have h0 : g0.edges.filter (fun e => e.src = (g0.nextV + u : Nat)) = [] := by
    rw [List.filter_eq_nil_iff]
    intro e he
    obtain ⟨r, hr, h1⟩ := hw0.esrc e he
    simp only [decide_eq_true_eq]
    exact fun h => ne_shift (hw0.vlt r hr) (h1.trans h)
  rw [h0, List.filter_map]
  simp only [List.find?_nil, Option.none_or, List.find?_map]
  have e1 : ((fun e : ERec E => decide (e.src = (g0.nextV + u : Nat))) ∘ fun e : ERec E => (⟨g0.nextE + e.id, g0.nextV + e.src, g0.nextV + e.tgt, e.prop⟩ : ERec E)) =
      fun e => decide (e.src = u) := by
    funext e
    simp only [Function.comp, decide_eq_decide]
    exact Nat.add_left_cancel_iff
  have e2 : ((fun e : ERec E => decide (e.tgt = (g0.nextV + v : Nat))) ∘ fun e : ERec E => (⟨g0.nextE + e.id, g0.nextV + e.src, g0.nextV + e.tgt, e.prop⟩ : ERec E)) =
      fun e => decide (e.tgt = v) := by
    funext e
    simp only [Function.comp, decide_eq_decide]
    exact Nat.add_left_cancel_iff
  rw [e1, e2]

/-- no edges between the old and the new part -/
theorem sum_edge_mixed (hw0 : WF g0) {w : VId} (hw : ∃ r ∈ g0.verts, r.id = w) (v : VId) :
    (g0.sum off g).edge w (g0.nextV + v : Nat) = none ∧ (g0.sum off g).edge (g0.nextV + v : Nat) w = none := by
  obtain ⟨r, hr, rfl⟩ := hw
  have hlt := hw0.vlt r hr
  constructor
  · rw [sum_edge_old hw0 ⟨r, hr, rfl⟩]
    rw [edge_none]
    rintro e he ⟨h1, h2⟩
    obtain ⟨r', hr', h3⟩ := hw0.etgt e he
    exact ne_shift (hw0.vlt r' hr') (h3.trans h2)
  · rw [edge_none]
    rintro e he ⟨h1, h2⟩
    rcases List.mem_append.1 he with he | he
    · obtain ⟨r', hr', h3⟩ := hw0.esrc e he
      exact ne_shift (hw0.vlt r' hr') (h3.trans h1)
    · obtain ⟨e, -, rfl⟩ := List.mem_map.1 he
      exact ne_shift hlt h2.symm

theorem sum_adj_old (hw0 : WF g0) {u : VId} (hu : ∃ r ∈ g0.verts, r.id = u) (v : VId) : (g0.sum off g).Adj u v ↔ g0.Adj u v := by
  have := sum_edge_old (off := off) (g := g) hw0 hu v
  have h1 := edge_isSome (g := g0.sum off g) (u := u) (v := v)
  have h2 := edge_isSome (g := g0) (u := u) (v := v)
  rw [this] at h1
  exact h1.symm.trans h2

theorem adj_live (hw0 : WF g0) {u v : VId} (h : g0.Adj u v) : ∃ r ∈ g0.verts, r.id = v := by
  obtain ⟨e, he, -, rfl⟩ := h
  exact hw0.etgt e he

theorem reach_live (hw0 : WF g0) {u v : VId} (hu : ∃ r ∈ g0.verts, r.id = u) (h : g0.Reach u v) : ∃ r ∈ g0.verts, r.id = v := by
  induction h with
  | refl => exact hu
  | tail _ h _ => exact adj_live hw0 h

theorem sum_reach_old (hw0 : WF g0) {u : VId} (hu : ∃ r ∈ g0.verts, r.id = u) (v : VId) : (g0.sum off g).Reach u v ↔ g0.Reach u v := by
  constructor
  · intro h
    induction h with
    | refl => exact .refl
    | tail _ h ih => exact ih.tail ((sum_adj_old hw0 (reach_live hw0 hu ih) _).1 h)
  · intro h
    induction h with
    | refl => exact .refl
    | tail h1 h ih => exact ih.tail ((sum_adj_old hw0 (reach_live hw0 hu h1) _).2 h)

/-- a correct view of the old graph is a correct view of the new one -/
theorem sum_isTreeView (hw0 : WF g0) {root : VId} (hr : ∃ r ∈ g0.verts, r.id = root) {w : TreeView} (h : IsTreeView g0 root w) :
    IsTreeView (g0.sum off g) root w := by
  refine ⟨h.root_eq, fun v => (h.span v).trans (sum_reach_old hw0 hr v).symm, h.root_parent, ?_, h.children, h.rank, ?_, ?_, ?_⟩
  · intro v hv hne
    obtain ⟨p, h1, e, he, h2⟩ := h.parent v hv hne
    exact ⟨p, h1, e, List.mem_append_left _ he, h2⟩
  · intro c hc
    obtain ⟨e, he, h1, h2, h3, h4⟩ := h.cross_edge c hc
    exact ⟨e, List.mem_append_left _ he, h1, h2, h3, (sum_reach_old hw0 hr _).2 h4⟩
  · intro u v ha hu
    have hu' := (sum_reach_old hw0 hr u).1 hu
    exact h.tree_not_cross u v ((sum_adj_old hw0 (reach_live hw0 hr hu') v).1 ha) hu'
  · intro u v ha hu
    have hu' := (sum_reach_old hw0 hr u).1 hu
    exact h.cross_once u v ((sum_adj_old hw0 (reach_live hw0 hr hu') v).1 ha) hu'

end G

/-- what a history saves can be loaded again, as a well-formed graph -/
theorem EG.saved_loads (R : Registry) (H : String → Bool) (hH : ∀ c, R.hasHandle c = true → H c = true) (heap : ItemId → SObj D)
    {s : EG E} (hw : WF s.gs.g) (hp : ∀ r ∈ s.gs.g.verts, OArchive.Proper heap r.prop.items) :
    ∃ w g a, OArchive.saveGraph R heap s.gs.g OArchive.new = .ok () w ∧ IArchive.loadGraph H (IArchive.new w.out) = .ok g a ∧ WF g ∧
      g.verts.length = s.gs.g.verts.length ∧ g.edges.length = s.gs.g.edges.length := by
  obtain ⟨w, h1, -, -⟩ := OArchive.saveGraph_goes (S := []) (H := H) (R := R) (fun t c _ h => hH c h) hw hp OArchive.new
  obtain ⟨w', h1', h2, -⟩ := OArchive.saveGraph_goes (S := w.saved) (H := H) (R := R) (fun t c _ h => hH c h) hw hp OArchive.new
  obtain rfl : w = w' := by rw [h1] at h1'; simpa using h1'
  have hr := h2.reads List.prefix_rfl w.out [] rfl
  rw [List.append_nil] at hr
  refine ⟨w, _, _, h1, hr, copied_wf (OArchive.modAll_wf hw (fun _ => rfl)), ?_, ?_⟩ <;> simp [G.copied, G.modAll]

end Verif
