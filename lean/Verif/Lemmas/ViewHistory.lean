import Verif.Lemmas.ViewFollow
import Verif.Lemmas.Subs
import Verif.Lemmas.Sim

set_option linter.unusedSectionVars false
set_option linter.unusedSimpArgs false
/-! Subscribed views during a history of additions. -/

namespace Verif
open GS TreeView
variable {F E : Type} [FrameProp F] [EdgeProp E]

theorem addedPair_of {g : G F E} (hw : WF g) (hp : Paired g) {u v : VId} (huv : u ≠ v) (hu : Live g u) (hv : Live g v)
    (hn : g.edge u v = none) (p q : E) :
    AddedPair g ((g.addEdge u v p).1.addEdge v u q).1 (g.addEdge u v p).2 ((g.addEdge u v p).1.addEdge v u q).2 := by
  have h1 : ¬ g.Adj u v := by
    rintro ⟨e, he, h1, h2⟩
    exact G.edge_none.1 hn e he ⟨h1, h2⟩
  refine ⟨by simp [G.addEdge], rfl, ?_, rfl, rfl, huv, ⟨h1, fun h => h1 (h.symm hp)⟩, ⟨hu, hv⟩⟩
  intro x hx
  have := hw.elt x hx
  constructor
  · intro h; simp only [G.addEdge] at h; rw [h] at this; exact Nat.lt_irrefl _ this
  · intro h; simp only [G.addEdge] at h; rw [h] at this; exact absurd this (by simp only [not_lt]; exact Nat.le_succ _)

theorem AddedPair.edge_fst {g g2 : G F E} {e e' : ERec E} (h : AddedPair g g2 e e') : g2.edge e.src e.tgt = some e := by
  cases hx : g2.edge e.src e.tgt with
  | none => exact absurd ⟨rfl, rfl⟩ (G.edge_none.1 hx e (by rw [h.edges]; simp))
  | some r =>
    obtain ⟨h1, h2, h3⟩ := G.edge_some hx
    rw [h.edges] at h1
    simp only [List.mem_append, List.mem_cons, List.not_mem_nil, or_false] at h1
    rcases h1 with h1 | rfl | rfl
    · exact absurd ⟨r, h1, h2, h3⟩ h.fresh.1
    · rfl
    · exact absurd (h.src.symm.trans h2).symm h.ne

theorem AddedPair.edge_snd {g g2 : G F E} {e e' : ERec E} (h : AddedPair g g2 e e') : g2.edge e.tgt e.src = some e' := by
  cases hx : g2.edge e.tgt e.src with
  | none => exact absurd ⟨h.src, h.tgt⟩ (G.edge_none.1 hx e' (by rw [h.edges]; simp))
  | some r =>
    obtain ⟨h1, h2, h3⟩ := G.edge_some hx
    rw [h.edges] at h1
    simp only [List.mem_append, List.mem_cons, List.not_mem_nil, or_false] at h1
    rcases h1 with h1 | rfl | rfl
    · exact absurd ⟨r, h1, h2, h3⟩ h.fresh.2
    · exact absurd h2 h.ne
    · rfl

theorem addEdgeToTreeViews_correct {g g2 : G F E} {e e' : ERec E} (hw : WF g) (hp : Paired g) (ha : AddedPair g g2 e e') :
    ∀ (ps : List Nat) (vs : Nat → TreeView), ps.Nodup → (∀ p ∈ ps, ∃ root, IsTreeView g root (vs p)) →
    ∃ vs', addEdgeToTreeViews g2 e ps vs = .ok () vs' ∧
      ∀ p ∈ ps, ∀ root, IsTreeView g root (vs p) → IsTreeView g2 root (vs' p) := by
  intro ps
  induction ps with
  | nil => intro vs _ _; exact ⟨vs, rfl, by simp⟩
  | cons p ps ih =>
    intro vs hnd hok
    obtain ⟨hpn, hnd⟩ := List.nodup_cons.1 hnd
    obtain ⟨root, hroot⟩ := hok p (by simp)
    obtain ⟨w', h1, h2, -⟩ := addEdgeToTreeView_correct hw hp ha ha.edge_fst ha.edge_snd hroot
    have hsame : ∀ q ∈ ps, setView vs p w' q = vs q := by
      intro q hq
      have : q ≠ p := by rintro rfl; exact hpn hq
      simp [setView, this]
    obtain ⟨vs', h3, h4⟩ := ih (setView vs p w') hnd (by
      intro q hq
      rw [hsame q hq]
      exact hok q (List.mem_cons_of_mem _ hq))
    refine ⟨vs', ?_, ?_⟩
    · unfold addEdgeToTreeViews
      rw [h1]
      exact h3
    · intro q hq root' hr'
      rcases List.mem_cons.1 hq with rfl | hq
      · have hv' : vs' q = w' := by
          have := (addEdgeToTreeViews_same ps (setView vs q w') vs' (by rw [h3]; rfl)).1 q hpn
          rw [this]; simp [setView]
        rw [hv']
        have : root' = root := by
          have e1 := hr'.root_eq
          rw [hroot.root_eq] at e1
          exact (Option.some.inj e1).symm
        rw [this]; exact h2
      · exact h4 q hq root' (by rw [hsame q hq]; exact hr')

namespace GS

/-- every subscribed view is correct -/
def ViewsOk (s : GS F E) : Prop := s.subs.Nodup ∧ ∀ p ∈ s.subs, ∃ root, IsTreeView s.g root (s.views p)

/-- the same views are subscribed and those that were correct are correct, with the same root -/
def Follows (s s' : GS F E) : Prop :=
  s'.subs = s.subs ∧ ∀ p ∈ s.subs, ∀ root, IsTreeView s.g root (s.views p) → IsTreeView s'.g root (s'.views p)

theorem Follows.trans {s s' s'' : GS F E} (h : Follows s s') (h' : Follows s' s'') : Follows s s'' :=
  ⟨h'.1.trans h.1, fun p hp root hr => h'.2 p (h.1 ▸ hp) root (h.2 p hp root hr)⟩

theorem Follows.refl (s : GS F E) : Follows s s := ⟨rfl, fun _ _ _ h => h⟩

theorem Follows.of_edges {s s' : GS F E} (h1 : s'.subs = s.subs) (h2 : s'.views = s.views) (h3 : s'.g.edges = s.g.edges) :
    Follows s s' := ⟨h1, fun p _ root hr => by rw [h2]; exact hr.of_edges h3⟩

theorem Follows.ok {s s' : GS F E} (h : Follows s s') (hs : ViewsOk s) : ViewsOk s' := by
  refine ⟨h.1 ▸ hs.1, fun p hp => ?_⟩
  rw [h.1] at hp
  obtain ⟨root, hr⟩ := hs.2 p hp
  exact ⟨root, h.2 p hp root hr⟩

theorem addVertex_edges (g : G F E) (f : FrameId) (p : F) : (g.addVertex f p).1.edges = g.edges := by
  unfold G.addVertex
  split <;> rfl

theorem addVertexN_follows (f : FrameId) (p : F) (s : GS F E) : Follows s (addVertexN f p s).1 :=
  .of_edges rfl rfl (addVertex_edges _ _ _)

theorem orCreate_follows (f : FrameId) (v : Option VId) (s : GS F E) : Follows s (orCreate f v s).1 := by
  cases v
  · exact addVertexN_follows _ _ _
  · exact .refl _

theorem addEdgeD_follows {u v : VId} {p : E} {s : GS F E} (hw : WF s.g) (hp : Paired s.g) (ho : ViewsOk s) (huv : u ≠ v)
    (hu : Live s.g u) (hv : Live s.g v) : ∃ s', (addEdgeD u v p s).st? = some s' ∧ Follows s s' ∧
      (s.g.edge u v = none → addEdgeD u v p s = .ok () s') := by
  unfold addEdgeD
  obtain ⟨ru, hru⟩ : ∃ r, s.g.findV u = some r := by
    obtain ⟨r, hr, hid⟩ := hu; exact ⟨r, hw.findV_iff.2 ⟨hr, hid⟩⟩
  obtain ⟨rv, hrv⟩ : ∃ r, s.g.findV v = some r := by
    obtain ⟨r, hr, hid⟩ := hv; exact ⟨r, hw.findV_iff.2 ⟨hr, hid⟩⟩
  simp only [hru, hrv]
  cases he : s.g.edge u v with
  | some e => exact ⟨s, rfl, .refl s, by intro h; cases h⟩
  | none =>
    have ha := addedPair_of hw hp huv hu hv he p (EdgeProp.inverse p)
    obtain ⟨vs', h1, h2⟩ := addEdgeToTreeViews_correct hw hp ha s.subs s.views ho.1 ho.2
    simp only [h1]
    exact ⟨_, rfl, ⟨rfl, h2⟩, fun _ => rfl⟩

/-- calls that only add something, without self edges -/
def Cmd.grows : Cmd F E → Prop
  | .addFrame _ => True
  | .emplaceFrame _ _ => True
  | .addEdge a b _ => a ≠ b
  | _ => False

theorem addVertexN_live {f : FrameId} {p : F} {s : GS F E} {v : VId} (h : Live s.g v) : Live (addVertexN f p s).1.g v := by
  obtain ⟨r, hr, hid⟩ := h
  refine ⟨r, ?_, hid⟩
  simp only [addVertexN, notify, G.addVertex]
  split
  · exact hr
  · simp [hr]

theorem addEdge_follows {a b : FrameId} {p : E} {s : GS F E} (hw : WF s.g) (hp : Paired s.g) (ho : ViewsOk s) (hab : a ≠ b) :
    ∃ s', (addEdge a b p s).st? = some s' ∧ Follows s s' := by
  unfold addEdge
  simp only
  generalize hs1 : orCreate a (s.g.vertexOf a) s = r1
  generalize hs2 : orCreate b (s.g.vertexOf b) r1.1 = r2
  have hcr : ∀ (f : FrameId) (t : GS F E), WF t.g → Paired t.g →
      WF (addVertexN f (FrameProp.setId f FrameProp.dflt) t).1.g ∧ Paired (addVertexN f (FrameProp.setId f FrameProp.dflt) t).1.g := by
    intro f t hw hp
    exact ⟨hw.addVertex (FrameProp.getId_setId _ _), hp.of_edges (addVertex_edges _ _ _)⟩
  have hf1 : Follows s r1.1 := by rw [← hs1]; exact orCreate_follows _ _ _
  have hf2 : Follows r1.1 r2.1 := by rw [← hs2]; exact orCreate_follows _ _ _
  have hw1 : WF r1.1.g ∧ Paired r1.1.g := by
    rw [← hs1]
    cases s.g.vertexOf a with
    | none => exact hcr a s hw hp
    | some v => exact ⟨hw, hp⟩
  have hw2 : WF r2.1.g ∧ Paired r2.1.g := by
    rw [← hs2]
    cases s.g.vertexOf b with
    | none => exact hcr b r1.1 hw1.1 hw1.2
    | some v => exact hw1
  have hva : r1.1.g.vertexOf a = some r1.2 := by
    rw [← hs1]
    cases h : s.g.vertexOf a with
    | none => exact addVertexN_vertexOf
    | some v => exact h
  have hva2 : r2.1.g.vertexOf a = some r1.2 := by
    rw [← hs2]
    cases h : s.g.vertexOf b with
    | none => exact addVertexN_vertexOf_mono hva
    | some v => exact hva
  have hvb2 : r2.1.g.vertexOf b = some r2.2 := by
    rw [← hs2]
    cases h : s.g.vertexOf b with
    | none => exact addVertexN_vertexOf
    | some v =>
      have : r1.1.g.vertexOf b = some v := by
        rw [← hs1]
        cases h' : s.g.vertexOf a with
        | none => exact addVertexN_vertexOf_mono h
        | some v' => exact h
      exact this
  have hne : r1.2 ≠ r2.2 := by
    intro h
    rw [← h] at hvb2
    exact hab (hw2.1.vertexOf_inj hva2 hvb2)
  obtain ⟨s', h1, h2, -⟩ := addEdgeD_follows (p := p) hw2.1 hw2.2 (hf2.ok (hf1.ok ho)) hne (hw2.1.live hva2) (hw2.1.live hvb2)
  exact ⟨s', h1, (hf1.trans hf2).trans h2⟩

theorem exec_follows {c : Cmd F E} (hc : c.grows) {s : GS F E} (hw : WF s.g) (hp : Paired s.g) (ho : ViewsOk s) :
    ∃ s', (exec c s).st? = some s' ∧ Follows s s' := by
  cases c with
  | addFrame f =>
    simp only [exec, st?_discard, addFrame]
    cases s.g.vertexOf f with
    | none => exact ⟨_, rfl, addVertexN_follows _ _ _⟩
    | some v => exact ⟨_, rfl, .refl _⟩
  | emplaceFrame f p =>
    simp only [exec, st?_discard, emplaceFrame]
    cases s.g.vertexOf f with
    | none => exact ⟨_, rfl, addVertexN_follows _ _ _⟩
    | some v => exact ⟨_, rfl, .refl _⟩
  | addEdge a b p => exact addEdge_follows hw hp ho hc
  | _ => exact hc.elim

theorem run_of_exec {c : Cmd F E} {cs : List (Cmd F E)} {s s1 : GS F E} (h : (exec c s).st? = some s1) :
    run (c :: cs) s = run cs s1 := by
  have hrun : run (c :: cs) s = match exec c s with
    | .ok _ s' => run cs s'
    | .throw _ s' => run cs s'
    | .ub _ => none := rfl
  rw [hrun]
  cases hx : exec c s with
  | ok a s' => rw [hx] at h; cases h; rfl
  | throw e s' => rw [hx] at h; cases h; rfl
  | ub r => rw [hx] at h; cases h

theorem grows_noSelf {c : Cmd F E} (hc : c.grows) : c.noSelf := by
  cases c <;> first | exact hc | trivial

theorem run_follows {cs : List (Cmd F E)} : ∀ {s : GS F E}, (∀ c ∈ cs, c.grows) → WF s.g → Paired s.g → ViewsOk s →
    ∃ s', run cs s = some s' ∧ Follows s s' := by
  induction cs with
  | nil => intro s _ _ _ _; exact ⟨s, rfl, .refl s⟩
  | cons c cs ih =>
    intro s hc hw hp ho
    obtain ⟨s1, h1, h2⟩ := exec_follows (hc c (by simp)) hw hp ho
    have hr : run [c] s = some s1 := by rw [run_of_exec h1]; rfl
    have hw1 : WF s1.g := run_wf hw hr
    have hp1 : Paired s1.g := run_paired hw hp hr (by
      intro c' hc'; rw [List.mem_singleton] at hc'; subst hc'; exact grows_noSelf (hc c' (by simp)))
    obtain ⟨s', h3, h4⟩ := ih (fun c' hc' => hc c' (List.mem_cons_of_mem _ hc')) hw1 hp1 (h2.ok ho)
    exact ⟨s', by rw [run_of_exec h1, h3], h2.trans h4⟩

/-- `getTree(r, true, view)` into a new view object makes a correct subscribed view -/
theorem getTree_keep {s : GS F E} (hw : WF s.g) (hp : Paired s.g) {r : FrameId} {u : VId} (hr : s.g.vertexOf r = some u) {q : Nat}
    (hq : s.views q = TreeView.empty) :
    ∃ s', getTree r true q s = .ok () s' ∧ s'.g = s.g ∧ s'.subs = s.subs ++ [q] ∧ (∀ p, p ≠ q → s'.views p = s.views p) ∧
      IsTreeView s.g u (s'.views q) := by
  obtain ⟨evs, lvl, h1, h2⟩ := searchEvents_done hw (hw.live hr)
  have hv := built_isTreeView hw hp h2
  have hpub := (getTreeInto_cross h2.good).2.2
  have h3 : getTree r true q s = .ok () { s with
      subs := s.subs ++ [q]
      views := setView (setView s.views q ((TreeView.empty.addRoot u).build evs)) q
        { (TreeView.empty.addRoot u).build evs with publisher := true } } := by
    simp [getTree, hr, getTreeInto, h1, hq, subscribeTreeView, setView, hpub]
  refine ⟨_, h3, rfl, rfl, ?_, ?_⟩
  · intro p hpq; simp [setView, hpq]
  · refine hv.of_view ?_ ?_ ?_ <;> simp [setView]

end GS
end Verif
