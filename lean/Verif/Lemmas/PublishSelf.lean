import Verif.Lemmas.Loose
import Verif.Lemmas.Publish

set_option linter.unusedSectionVars false
set_option linter.unusedSimpArgs false
/-! Publishing the current state of a graph with self edges. -/

namespace Verif
variable {F E : Type} [FrameProp F] [EdgeProp E]

/-- the stored edges from a vertex to itself -/
def G.selfs (g : G F E) (u : VId) : List (ERec E) := g.edges.filter (fun r => r.src = u ∧ r.tgt = u)

/-- every vertex has no or two edges to itself -/
def SelfTwo (g : G F E) : Prop := ∀ u, (g.selfs u).length = 0 ∨ (g.selfs u).length = 2

theorem G.selfs_removeEdge {g g1 : G F E} {i : EId} (h : g.removeEdge i = some g1) (hw : WF g) {e : ERec E} (he : e ∈ g.edges)
    (hi : e.id = i) (hn : e.src ≠ e.tgt) (u : VId) : g1.selfs u = g.selfs u := by
  obtain ⟨-, rfl⟩ := G.removeEdge_some h
  simp only [G.selfs, List.filter_filter]
  apply List.filter_congr
  intro r hr
  by_cases hri : r.id = i
  · have := map_inj_of_nodup hw.enodup hr he (hri.trans hi.symm)
    subst this
    have : ¬ (r.src = u ∧ r.tgt = u) := fun hh => hn (hh.1.trans hh.2.symm)
    simp [this]
  · simp [hri]

theorem G.selfs_setProp (g : G F E) (i : EId) (p : E) (u : VId) : ((g.setProp i p).selfs u).length = (g.selfs u).length := by
  simp only [G.selfs, G.setProp, List.filter_map, List.length_map]
  congr 1
  apply List.filter_congr
  intro r _
  simp only [Function.comp]
  split <;> rfl

theorem GStep.selfTwo {g g' : G F E} {x : Event × G F E} (hs : GStep g x g') (hw : WF g) (h : SelfTwo g) : SelfTwo g' := by
  cases hs with
  | @addV f p hn hp =>
    intro u
    rw [G.addVertex_new p hn]
    exact h u
  | dupV => exact h
  | @addE a b u v p ha hb hn =>
    intro w
    have hl : ((g.addEdge u v p).1.addEdge v u (EdgeProp.inverse p)).1.selfs w =
        g.selfs w ++ (if u = w ∧ v = w then [⟨g.nextE, u, v, p⟩] else []) ++ (if v = w ∧ u = w then [⟨g.nextE + 1, v, u, EdgeProp.inverse p⟩] else []) := by
      simp only [G.selfs, G.addEdge, List.filter_append, List.filter_cons, List.filter_nil, decide_eq_true_eq]
    rw [hl]
    by_cases hc : u = w ∧ v = w
    · obtain ⟨rfl, rfl⟩ := hc
      have h0 : g.selfs v = [] := by
        rw [List.eq_nil_iff_forall_not_mem]
        intro r hr
        simp only [G.selfs, List.mem_filter, decide_eq_true_eq] at hr
        have := G.edge_isSome.2 ⟨r, hr.1, hr.2.1, hr.2.2⟩
        rw [hn] at this
        cases this
      right
      simp [h0]
    · have hc' : ¬ (v = w ∧ u = w) := fun hh => hc ⟨hh.2, hh.1⟩
      rw [if_neg hc, if_neg hc', List.append_nil, List.append_nil]
      exact h w
  | @rmE g1 _ a b u v e1 e2 ha hb h1 h2 hg1 hg2 =>
    obtain ⟨m1, s1, t1⟩ := G.edge_some h1
    obtain ⟨m2, s2, t2⟩ := G.edge_some h2
    have huv : u ≠ v := by
      rintro rfl
      rw [h1] at h2
      obtain rfl := Option.some.inj h2
      obtain ⟨-, rfl⟩ := G.removeEdge_some hg1
      obtain ⟨⟨r, hr, hri⟩, -⟩ := G.removeEdge_some hg2
      simp [hri] at hr
    have m2' : e2 ∈ g1.edges := by
      obtain ⟨-, rfl⟩ := G.removeEdge_some hg1
      obtain ⟨⟨r, hr, hri⟩, -⟩ := G.removeEdge_some hg2
      have := map_inj_of_nodup hw.enodup (List.mem_of_mem_filter hr) m2 hri
      subst this
      exact hr
    intro w
    rw [G.selfs_removeEdge hg2 (hw.removeEdge hg1) m2' rfl (by rw [s2, t2]; exact huv.symm),
      G.selfs_removeEdge hg1 hw m1 rfl (by rw [s1, t1]; exact huv)]
    exact h w
  | setP ha hb h1 h2 =>
    intro w
    rw [G.selfs_setProp, G.selfs_setProp]
    exact h w
  | rmV hv hd => exact h

theorem run_selfTwo {cs : List (GS.Cmd F E)} {s : GS F E} (h : GS.run cs GS.init = some s) : SelfTwo s.g := by
  obtain ⟨l, h1, -⟩ := GS.run_advances WF.empty h
  have key : ∀ {P : G F E → Event → Prop} {g g' : G F E} {l : List (Event × G F E)}, GSteps P g l g' → WF g → SelfTwo g → SelfTwo g' := by
    intro P g g' l hs
    induction hs with
    | nil => intro _ h; exact h
    | cons hs _ _ ih => intro hw h; exact ih (hs.wf hw) (hs.selfTwo hw h)
  exact key h1 WF.empty (fun u => Or.inl rfl)

namespace GS

theorem isInv_ns {g : G F E} {e e' : ERec E} (hn : e.src ≠ e.tgt) : isInv g.ns e e' ↔ isInv g e e' := by
  unfold isInv
  rw [G.edge_ns _ (Ne.symm hn)]

theorem isInv_symm_ns {g : G F E} (hp : Paired g.ns) {e e' : ERec E} (hn : e.src ≠ e.tgt) (he : e ∈ g.edges) (h : isInv g e e') :
    isInv g e' e := by
  obtain ⟨-, k1, k2⟩ := G.edge_some h
  exact (isInv_ns (by rw [k1, k2]; exact hn.symm)).1 (isInv_symm hp (G.mem_ns.2 ⟨he, hn⟩) ((isInv_ns hn).2 h))

/-- the loop over the edges publishes one edge of each pair, and every self edge -/
theorem publish_fold_ns {g : G F E} (hw : WF g) (hp : Paired g.ns) (mk : FrameId → FrameId → EId → Event) (l : List (ERec E)) :
    ∀ (pre : List (ERec E)) (st : List EId × List Event) (pub : List (ERec E)),
    (pre ++ l) = g.edges → pub.Sublist pre →
    (∀ i, i ∈ st.1 ↔ ∃ e ∈ pub, ∃ e', isInv g e e' ∧ e'.id = i) →
    st.2 = pub.map (fun e => mk (nameOf g e.src) (nameOf g e.tgt) e.id) →
    (∀ e ∈ pre, e ∉ pub → e.src ≠ e.tgt ∧ ∃ e' ∈ pub, isInv g e e') →
    (∀ e ∈ pub, ∀ e' ∈ pub, e.src ≠ e.tgt → ¬ isInv g e e') →
    ∃ st' pub', l.foldlM (publishEdge g mk) st = some st' ∧ List.Sublist pub' g.edges ∧
      st'.2 = pub'.map (fun e => mk (nameOf g e.src) (nameOf g e.tgt) e.id) ∧
      (∀ e ∈ g.edges, e ∉ pub' → e.src ≠ e.tgt ∧ ∃ e' ∈ pub', isInv g e e') ∧
      (∀ e ∈ pub', ∀ e' ∈ pub', e.src ≠ e.tgt → ¬ isInv g e e') := by
  induction l with
  | nil =>
    intro pre st pub h1 h2 h3 h4 h5 h6
    simp only [List.append_nil] at h1
    subst h1
    exact ⟨st, pub, rfl, h2, h4, h5, h6⟩
  | cons e l ih =>
    intro pre st pub h1 h2 h3 h4 h5 h6
    have hem : e ∈ g.edges := by rw [← h1]; simp
    have hnd : g.edges.Nodup := List.Nodup.of_map _ hw.enodup
    have hepre : e ∉ pre := by
      rw [← h1] at hnd
      intro hh
      exact (List.nodup_append.1 hnd).2.2 e hh e (by simp) rfl
    have hpubm : ∀ x ∈ pub, x ∈ g.edges := by
      intro x hx; rw [← h1]; exact List.mem_append_left _ (h2.subset hx)
    have hid : ∀ x ∈ g.edges, ∀ y ∈ g.edges, x.id = y.id → x = y := fun x hx y hy h =>
      map_inj_of_nodup hw.enodup hx hy h
    by_cases hskip : e.id ∈ st.1
    · have hstep : publishEdge g mk st e = some st := by simp [publishEdge, hskip]
      obtain ⟨p, hpp, p', hp1, hp2⟩ := (h3 e.id).1 hskip
      have hp'e : p' = e := hid _ (G.edge_some hp1).1 _ hem hp2
      subst hp'e
      have hpn : p.src ≠ p.tgt := by
        intro hh
        -- the lookup finds the first self edge, which is not later than `p`
        have hf := hp1
        unfold isInv at hf
        simp only [G.edge, G.outEdges, List.find?_filter, ← h1, List.find?_append] at hf
        cases hpre : List.find? (fun a => decide (decide (a.src = p.tgt) = true ∧ decide (a.tgt = p.src) = true)) pre with
        | none =>
          have := List.find?_eq_none.1 hpre p (h2.subset hpp)
          simp [hh] at this
        | some q =>
          rw [hpre] at hf
          simp only [Option.some_or, Option.some.injEq] at hf
          subst hf
          exact hepre (List.mem_of_find?_eq_some hpre)
      have hsym := isInv_symm_ns hp hpn (hpubm p hpp) hp1
      have hen : p'.src ≠ p'.tgt := by
        obtain ⟨-, k1, k2⟩ := G.edge_some hp1
        rw [k1, k2]
        exact hpn.symm
      obtain ⟨st', pub', r1, r2⟩ := ih (pre ++ [p']) st pub (by simp [h1]) (h2.trans (by simp)) h3 h4 (by
        intro x hx hxp
        rcases List.mem_append.1 hx with hx | hx
        · exact h5 x hx hxp
        · obtain rfl : x = p' := by simpa using hx
          exact ⟨hen, p, hpp, hsym⟩) h6
      exact ⟨st', pub', by simp [List.foldlM_cons, hstep, r1], r2⟩
    · obtain ⟨ei, hei, heim⟩ : ∃ e', isInv g e e' ∧ e' ∈ g.edges := by
        by_cases hn : e.src = e.tgt
        · obtain ⟨e', he'⟩ := Option.isSome_iff_exists.1 (G.edge_isSome (g := g) (u := e.tgt) (v := e.src) |>.2 ⟨e, hem, hn, hn.symm⟩)
          exact ⟨e', he', (G.edge_some he').1⟩
        · obtain ⟨e', k1, k2⟩ := isInv_exists hp (G.mem_ns.2 ⟨hem, hn⟩)
          exact ⟨e', (isInv_ns hn).1 k1, (G.mem_ns.1 k2).1⟩
      obtain ⟨rs, hrs, hrs'⟩ := hw.esrc e hem
      obtain ⟨rt, hrt, hrt'⟩ := hw.etgt e hem
      have f1 : g.findV e.src = some rs := hw.findV_iff.2 ⟨hrs, hrs'⟩
      have f2 : g.findV e.tgt = some rt := hw.findV_iff.2 ⟨hrt, hrt'⟩
      have n1 : nameOf g e.src = FrameProp.getId rs.prop := by simp [nameOf, f1]
      have n2 : nameOf g e.tgt = FrameProp.getId rt.prop := by simp [nameOf, f2]
      have hstep : publishEdge g mk st e =
          some (st.1 ++ [ei.id], st.2 ++ [mk (nameOf g e.src) (nameOf g e.tgt) e.id]) := by
        simp only [publishEdge, hskip, if_false, f1, f2, n1, n2]
        rw [hei]
      obtain ⟨st', pub', r1, r2⟩ := ih (pre ++ [e]) (st.1 ++ [ei.id], st.2 ++ [mk (nameOf g e.src) (nameOf g e.tgt) e.id])
        (pub ++ [e]) (by simp [h1]) (h2.append (List.Sublist.refl _)) (by
          intro i
          simp only [List.mem_append, List.mem_singleton, h3]
          constructor
          · rintro (⟨x, hx, y, hy⟩ | rfl)
            · exact ⟨x, Or.inl hx, y, hy⟩
            · exact ⟨e, Or.inr rfl, ei, hei, rfl⟩
          · rintro ⟨x, hx | rfl, y, hy, hyi⟩
            · exact Or.inl ⟨x, hx, y, hy, hyi⟩
            · right
              have : y = ei := Option.some.inj (hy.symm.trans hei)
              rw [← hyi, this]) (by simp [h4]) (by
          intro x hx hxp
          have hxp' : x ∉ pub ∧ x ≠ e := by
            constructor
            · intro hh; exact hxp (List.mem_append_left _ hh)
            · rintro rfl; exact hxp (by simp)
          rcases List.mem_append.1 hx with hx | hx
          · obtain ⟨hn, y, hy, hy'⟩ := h5 x hx hxp'.1
            exact ⟨hn, y, List.mem_append_left _ hy, hy'⟩
          · exact (hxp'.2 (by simpa using hx)).elim) (by
          intro x hx y hy hn hxy
          rcases List.mem_append.1 hx with hx' | hx' <;> rcases List.mem_append.1 hy with hy' | hy' <;> clear hx hy <;>
            rename' hx' => hx, hy' => hy
          · exact h6 x hx y hy hn hxy
          · obtain rfl : y = e := by simpa using hy
            exact hskip ((h3 y.id).2 ⟨x, hx, y, hxy, rfl⟩)
          · obtain rfl : x = e := by simpa using hx
            have : y = ei := Option.some.inj (hxy.symm.trans hei)
            exact hskip ((h3 x.id).2 ⟨y, hy, x, isInv_symm_ns hp hn hem hxy, rfl⟩)
          · obtain rfl : x = e := by simpa using hx
            obtain rfl : y = x := by simpa using hy
            obtain ⟨-, k, -⟩ := G.edge_some hxy
            exact hn k)
      refine ⟨st', pub', ?_, r2⟩
      simp only [List.foldlM_cons, hstep]
      exact r1

end GS
end Verif
