import Verif.Model.Visit
import Verif.Lemmas.Abs
import Verif.Lemmas.ItemReenter
import Verif.Lemmas.ItemChain

set_option linter.unusedSectionVars false
set_option linter.unusedSimpArgs false
/-! The list of vertices under calls: appended at the end, sorted by age; visitors that call the graph. -/

namespace Verif
variable {F E : Type} [FrameProp F] [EdgeProp E]

/-- the vertices in the order of their creation -/
def G.Aged (g : G F E) : Prop := (g.verts.map VRec.id).Pairwise (fun a b => (a : Nat) < b)

/-- what calls do to the list of vertices -/
structure Ages (g g' : G F E) : Prop where
  lt : ∀ r ∈ g.verts, (r.id : Nat) < g.nextV
  wf : WF g'
  aged : G.Aged g'
  next : (g.nextV : Nat) ≤ g'.nextV
  old : ∀ r ∈ g'.verts, (∃ r0 ∈ g.verts, r0.id = r.id) ∨ (g.nextV : Nat) ≤ r.id
  name : ∀ r ∈ g'.verts, ∀ r0 ∈ g.verts, r0.id = r.id → FrameProp.getId r0.prop = FrameProp.getId r.prop

theorem Ages.refl {g : G F E} (hw : WF g) (h : g.Aged) : Ages g g :=
  ⟨hw.vlt, hw, h, Nat.le_refl _, fun r hr => .inl ⟨r, hr, rfl⟩, fun r hr r0 h0 e => by rw [map_inj_of_nodup hw.vnodup h0 hr e]⟩

theorem Ages.trans {g g' g'' : G F E} (h : Ages g g') (h' : Ages g' g'') : Ages g g'' := by
  refine ⟨h.lt, h'.wf, h'.aged, Nat.le_trans h.next h'.next, fun r hr => ?_, fun r hr r0 h0 e => ?_⟩
  · rcases h'.old r hr with ⟨r0, h0, e0⟩ | h0
    · rcases h.old r0 h0 with ⟨r1, h1, e1⟩ | h1
      · exact .inl ⟨r1, h1, e1.trans e0⟩
      · exact .inr (by rw [← e0]; exact h1)
    · exact .inr (Nat.le_trans h.next h0)
  · rcases h'.old r hr with ⟨r1, h1, e1⟩ | h1
    · rw [h.name r1 h1 r0 h0 (e.trans e1.symm), h'.name r hr r1 h1 e1]
    · have h2 := h.lt r0 h0
      rw [e] at h2
      exact absurd (Nat.lt_of_lt_of_le h2 (Nat.le_trans h.next h1)) (Nat.lt_irrefl _)

theorem Ages.of_verts {g g' : G F E} (hw : WF g) (hw' : WF g') (h : g.Aged)
    (hv : g'.verts.map (fun r => (r.id, FrameProp.getId r.prop)) = g.verts.map (fun r => (r.id, FrameProp.getId r.prop))) (hn : g'.nextV = g.nextV) :
    Ages g g' := by
  have hid : g'.verts.map VRec.id = g.verts.map VRec.id := by
    have := congrArg (List.map Prod.fst) hv
    simpa [List.map_map, Function.comp_def] using this
  have hmem : ∀ r ∈ g'.verts, ∃ r0 ∈ g.verts, r0.id = r.id ∧ FrameProp.getId r0.prop = FrameProp.getId r.prop := by
    intro r hr
    have : (r.id, FrameProp.getId r.prop) ∈ g.verts.map (fun r => (r.id, FrameProp.getId r.prop)) := by
      rw [← hv]; exact List.mem_map.2 ⟨r, hr, rfl⟩
    obtain ⟨r0, h0, e0⟩ := List.mem_map.1 this
    simp only [Prod.mk.injEq] at e0
    exact ⟨r0, h0, e0⟩
  refine ⟨hw.vlt, hw', by unfold G.Aged; rw [hid]; exact h, by rw [hn], fun r hr => .inl ?_, fun r hr r0 h0 e => ?_⟩
  · obtain ⟨r0, h0, e0, -⟩ := hmem r hr
    exact ⟨r0, h0, e0⟩
  · obtain ⟨r1, h1, e1, e2⟩ := hmem r hr
    rw [map_inj_of_nodup hw.vnodup h0 h1 (e.trans e1.symm), e2]

theorem GStep.ages {g g' : G F E} {x : Event × G F E} (hs : GStep g x g') (hw : WF g) (h : g.Aged) : Ages g g' := by
  have hw' := hs.wf hw
  cases hs with
  | addV hn hp =>
    rw [G.addVertex_new _ hn] at hw' ⊢
    refine ⟨hw.vlt, hw', ?_, Nat.le_succ _, ?_, ?_⟩
    · unfold G.Aged
      simp only [List.map_append, List.map_cons, List.map_nil]
      rw [List.pairwise_append]
      refine ⟨h, by simp, ?_⟩
      intro a ha b hb
      simp only [List.mem_singleton] at hb
      subst hb
      obtain ⟨r, hr, rfl⟩ := List.mem_map.1 ha
      exact hw.vlt r hr
    · intro r hr
      rcases List.mem_append.1 hr with hr | hr
      · exact .inl ⟨r, hr, rfl⟩
      · simp only [List.mem_singleton] at hr
        subst hr
        exact .inr (Nat.le_refl _)
    · intro r hr r0 h0 e
      rcases List.mem_append.1 hr with hr | hr
      · rw [map_inj_of_nodup hw.vnodup h0 hr e]
      · simp only [List.mem_singleton] at hr
        subst hr
        have := hw.vlt r0 h0
        rw [e] at this
        exact absurd this (Nat.lt_irrefl _)
  | dupV => exact .refl hw h
  | addE => exact .of_verts hw hw' h rfl rfl
  | rmE ha hb h1 h2 hg1 hg2 =>
    unfold G.removeEdge at hg1 hg2
    split at hg1 <;> cases hg1
    split at hg2 <;> cases hg2
    exact .of_verts hw hw' h rfl rfl
  | setP => exact .of_verts hw hw' h rfl rfl
  | rmV hv hd =>
    refine ⟨hw.vlt, hw', ?_, Nat.le_refl _, fun r hr => .inl ⟨r, (List.mem_filter.1 hr).1, rfl⟩, fun r hr r0 h0 e => ?_⟩
    · exact h.sublist (List.filter_sublist.map _)
    · rw [map_inj_of_nodup hw.vnodup h0 (List.mem_filter.1 hr).1 e]

theorem GSteps.ages {P : G F E → Event → Prop} {g g' : G F E} {l : List (Event × G F E)} (hs : GSteps P g l g') :
    WF g → g.Aged → Ages g g' := by
  induction hs with
  | nil => intro hw h; exact .refl hw h
  | cons hs _ _ ih =>
    intro hw h
    have h1 := hs.ages hw h
    exact h1.trans (ih h1.wf h1.aged)

namespace GS

theorem run_ages {cs : List (Cmd F E)} {s s' : GS F E} (hw : WF s.g) (h : s.g.Aged) (hr : run cs s = some s') : Ages s.g s'.g := by
  obtain ⟨l, h1, -⟩ := run_advances hw hr
  exact h1.ages hw h

theorem reached_aged {cs : List (Cmd F E)} {s : GS F E} (hr : run cs init = some s) : WF s.g ∧ s.g.Aged := by
  have := run_ages WF.empty (by simp [G.Aged, init, G.empty]) hr
  exact ⟨this.wf, this.aged⟩

theorem nextVertex_none {v : VId} {l : List (VRec F)} : nextVertex v l = none ↔ ∀ r ∈ l, r.id ≠ v := by
  induction l with
  | nil => simp [nextVertex]
  | cons r l ih => by_cases h : r.id = v <;> simp [nextVertex, h, ih]

/-- in a list sorted by age the next vertex is the youngest that is older -/
theorem nextVertex_some {v : VId} : ∀ {l : List (VRec F)} {o : Option VId}, (l.map VRec.id).Pairwise (fun a b => (a : Nat) < b) → nextVertex v l = some o →
    (∃ r ∈ l, r.id = v) ∧ (o = none → ∀ r ∈ l, (r.id : Nat) ≤ v) ∧
    ∀ w, o = some w → (v : Nat) < w ∧ (∃ r ∈ l, r.id = w) ∧ ∀ r ∈ l, (r.id : Nat) < w → (r.id : Nat) ≤ v := by
  intro l
  induction l with
  | nil => intro o _ h; simp [nextVertex] at h
  | cons r l ih =>
    intro o hp h
    rw [List.map_cons, List.pairwise_cons] at hp
    obtain ⟨hp1, hp2⟩ := hp
    by_cases he : r.id = v
    · simp only [nextVertex, he, if_true, Option.some.injEq] at h
      subst h
      refine ⟨⟨r, .head _, he⟩, ?_, ?_⟩
      · intro hn r' hr'
        cases l with
        | nil => simp only [List.mem_singleton] at hr'; subst hr'; exact Nat.le_of_eq he
        | cons => simp at hn
      · intro w hw
        cases l with
        | nil => simp at hw
        | cons r2 l =>
          simp only [List.head?_cons, Option.map_some, Option.some.injEq] at hw
          subst hw
          refine ⟨by rw [← he]; exact hp1 _ (by simp), ⟨r2, by simp, rfl⟩, ?_⟩
          intro r' hr' hlt
          rcases List.mem_cons.1 hr' with rfl | hr'
          · exact Nat.le_of_eq he
          · rcases List.mem_cons.1 hr' with rfl | hr'
            · exact absurd hlt (Nat.lt_irrefl _)
            · rw [List.map_cons, List.pairwise_cons] at hp2
              have := hp2.1 r'.id (List.mem_map.2 ⟨r', hr', rfl⟩)
              exact absurd (Nat.lt_trans hlt this) (Nat.lt_irrefl _)
    · simp only [nextVertex, he, if_false] at h
      obtain ⟨⟨r0, h0, e0⟩, h1, h2⟩ := ih hp2 h
      have hrv : (r.id : Nat) < v := by rw [← e0]; exact hp1 _ (List.mem_map.2 ⟨r0, h0, rfl⟩)
      refine ⟨⟨r0, .tail _ h0, e0⟩, ?_, ?_⟩
      · intro hn r' hr'
        rcases List.mem_cons.1 hr' with rfl | hr'
        · exact Nat.le_of_lt hrv
        · exact h1 hn r' hr'
      · intro w hw
        obtain ⟨a, ⟨b, b1, b2⟩, c⟩ := h2 w hw
        refine ⟨a, ⟨b, .tail _ b1, b2⟩, ?_⟩
        intro r' hr' hlt
        rcases List.mem_cons.1 hr' with rfl | hr'
        · exact Nat.le_of_lt hrv
        · exact c r' hr' hlt

/-- the state of a visit: the vertex `v` is the next one -/
structure Visiting (s0 s : GS F E) (seen : List VId) (v : VId) : Prop where
  ages : Ages s0.g s.g
  here : ∃ r ∈ s.g.verts, r.id = v
  before : ∀ r ∈ s.g.verts, (r.id : Nat) < v → r.id ∈ seen
  sorted : seen.Pairwise (fun a b => (a : Nat) < b)
  lt : ∀ x ∈ seen, (x : Nat) < v
  known : ∀ x ∈ seen, (∃ r ∈ s0.g.verts, r.id = x) ∨ (s0.g.nextV : Nat) ≤ x

theorem Visiting.start {s : GS F E} (hw : WF s.g) (h : s.g.Aged) {r : VRec F} {l : List (VRec F)} (hl : s.g.verts = r :: l) : Visiting s s [] r.id := by
  refine ⟨.refl hw h, ⟨r, by rw [hl]; exact .head _, rfl⟩, ?_, .nil, by simp, by simp⟩
  intro r' hr' hlt
  rw [hl] at hr'
  rcases List.mem_cons.1 hr' with rfl | hr'
  · exact absurd hlt (Nat.lt_irrefl _)
  · unfold G.Aged at h
    rw [hl, List.map_cons, List.pairwise_cons] at h
    have := h.1 r'.id (List.mem_map.2 ⟨r', hr', rfl⟩)
    exact absurd (Nat.lt_trans hlt this) (Nat.lt_irrefl _)

/-- after the calls of the visitor for `v` -/
theorem Visiting.called {s0 s s1 : GS F E} {seen : List VId} {v : VId} (h : Visiting s0 s seen v) {cs : List (Cmd F E)} (hr : run cs s = some s1) :
    Ages s0.g s1.g ∧ (∀ r ∈ s1.g.verts, (r.id : Nat) ≤ v → r.id ∈ seen ++ [v]) ∧ (seen ++ [v]).Pairwise (fun a b => (a : Nat) < b) ∧
      (∀ x ∈ seen ++ [v], (x : Nat) ≤ v) ∧ (∀ x ∈ seen ++ [v], (∃ r ∈ s0.g.verts, r.id = x) ∨ (s0.g.nextV : Nat) ≤ x) := by
  have ha := run_ages h.ages.wf h.ages.aged hr
  obtain ⟨rv, hrv, rfl⟩ := h.here
  refine ⟨h.ages.trans ha, ?_, ?_, ?_, ?_⟩
  · intro r hr hle
    rcases Nat.lt_or_eq_of_le hle with hlt | heq
    · rcases ha.old r hr with ⟨r0, h0, e0⟩ | h0
      · have := h.before r0 h0 (by rw [e0]; exact hlt)
        rw [← e0]; simp [this]
      · exact absurd (Nat.lt_trans (Nat.lt_of_lt_of_le (h.ages.wf.vlt rv hrv) h0) hlt) (Nat.lt_irrefl _)
    · have : r.id = rv.id := heq
      rw [this]; simp
  · rw [List.pairwise_append]
    exact ⟨h.sorted, by simp, fun a ha b hb => by simp only [List.mem_singleton] at hb; subst hb; exact h.lt a ha⟩
  · intro x hx
    rcases List.mem_append.1 hx with hx | hx
    · exact Nat.le_of_lt (h.lt x hx)
    · simp only [List.mem_singleton] at hx; exact Nat.le_of_eq hx
  · intro x hx
    rcases List.mem_append.1 hx with hx | hx
    · exact h.known x hx
    · simp only [List.mem_singleton] at hx
      subst hx
      exact h.ages.old rv hrv

theorem Visiting.next {s0 s s1 : GS F E} {seen : List VId} {v w : VId} (h : Visiting s0 s seen v) {cs : List (Cmd F E)} (hr : run cs s = some s1)
    (hn : nextVertex v s1.g.verts = some (some w)) : Visiting s0 s1 (seen ++ [v]) w := by
  obtain ⟨a, b, c, d, e⟩ := h.called hr
  obtain ⟨-, -, h3⟩ := nextVertex_some a.aged hn
  obtain ⟨h4, h5, h6⟩ := h3 w rfl
  exact ⟨a, h5, fun r hr hlt => b r hr (h6 r hr hlt), c, fun x hx => Nat.lt_of_le_of_lt (d x hx) h4, e⟩

/-- what a visit that returns has visited -/
theorem Visiting.ok {vis : Visitor F E} {s0 s' : GS F E} : ∀ (n : Nat) {s : GS F E} {seen res : List VId} {v : VId}, Visiting s0 s seen v →
    visitFrom vis n seen v s = .ok res s' →
    res.Pairwise (fun a b => (a : Nat) < b) ∧ (∀ r ∈ s'.g.verts, r.id ∈ res) ∧ Ages s0.g s'.g ∧
      ∀ x ∈ res, (∃ r ∈ s0.g.verts, r.id = x) ∨ (s0.g.nextV : Nat) ≤ x := by
  intro n
  induction n with
  | zero => intro s seen res v _ h; simp [visitFrom] at h
  | succ n ih =>
    intro s seen res v hv h
    unfold visitFrom at h
    cases hr : run (vis seen v s).1 s with
    | none => simp [hr] at h
    | some s1 =>
      simp only [hr] at h
      split at h
      · cases h
      · cases hn : nextVertex v s1.g.verts with
        | none => simp [hn] at h
        | some o =>
          cases o with
          | none =>
            simp only [hn, Res.ok.injEq] at h
            obtain ⟨rfl, rfl⟩ := h
            obtain ⟨a, b, c, d, e⟩ := hv.called hr
            exact ⟨c, fun r hr => b r hr ((nextVertex_some a.aged hn).2.1 rfl r hr), a, e⟩
          | some w =>
            simp only [hn] at h
            exact ih (hv.next hr hn) h

theorem visit_bound0 (v N : Nat) (h : N < 0 + v + 1) : ¬ v < N := by omega

theorem visit_bound (v w n N : Nat) (h : v < w) (h' : N < n + 1 + v + 1) : N < n + w + 1 := by omega

/-- a visit whose visitor never removes the visited vertex, makes no undefined call and no vertex from number `N` on -/
theorem Visiting.ends {vis : Visitor F E} {s0 : GS F E} {N : Nat} {R : GS F E → Prop} (hR : ∀ s cs s1, R s → run cs s = some s1 → R s1)
    (hk : ∀ seen v s, R s → ∃ s1, run (vis seen v s).1 s = some s1 ∧ ((∃ r ∈ s.g.verts, r.id = v) → (∃ r ∈ s1.g.verts, r.id = v)) ∧
      (s.g.nextV ≤ N → s1.g.nextV ≤ N)) :
    ∀ (n : Nat) {s : GS F E} {seen : List VId} {v : VId}, Visiting s0 s seen v → R s → (s.g.nextV : Nat) ≤ N → N < n + v + 1 →
    (∃ res s', visitFrom vis n seen v s = .ok res s') ∨ ∃ x s', visitFrom vis n seen v s = .throw x s' := by
  intro n
  induction n with
  | zero =>
    intro s seen v hv hs hN hlt
    obtain ⟨r, hr, rfl⟩ := hv.here
    exact absurd (Nat.lt_of_lt_of_le (hv.ages.wf.vlt r hr) hN) (visit_bound0 _ _ hlt)
  | succ n ih =>
    intro s seen v hv hs hN hlt
    obtain ⟨s1, h1, h2, h3⟩ := hk seen v s hs
    unfold visitFrom
    simp only [h1]
    split
    · exact .inr ⟨_, _, rfl⟩
    · cases hn : nextVertex v s1.g.verts with
      | none =>
        obtain ⟨r, hr, e⟩ := h2 hv.here
        exact absurd e (nextVertex_none.1 hn r hr)
      | some o =>
        cases o with
        | none => exact .inl ⟨_, _, rfl⟩
        | some w =>
          have hnx := hv.next h1 hn
          have hvw : (v : Nat) < w := hnx.lt v (by simp)
          exact ih hnx (hR _ _ _ hs h1) (h3 hN) (visit_bound v w n N hvw hlt)

end GS

namespace EG

theorem Chain.ages {P : GS.Cmd EFrame E → Prop} {s s' : EG E} (h : Chain P s s') : WF s.gs.g → s.gs.g.Aged → Ages s.gs.g s'.gs.g := by
  intro hw ha
  induction h with
  | refl => exact .refl hw ha
  | tail _ hat ih =>
    refine ih.trans ?_
    have hw1 := ih.wf
    have ha1 := ih.aged
    cases hat with
    | call _ hx =>
      obtain ⟨l, h1, -⟩ := GS.exec_advances hw1 hx
      exact h1.ages hw1 ha1
    | mod v hid =>
      rename_i b _ h
      refine .of_verts hw1 (hw1.modV v (fun p => hid p)) ha1 ?_ rfl
      simp only [modFrame, G.modV, List.map_map]
      apply List.map_congr_left
      intro r _
      simp only [Function.comp]
      split
      · simp only [Prod.mk.injEq, true_and]; exact hid _
      · rfl
    | heap => exact .refl hw1 ha1
    | added => exact .refl hw1 ha1
    | removed => exact .refl hw1 ha1

/-- what a visit of the items that returns has visited -/
theorem visitRest_ok {vis : ItemVisitor E} {f : FrameId} {v : VId} : ∀ (l : List ItemId) {seen res : List ItemId} {s s' : EG E},
    WF s.gs.g → s.gs.g.Aged → visitRest vis f v seen l s = .ok res s' →
    res = seen ++ l ∧ itemsAt v s' = itemsAt v s ∧ Ages s.gs.g s'.gs.g ∧ (∃ tr, s'.gs.trace = s.gs.trace ++ tr ∧ ∀ x ∈ tr, touches f x.1 = false) ∧
      ∃ cs, run cs s = some s' := by
  intro l
  induction l with
  | nil =>
    intro seen res s s' hw ha h
    simp only [visitRest, Res.ok.injEq] at h
    obtain ⟨rfl, rfl⟩ := h
    exact ⟨by simp, rfl, .refl hw ha, ⟨[], by simp, by simp⟩, [], rfl⟩
  | cons i l ih =>
    intro seen res s s' hw ha h
    unfold visitRest at h
    cases hr : run (vis seen i s).1 s with
    | none => simp [hr] at h
    | some s1 =>
      simp only [hr] at h
      split at h
      · cases h
      · split at h
        · cases h
        · rename_i hx
          push Not at hx
          obtain ⟨hx1, hx2⟩ := hx
          have hch := run_chain (P := fun _ => True) (fun c _ => by cases c <;> simp [Cmd.within]) hr
          have hag := hch.ages hw ha
          obtain ⟨a, b, c, ⟨tr, d1, d2⟩, cs, e⟩ := ih hag.wf hag.aged h
          obtain ⟨tr0, t1⟩ := hch.trace hw
          refine ⟨by rw [a]; simp, by rw [b, hx2], hag.trans c, ⟨tr0 ++ tr, by rw [d1, t1, List.append_assoc], ?_⟩, _, run_append_of hr e⟩
          intro x hx
          rcases List.mem_append.1 hx with hx | hx
          · simp only [touched, t1, List.drop_left, Bool.not_eq_true, List.any_eq_false] at hx1
            have := hx1 x hx
            simpa using this
          · exact d2 x hx

end EG
end Verif
