import Verif.Lemmas.ItemSim
import Verif.Spec.Demo

set_option linter.unusedSectionVars false
set_option linter.unusedSimpArgs false
/-! What histories do to the items, whatever the graph below looks like. -/

namespace Verif
open EG GS
variable {E : Type} [EdgeProp E] {ty : ItemId → TypeIdx}

/-- the item lists and the frame names of the items -/
structure HSim (ty : ItemId → TypeIdx) (s : EG E) (S : ItemSpec) : Prop where
  good : EG.Good ty s
  stocked : Stocked ty s.gs.g S.items
  name : ∀ i, (s.heap i).frame = S.name i

namespace HSim
variable {s s' : EG E} {S : ItemSpec}

theorem init (heap : ItemId → ItemObj) :
    HSim (E := E) (fun i => (heap i).type) (EG.init heap) ⟨Shelf.empty, fun i => (heap i).frame⟩ :=
  ⟨EG.Good.init heap, EG.Stocked.init _ heap, fun _ => rfl⟩

theorem base (h : HSim ty s S) {c : GS.Cmd EFrame E} (hf : itemFree c) (hx : (EG.base s.heap (GS.exec c s.gs)).st? = some s') :
    HSim ty s' S ∧ s'.heap = s.heap ∧ Keeps s.gs.g s'.gs.g ∧ (GS.exec c s.gs).st? = some s'.gs := by
  have hh : (GS.exec c s.gs).st? = some s'.gs ∧ s'.heap = s.heap := by
    cases hy : GS.exec c s.gs <;> rw [hy] at hx <;> simp only [EG.base, Res.st?, Option.some.injEq, reduceCtorEq] at hx <;>
      subst hx <;> exact ⟨rfl, rfl⟩
  have hw := (base_follows hf h.good hx).1
  have hk := exec_keeps hf hh.1
  exact ⟨⟨hw, hk.stocked h.good.wf hw.wf h.stocked, by rw [hh.2]; exact h.name⟩, hh.2, hk, hh.1⟩

theorem addItem (h : HSim ty s S) {f : FrameId} {i : ItemId} :
    (s.gs.g.vertexOf f = none ∧ addItemToFrame f i s = .throw (.unknownFrame f) s) ∨
    ((s.gs.g.vertexOf f).isSome ∧ ∃ s', addItemToFrame f i s = .ok () s' ∧ HSim ty s' ((S.put f (S.items f ++ [i])).rename i f)) := by
  cases hv : s.gs.g.vertexOf f with
  | none => left; exact ⟨rfl, by unfold addItemToFrame; simp only [hv]⟩
  | some v =>
    right
    obtain ⟨s', e1, e2, e3, e4, e5, e6, e7, e8⟩ := h.good.addItem i hv
    refine ⟨rfl, s', e1, e2, e8 _ h.stocked, fun j => ?_⟩
    rw [e7 j, h.name j]; rfl

theorem record (h : HSim ty s S) {f : FrameId} {v : VId} (hv : s.gs.g.vertexOf f = some v) :
    ∃ r, s.gs.g.findV v = some r ∧ r ∈ s.gs.g.verts ∧ r.prop.id = f ∧
      r.prop.Holds ty (S.items f) ∧ r.prop.Tidy := by
  obtain ⟨r, hr, hid⟩ := h.good.wf.live_of_vertexOf hv
  have hid' : r.prop.id = f := hid
  refine ⟨r, hr, (G.findV_some hr).1, hid', ?_, h.good.tidy r (G.findV_some hr).1⟩
  rw [← hid']; exact h.stocked.holds r (G.findV_some hr).1

theorem removeItem (h : HSim ty s S) {i : ItemId} :
    (∃ x, EG.removeItem i s = .throw x s ∧ i ∉ S.items (S.name i)) ∨
    (∃ s', EG.removeItem i s = .ok () s' ∧ i ∈ S.items (S.name i) ∧
      HSim ty s' ((S.put (S.name i) ((S.items (S.name i)).erase i)).rename i "")) := by
  cases hv : s.gs.g.vertexOf (s.heap i).frame with
  | none =>
    left
    refine ⟨.unknownFrame (s.heap i).frame, by unfold EG.removeItem; simp only [hv], ?_⟩
    rw [← h.name, h.stocked.absent _ hv]; simp
  | some v =>
    obtain ⟨r, hr, hm, hid, hh, hT⟩ := h.record hv
    cases hl : r.prop.items.get (ty i) with
    | none =>
      left
      refine ⟨.noItemsOfType (s.heap i).frame, by unfold EG.removeItem; simp only [hv, hr, h.good.types, hl], ?_⟩
      intro hi
      rw [← h.name] at hi
      have := (hh.get_isSome hT (ty i)).2 ⟨i, hi, rfl⟩
      simp [hl] at this
    | some l =>
      by_cases hi : i ∈ l
      · right
        obtain ⟨s', e1, e2, -, -, -, -, e7, e8⟩ := h.good.removeItem hv hr hl hi
        refine ⟨s', e1, ?_, e2, ?_, fun j => ?_⟩
        · rw [hh.get_some hl] at hi
          rw [← h.name]; exact (List.mem_filter.1 hi).1
        · rw [← h.name]; exact e8 _ h.stocked
        · rw [e7 j, h.name j]; rfl
      · left
        refine ⟨.unknownItem, by unfold EG.removeItem; simp only [hv, hr, h.good.types, hl, hi, if_false], ?_⟩
        intro hi'
        rw [← h.name] at hi'
        exact hi (by rw [hh.get_some hl]; simp [hi'])

theorem clearFrame (h : HSim ty s S) {f : FrameId} :
    (s.gs.g.vertexOf f = none ∧ EG.clearFrame f s = .throw (.unknownFrame f) s) ∨
    ((s.gs.g.vertexOf f).isSome ∧ ∃ s', EG.clearFrame f s = .ok () s' ∧ HSim ty s' (S.put f []) ∧
      s'.gs.g.edges = s.gs.g.edges ∧ (∀ x, s'.gs.g.vertexOf x = s.gs.g.vertexOf x)) := by
  cases hv : s.gs.g.vertexOf f with
  | none => left; exact ⟨rfl, by unfold EG.clearFrame; simp only [hv]⟩
  | some v =>
    right
    obtain ⟨r, tr, s', e0, e1, e2, e3, e4, e5, e6⟩ := h.good.clearFrame hv
    refine ⟨rfl, s', e1, ⟨e2, (e6 _ h.stocked).2.2, by rw [e3]; exact h.name⟩, by rw [e4]; rfl, fun x => by rw [e4]; rfl⟩

theorem removeFrame (h : HSim ty s S) {f : FrameId} :
    (s.gs.g.vertexOf f = none ∧ EG.removeFrame f s = .throw (.unknownFrame f) s) ∨
    (∃ s', EG.removeFrame f s = .throw (.frameStillConnected f) s' ∧ HSim ty s' (S.put f [])) ∨
    (∃ s', EG.removeFrame f s = .ok () s' ∧ HSim ty s' (S.put f []) ∧ s'.gs.g.vertexOf f = none) := by
  rcases h.clearFrame (f := f) with ⟨hv, h1⟩ | ⟨hv, s1, h1, h2, -, h3⟩
  · left; refine ⟨hv, ?_⟩; unfold EG.removeFrame; rw [h1]
  · right
    rw [← h3 f] at hv
    obtain ⟨v, hv⟩ := Option.isSome_iff_exists.1 hv
    by_cases hd : 0 < s1.gs.g.degree v
    · left
      refine ⟨s1, ?_, h2⟩
      unfold EG.removeFrame
      rw [h1]
      simp only [GS.removeFrame, hv, EG.base]
      rw [if_pos hd]
    · right
      have hok : ∃ s2, EG.removeFrame f s = .ok () s2 ∧ s2.gs.g = s1.gs.g.removeVertex v f ∧ s2.heap = s1.heap := by
        have hr : EG.removeFrame f s = EG.base s1.heap (GS.removeFrame f s1.gs) := by unfold EG.removeFrame; rw [h1]
        rw [hr]
        unfold GS.removeFrame
        simp only [hv]
        rw [if_neg hd]
        exact ⟨_, rfl, rfl, rfl⟩
      obtain ⟨s2, a1, a2, a3⟩ := hok
      refine ⟨s2, a1, ⟨(removeFrame_follows h.good (by rw [a1]; rfl)).1, ?_, by rw [a3]; exact h2.name⟩, ?_⟩
      · rw [a2]; exact stocked_removeVertex h2.stocked (by simp [ItemSpec.put, Shelf.put])
      · rw [a2, G.vertexOf_removeVertex, if_pos rfl]

theorem disconnectAll (fs : List FrameId) : ∀ {s s' : EG E}, HSim ty s S →
    (forFrames (fun f (s : EG E) => EG.base s.heap (GS.disconnectFrame f s.gs)) fs s).st? = some s' →
    HSim ty s' S ∧ s'.gs.g.verts = s.gs.g.verts := by
  induction fs with
  | nil =>
    intro s s' h hx
    simp only [forFrames, Res.st?, Option.some.injEq] at hx
    subst hx; exact ⟨h, rfl⟩
  | cons f fs ih =>
    intro s s' h hx
    unfold forFrames at hx
    have key : ∀ s1, (EG.base s.heap (GS.disconnectFrame f s.gs)).st? = some s1 → HSim ty s1 S ∧ s1.gs.g.verts = s.gs.g.verts := by
      intro s1 h1
      have hb := h.base (c := .disconnectFrame f) trivial h1
      exact ⟨hb.1, disconnectFrame_verts hb.2.2.2⟩
    split at hx
    · rename_i s1 h1
      obtain ⟨a1, a2⟩ := key s1 (by rw [h1]; rfl)
      obtain ⟨b1, b2⟩ := ih a1 hx
      exact ⟨b1, b2.trans a2⟩
    · rename_i s1 h1
      simp only [Res.st?, Option.some.injEq] at hx
      subst hx
      exact key s1 (by rw [h1]; rfl)
    · simp [Res.st?] at hx

theorem removeAll (fs : List FrameId) : ∀ {s s' : EG E} {S : ItemSpec}, HSim ty s S →
    (forFrames EG.removeFrame fs s).st? = some s' →
    ∃ S', HSim ty s' S' ∧ S'.name = S.name ∧ (∀ f, S'.items f = S.items f ∨ S'.items f = []) ∧
      (forFrames EG.removeFrame fs s = .ok () s' → ∀ f ∈ fs, S'.items f = []) := by
  induction fs with
  | nil =>
    intro s s' S h hx
    simp only [forFrames, Res.st?, Option.some.injEq] at hx
    subst hx; exact ⟨S, h, rfl, fun _ => Or.inl rfl, by simp⟩
  | cons f fs ih =>
    intro s s' S h hx
    rcases h.removeFrame (f := f) with ⟨-, h1⟩ | ⟨s1, h1, h2⟩ | ⟨s1, h1, h2, -⟩
    · unfold forFrames at hx ⊢
      simp only [h1, Res.st?, Option.some.injEq] at hx ⊢
      subst hx
      exact ⟨S, h, rfl, fun _ => Or.inl rfl, by simp⟩
    · unfold forFrames at hx ⊢
      simp only [h1, Res.st?, Option.some.injEq] at hx ⊢
      subst hx
      refine ⟨_, h2, rfl, fun x => ?_, by simp⟩
      simp only [ItemSpec.put, Shelf.put]
      split
      · exact Or.inr rfl
      · exact Or.inl rfl
    · unfold forFrames at hx ⊢
      simp only [h1] at hx ⊢
      obtain ⟨S', b1, b2, b3, b4⟩ := ih h2 hx
      have hput : ∀ x, (S.put f []).items x = S.items x ∨ (S.put f []).items x = [] := by
        intro x
        simp only [ItemSpec.put, Shelf.put]
        split
        · exact Or.inr rfl
        · exact Or.inl rfl
      refine ⟨S', b1, b2, fun x => ?_, fun hok x hx' => ?_⟩
      · rcases b3 x with hb | hb
        · rcases hput x with hp | hp
          · exact Or.inl (hb.trans hp)
          · exact Or.inr (hb.trans hp)
        · exact Or.inr hb
      · rcases List.mem_cons.1 hx' with rfl | hx'
        · rcases b3 x with hb | hb
          · rw [hb]; simp [ItemSpec.put, Shelf.put]
          · exact hb
        · exact b4 hok x hx'

theorem clear (h : HSim ty s S) (hx : (EG.clear s).st? = some s') :
    ∃ S', HSim ty s' S' ∧ S'.name = S.name ∧ (∀ f, S'.items f = S.items f ∨ S'.items f = []) ∧
      (EG.clear s = .ok () s' → S'.items = Shelf.empty) := by
  have hu : EG.clear s = match forFrames (fun f (s : EG E) => EG.base s.heap (GS.disconnectFrame f s.gs)) (names s.gs.g) s with
    | .ok _ s' => forFrames EG.removeFrame (names s.gs.g) s'
    | .throw x s' => .throw x s'
    | .ub r => .ub r := rfl
  rw [hu] at hx ⊢
  cases hd : forFrames (fun f (s : EG E) => EG.base s.heap (GS.disconnectFrame f s.gs)) (names s.gs.g) s with
  | ok u s1 =>
    simp only [hd] at hx ⊢
    obtain ⟨a1, a2⟩ := h.disconnectAll (names s.gs.g) (s' := s1) (by rw [hd]; rfl)
    obtain ⟨S', b1, b2, b3, b4⟩ := a1.removeAll (names s.gs.g) hx
    refine ⟨S', b1, b2, b3, fun hok => ?_⟩
    funext f
    by_cases hf : f ∈ names s.gs.g
    · exact b4 hok f hf
    · have h0 : S.items f = [] := h.stocked.absent f (by simpa using mt (mem_names h.good.wf).2 hf)
      rcases b3 f with hb | hb
      · rw [hb, h0]; rfl
      · exact hb
  | «throw» x s1 =>
    simp only [hd, Res.st?, Option.some.injEq] at hx ⊢
    subst hx
    exact ⟨S, (h.disconnectAll (names s.gs.g) (s' := s1) (by rw [hd]; rfl)).1, rfl, fun _ => Or.inl rfl, by simp⟩
  | ub m => simp only [hd, Res.st?] at hx; cases hx

theorem exec (h : HSim ty s S) {c : EG.Cmd E} (hc : c.byPointer) (hx : (EG.exec c s).st? = some s') :
    ∃ S', S.Allowed c (EG.exec c s).exn? S' ∧ HSim ty s' S' := by
  have hbase : ∀ c : GS.Cmd EFrame E, itemFree c → (EG.base s.heap (GS.exec c s.gs)).st? = some s' → HSim ty s' S :=
    fun c hf hx => (h.base hf hx).1
  cases c with
  | graph c =>
    cases c with
    | removeFrame f =>
      rcases h.removeFrame (f := f) with ⟨-, h1⟩ | ⟨s1, h1, h2⟩ | ⟨s1, h1, h2, -⟩ <;>
        simp only [EG.exec, h1, Res.st?, Option.some.injEq, Res.exn?] at hx ⊢ <;> subst hx
      · exact ⟨S, rfl, h⟩
      · exact ⟨_, rfl, h2⟩
      · exact ⟨_, rfl, h2⟩
    | emplaceFrame f p => exact ⟨S, rfl, hbase (.emplaceFrame f p) hc hx⟩
    | addFrame f => exact ⟨S, rfl, hbase (.addFrame f) trivial hx⟩
    | disconnectFrame f => exact ⟨S, rfl, hbase (.disconnectFrame f) trivial hx⟩
    | addEdge o t p => exact ⟨S, rfl, hbase (.addEdge o t p) trivial hx⟩
    | removeEdge o t => exact ⟨S, rfl, hbase (.removeEdge o t) trivial hx⟩
    | setEdge o t p => exact ⟨S, rfl, hbase (.setEdge o t p) trivial hx⟩
    | getTree f k p => exact ⟨S, rfl, hbase (.getTree f k p) trivial hx⟩
    | unsubscribeView p => exact ⟨S, rfl, hbase (.unsubscribeView p) trivial hx⟩
  | addItem i =>
    rcases h.addItem (f := (s.heap i).frame) (i := i) with ⟨-, h1⟩ | ⟨-, s1, h1, h2⟩ <;>
      simp only [EG.exec, EG.addItem, h1, Res.st?, Option.some.injEq, Res.exn?] at hx ⊢ <;> subst hx
    · exact ⟨S, rfl, h⟩
    · refine ⟨_, rfl, ?_⟩
      rw [h.name] at h2
      refine ⟨h2.good, h2.stocked, fun j => ?_⟩
      rw [h2.name j]
      simp only [ItemSpec.rename, ItemSpec.put]
      split
      · rename_i hj; rw [hj]
      · rfl
  | addItemToFrame f i =>
    rcases h.addItem (f := f) (i := i) with ⟨-, h1⟩ | ⟨-, s1, h1, h2⟩ <;>
      simp only [EG.exec, h1, Res.st?, Option.some.injEq, Res.exn?] at hx ⊢ <;> subst hx
    · exact ⟨S, rfl, h⟩
    · exact ⟨_, rfl, h2⟩
  | removeItem i =>
    rcases h.removeItem (i := i) with ⟨x, h1, -⟩ | ⟨s1, h1, h1', h2⟩ <;>
      simp only [EG.exec, h1, Res.st?, Option.some.injEq, Res.exn?] at hx ⊢ <;> subst hx
    · exact ⟨S, rfl, h⟩
    · exact ⟨_, ⟨h1', rfl⟩, h2⟩
  | removeItemAt f it => exact hc.elim
  | clearFrame f =>
    rcases h.clearFrame (f := f) with ⟨-, h1⟩ | ⟨-, s1, h1, h2, -⟩ <;>
      simp only [EG.exec, h1, Res.st?, Option.some.injEq, Res.exn?] at hx ⊢ <;> subst hx
    · exact ⟨S, rfl, h⟩
    · exact ⟨_, rfl, h2⟩
  | clear =>
    obtain ⟨S', h1, h2, h3, h4⟩ := h.clear hx
    refine ⟨S', ?_, h1⟩
    simp only [EG.exec] at hx ⊢
    cases hr : EG.clear s with
    | ok u s1 =>
      rw [hr] at hx h4
      simp only [Res.st?, Option.some.injEq] at hx
      subst hx
      have := h4 rfl
      show S' = _
      rw [← this, ← h2]
    | «throw» x s1 => exact ⟨h2, h3⟩
    | ub m => rw [hr] at hx; cases hx
  | setItemFrame i f =>
    simp only [EG.exec, Res.st?, Option.some.injEq] at hx
    subst hx
    refine ⟨_, rfl, ⟨h.good.wf, h.good.tidy, fun j => (setItemFrame_type _ _ _ _).trans (h.good.types j)⟩, h.stocked, fun j => ?_⟩
    rw [setItemFrame_frame, h.name j]; rfl

theorem outcomes {cs : List (EG.Cmd E)} (hcs : ∀ c ∈ cs, c.byPointer) : ∀ {s s' : EG E} {S : ItemSpec} {xs : List (Option Exn)},
    HSim ty s S → EG.outcomes cs s = some (xs, s') → ∃ S', S.Reaches cs xs S' ∧ HSim ty s' S' := by
  induction cs with
  | nil =>
    intro s s' S xs h hx
    simp only [EG.outcomes, Option.some.injEq, Prod.mk.injEq] at hx
    obtain ⟨rfl, rfl⟩ := hx
    exact ⟨S, .nil, h⟩
  | cons c cs ih =>
    intro s s' S xs h hx
    unfold EG.outcomes at hx
    cases hr : EG.exec c s with
    | ok u s1 =>
      simp only [hr] at hx
      obtain ⟨⟨ys, s2⟩, hy, he⟩ := Option.map_eq_some_iff.1 hx
      simp only [Prod.mk.injEq] at he
      obtain ⟨rfl, rfl⟩ := he
      obtain ⟨S1, a1, a2⟩ := h.exec (s' := s1) (hcs c (by simp)) (by rw [hr]; rfl)
      rw [hr] at a1
      obtain ⟨S2, b1, b2⟩ := ih (fun c hc => hcs c (by simp [hc])) a2 hy
      exact ⟨S2, .cons a1 b1, b2⟩
    | «throw» x s1 =>
      simp only [hr] at hx
      obtain ⟨⟨ys, s2⟩, hy, he⟩ := Option.map_eq_some_iff.1 hx
      simp only [Prod.mk.injEq] at he
      obtain ⟨rfl, rfl⟩ := he
      obtain ⟨S1, a1, a2⟩ := h.exec (s' := s1) (hcs c (by simp)) (by rw [hr]; rfl)
      rw [hr] at a1
      obtain ⟨S2, b1, b2⟩ := ih (fun c hc => hcs c (by simp [hc])) a2 hy
      exact ⟨S2, .cons a1 b1, b2⟩
    | ub m => simp [hr] at hx

end HSim
end Verif
