import Verif.Lemmas.ItemKeeps

set_option linter.unusedSectionVars false
set_option linter.unusedSimpArgs false
/-! What the calls of `EnvireGraph` do to the item lists and which events they publish. -/

namespace Verif
open EG
variable {E : Type} [EdgeProp E]

theorem G.modV_modV {F : Type} (g : G F E) (v : VId) (h k : F → F) : (g.modV v h).modV v k = g.modV v (k ∘ h) := by
  simp only [G.modV, List.map_map]
  congr 1
  apply List.map_congr_left
  intro r _
  simp only [Function.comp]
  by_cases hr : r.id = v <;> simp [hr]

theorem G.modV_congr {F : Type} {g : G F E} {v : VId} {h k : F → F} (hk : ∀ r ∈ g.verts, r.id = v → h r.prop = k r.prop) :
    g.modV v h = g.modV v k := by
  simp only [G.modV]
  congr 1
  apply List.map_congr_left
  intro r hr
  split
  · rename_i hv; rw [hk r hr hv]
  · rfl

namespace EG

/-- the frame without items -/
def wipe (fr : EFrame) : EFrame := { fr with items := [] }

theorem clearList_eq (f : FrameId) (v : VId) (t : TypeIdx) (l : List ItemId) : ∀ s : EG E,
    ∃ tr, modFrame v (EFrame.eraseType t) (clearList f v t l s) =
        { s with gs := { s.gs with g := s.gs.g.modV v (EFrame.eraseType t), trace := s.gs.trace ++ tr } } ∧
      tr.map Prod.fst = l.map (fun i => Event.itemRemoved f i) := by
  induction l with
  | nil => intro s; exact ⟨[], by simp [clearList, modFrame], rfl⟩
  | cons i l ih =>
    intro s
    obtain ⟨tr, h1, h2⟩ := ih (notify (.itemRemoved f i) (modFrame v (EFrame.setList t l) s))
    refine ⟨(.itemRemoved f i, s.gs.g.modV v (EFrame.setList t l)) :: tr, ?_, by simp [h2]⟩
    rw [clearList, h1]
    have : EFrame.eraseType t ∘ EFrame.setList t l = EFrame.eraseType t := by
      funext fr
      simp [EFrame.eraseType, EFrame.setList, EFrame.erase_set]
    simp [notify, modFrame, GS.notify, G.modV_modV, this]

theorem clearTypes_eq (f : FrameId) (v : VId) (m : AMap TypeIdx (List ItemId)) : ∀ s : EG E,
    ∃ tr, clearTypes f v m s =
        { s with gs := { s.gs with
            g := s.gs.g.modV v (fun fr => m.foldl (fun fr p => fr.eraseType p.1) fr), trace := s.gs.trace ++ tr } } ∧
      tr.map Prod.fst = (m.flatMap (fun p => p.2)).map (fun i => Event.itemRemoved f i) := by
  induction m with
  | nil =>
    intro s
    refine ⟨[], ?_, rfl⟩
    have : s.gs.g.modV v (fun fr => fr) = s.gs.g := by simp [G.modV]
    simp [clearTypes, this]
  | cons p m ih =>
    obtain ⟨t, l⟩ := p
    intro s
    obtain ⟨tr, h1, h2⟩ := clearList_eq f v t l s
    rw [clearTypes, h1]
    obtain ⟨tr', h3, h4⟩ := ih { s with gs := { s.gs with g := s.gs.g.modV v (EFrame.eraseType t), trace := s.gs.trace ++ tr } }
    refine ⟨tr ++ tr', ?_, by simp [h2, h4]⟩
    rw [h3]
    simp only [G.modV_modV, List.append_assoc, List.foldl_cons]
    rfl

theorem foldl_eraseType (m : AMap TypeIdx (List ItemId)) : ∀ fr : EFrame,
    m.foldl (fun fr p => fr.eraseType p.1) fr = { fr with items := fr.items.filter (fun p => p.1 ∉ AMap.keys m) } := by
  induction m with
  | nil => intro fr; simp [AMap.keys]
  | cons p m ih =>
    intro fr
    rw [List.foldl_cons, ih]
    simp only [EFrame.eraseType, AMap.erase, List.filter_filter, AMap.keys, List.map_cons, List.mem_cons, not_or]
    congr 2
    funext q
    by_cases h1 : q.1 = p.1 <;> by_cases h2 : q.1 ∈ m.map (·.1) <;> simp [h1, h2]

/-- `clearFrame`: the frame is empty afterwards; one event per item -/
theorem clearFrame_eq {s : EG E} (hw : WF s.gs.g) {f : FrameId} {v : VId} (hv : s.gs.g.vertexOf f = some v) :
    ∃ r tr, s.gs.g.findV v = some r ∧ clearFrame f s =
        .ok () { s with gs := { s.gs with g := s.gs.g.modV v wipe, trace := s.gs.trace ++ tr } } ∧
      tr.map Prod.fst = r.prop.visit.map (fun i => Event.itemRemoved f i) := by
  obtain ⟨r, hr, hf⟩ := hw.live_of_vertexOf hv
  obtain ⟨tr, h1, h2⟩ := clearTypes_eq f v r.prop.items s
  refine ⟨r, tr, hr, ?_, h2⟩
  have : s.gs.g.modV v (fun fr => r.prop.items.foldl (fun fr p => fr.eraseType p.1) fr) = s.gs.g.modV v wipe := by
    apply G.modV_congr
    intro q hq hqv
    have : q = r := map_inj_of_nodup hw.vnodup hq (G.findV_some hr).1 (hqv.trans (G.findV_some hr).2.symm)
    subst this
    simp only [foldl_eraseType, wipe]
    congr 1
    rw [List.filter_eq_nil_iff]
    intro p hp
    have : p.1 ∈ AMap.keys q.prop.items := List.mem_map_of_mem hp
    simp [this]
  unfold clearFrame
  simp only [hv, hr, h1, this]

/-- well-formed graph, tidy item lists, items of the given types -/
structure Good (ty : ItemId → TypeIdx) (s : EG E) : Prop where
  wf : WF s.gs.g
  tidy : AllTidy s.gs.g
  types : ∀ i, (s.heap i).type = ty i

theorem wipe_holds (ty : ItemId → TypeIdx) (fr : EFrame) : (wipe fr).Holds ty [] := by intro t; simp [wipe]

theorem wipe_tidy (fr : EFrame) : (wipe fr).Tidy := ⟨by simp [wipe, AMap.keys], by simp [wipe]⟩

theorem setItemFrame_type (s : EG E) (i j : ItemId) (f : FrameId) : ((setItemFrame i f s).heap j).type = (s.heap j).type := by
  simp only [setItemFrame]; split <;> rfl

theorem setItemFrame_frame (s : EG E) (i j : ItemId) (f : FrameId) :
    ((setItemFrame i f s).heap j).frame = if j = i then f else (s.heap j).frame := by
  simp only [setItemFrame]; split <;> rfl

theorem Good.addItem {ty : ItemId → TypeIdx} {s : EG E} (hg : Good ty s) {f : FrameId} {v : VId} (i : ItemId)
    (hv : s.gs.g.vertexOf f = some v) :
    ∃ s', addItemToFrame f i s = .ok () s' ∧ Good ty s' ∧ s'.gs.g = s.gs.g.modV v (EFrame.push (ty i) i) ∧
      s'.gs.trace = s.gs.trace ++ [(.itemAdded f i, s'.gs.g)] ∧ s'.gs.subs = s.gs.subs ∧ s'.gs.views = s.gs.views ∧
      (∀ j, (s'.heap j).frame = if j = i then f else (s.heap j).frame) ∧
      ∀ M, Stocked ty s.gs.g M → Stocked ty s'.gs.g (M.put f (M f ++ [i])) := by
  refine ⟨notify (.itemAdded f i) (setItemFrame i f (modFrame v (EFrame.push (s.heap i).type i) s)),
    by unfold addItemToFrame; rw [hv], ⟨?_, ?_, ?_⟩, ?_, rfl, rfl, rfl, ?_, ?_⟩
  · exact hg.wf.modV v (fun _ => rfl)
  · exact hg.tidy.modV (fun r _ _ h => h.push _ _)
  · intro j; exact (setItemFrame_type _ _ _ _).trans (hg.types j)
  · show s.gs.g.modV v (EFrame.push (s.heap i).type i) = _
    rw [hg.types]
  · intro j; exact setItemFrame_frame _ _ _ _
  · intro M hM
    show Stocked ty (s.gs.g.modV v (EFrame.push (s.heap i).type i)) _
    rw [hg.types]
    exact hM.modV hg.wf hv (fun _ => rfl) (fun r _ h => h.push i)

theorem Good.removeItem {ty : ItemId → TypeIdx} {s : EG E} (hg : Good ty s) {v : VId} {i : ItemId} {r : VRec EFrame}
    {l : List ItemId} (hv : s.gs.g.vertexOf (s.heap i).frame = some v) (hr : s.gs.g.findV v = some r)
    (hl : r.prop.items.get (ty i) = some l) (hi : i ∈ l) :
    ∃ s', EG.removeItem i s = .ok () s' ∧ Good ty s' ∧ (∃ h, (∀ p, (h p).id = p.id) ∧ s'.gs.g = s.gs.g.modV v h) ∧
      s'.gs.trace = s.gs.trace ++ [(.itemRemoved (s.heap i).frame i, s'.gs.g)] ∧ s'.gs.subs = s.gs.subs ∧
      s'.gs.views = s.gs.views ∧ (∀ j, (s'.heap j).frame = if j = i then "" else (s.heap j).frame) ∧
      ∀ M, Stocked ty s.gs.g M → Stocked ty s'.gs.g (M.put (s.heap i).frame ((M (s.heap i).frame).erase i)) := by
  have hrr := G.findV_some hr
  have uniq : ∀ q ∈ s.gs.g.verts, q.id = v → q = r := fun q hq hqv =>
    map_inj_of_nodup hg.wf.vnodup hq hrr.1 (hqv.trans hrr.2.symm)
  have hl' : r.prop.items.get (s.heap i).type = some l := by rw [hg.types]; exact hl
  by_cases h0 : (l.erase i).length = 0
  · refine ⟨notify (.itemRemoved (s.heap i).frame i)
      (modFrame v (EFrame.eraseType (s.heap i).type) (setItemFrame i ""
        (modFrame v (EFrame.setList (s.heap i).type (l.erase i)) s))), ?_, ⟨?_, ?_, ?_⟩, ⟨_, fun p => ?_, G.modV_modV _ _ _ _⟩,
        rfl, rfl, rfl, ?_, ?_⟩
    · unfold EG.removeItem; simp only [hv, hr, hl', hi, if_true, h0]
    · exact (hg.wf.modV v (h := EFrame.setList (s.heap i).type (l.erase i)) (fun _ => rfl)).modV v
        (h := EFrame.eraseType (s.heap i).type) (fun _ => rfl)
    · show AllTidy ((s.gs.g.modV v _).modV v _)
      rw [G.modV_modV]
      refine hg.tidy.modV (fun q _ _ h => ?_)
      have : (EFrame.eraseType (s.heap i).type ∘ EFrame.setList (s.heap i).type (l.erase i)) q.prop =
          EFrame.eraseType (s.heap i).type q.prop := by
        simp [EFrame.eraseType, EFrame.setList, EFrame.erase_set]
      rw [this]; exact h.eraseType _
    · intro j; exact (setItemFrame_type _ _ _ _).trans (hg.types j)
    · rfl
    · intro j; exact setItemFrame_frame _ _ _ _
    · intro M hM
      show Stocked ty ((s.gs.g.modV v _).modV v _) _
      rw [G.modV_modV]
      refine hM.modV hg.wf hv (fun _ => rfl) (fun q hq h => ?_)
      rw [hr, Option.some.injEq] at hq
      subst hq
      rw [hg.types]
      refine (h.setErase hl).eraseType ?_
      simpa [EFrame.setList] using h0
  · refine ⟨notify (.itemRemoved (s.heap i).frame i)
      (setItemFrame i "" (modFrame v (EFrame.setList (s.heap i).type (l.erase i)) s)), ?_, ⟨?_, ?_, ?_⟩, ⟨_, fun p => ?_, rfl⟩,
        rfl, rfl, rfl, ?_, ?_⟩
    · unfold EG.removeItem; simp only [hv, hr, hl', hi, if_true, h0, if_false]
    · exact hg.wf.modV v (fun _ => rfl)
    · refine hg.tidy.modV (fun q _ _ h => h.setList ?_)
      intro he; rw [he] at h0; exact h0 rfl
    · intro j; exact (setItemFrame_type _ _ _ _).trans (hg.types j)
    · rfl
    · intro j; exact setItemFrame_frame _ _ _ _
    · intro M hM
      refine hM.modV hg.wf hv (fun _ => rfl) (fun q hq h => ?_)
      rw [hr, Option.some.injEq] at hq
      subst hq
      rw [hg.types]
      exact h.setErase hl

theorem Shelf.replay_removed (f : FrameId) (l : List ItemId) : ∀ M : Shelf,
    M.replay (l.map (fun i => Event.itemRemoved f i)) = M.put f (l.foldl List.erase (M f)) := by
  induction l with
  | nil => intro M; funext x; simp [Shelf.replay, Shelf.put]; rintro rfl; rfl
  | cons i l ih =>
    intro M
    show Shelf.replay (M.put f ((M f).erase i)) _ = _
    rw [ih]
    funext x
    by_cases hx : x = f <;> simp [Shelf.put, hx]

theorem foldl_erase_perm {l : List ItemId} : ∀ {L : List ItemId}, l.Perm L → l.foldl List.erase L = [] := by
  induction l with
  | nil => intro L h; simpa using h.symm.eq_nil
  | cons i l ih =>
    intro L h
    rw [List.foldl_cons]
    apply ih
    have := h.erase i
    simpa using this

theorem Good.clearFrame {ty : ItemId → TypeIdx} {s : EG E} (hg : Good ty s) {f : FrameId} {v : VId}
    (hv : s.gs.g.vertexOf f = some v) :
    ∃ r tr s', s.gs.g.findV v = some r ∧ EG.clearFrame f s = .ok () s' ∧ Good ty s' ∧ s'.heap = s.heap ∧
      s'.gs = { s.gs with g := s.gs.g.modV v wipe, trace := s.gs.trace ++ tr } ∧
      tr.map Prod.fst = r.prop.visit.map (fun i => Event.itemRemoved f i) ∧
      ∀ M, Stocked ty s.gs.g M → r.prop.visit.Perm (M f) ∧ M.replay (tr.map Prod.fst) = M.put f [] ∧
        Stocked ty s'.gs.g (M.put f []) := by
  obtain ⟨r, tr, h1, h2, h3⟩ := clearFrame_eq hg.wf hv
  refine ⟨r, tr, _, h1, h2, ⟨?_, ?_, hg.types⟩, rfl, rfl, h3, ?_⟩
  · exact hg.wf.modV v (fun _ => rfl)
  · exact hg.tidy.modV (fun _ _ _ _ => wipe_tidy _)
  · intro M hM
    obtain ⟨hr, hrv⟩ := G.findV_some h1
    obtain ⟨q, hq, e1, e2⟩ := hg.wf.vertexOf_iff.1 hv
    have : q = r := map_inj_of_nodup hg.wf.vnodup hq hr (e1.trans hrv.symm)
    subst this
    have e2' : q.prop.id = f := e2
    have hp := (hM.holds q hq).visit_perm (hg.tidy q hq)
    rw [e2'] at hp
    refine ⟨hp, ?_, hM.modV hg.wf hv (fun _ => rfl) (fun _ _ _ => wipe_holds ty _)⟩
    rw [h3, Shelf.replay_removed, foldl_erase_perm hp]

theorem stocked_removeVertex {ty : ItemId → TypeIdx} {g : G EFrame E} {M : Shelf} (hM : Stocked ty g M) {f : FrameId} {v : VId}
    (h : M f = []) : Stocked ty (g.removeVertex v f) M := by
  constructor
  · intro r hr; exact hM.holds r (List.mem_filter.1 hr).1
  · intro f' hf'
    rw [G.vertexOf_removeVertex] at hf'
    by_cases hff : f = f'
    · exact hff ▸ h
    · rw [if_neg hff] at hf'; exact hM.absent f' hf'

/-- `s'` comes from `s` and the events published on the way describe the item lists -/
def Follows (ty : ItemId → TypeIdx) (s s' : EG E) : Prop :=
  Good ty s' ∧ ∃ l, s'.gs.trace = s.gs.trace ++ l ∧
    ∀ M, Stocked ty s.gs.g M → Stocked ty s'.gs.g (M.replay (l.map Prod.fst))

theorem Follows.refl {ty : ItemId → TypeIdx} {s : EG E} (h : Good ty s) : Follows ty s s :=
  ⟨h, [], by simp, fun M hM => hM⟩

theorem Follows.trans {ty : ItemId → TypeIdx} {s s' s'' : EG E} (h : Follows ty s s') (h' : Follows ty s' s'') :
    Follows ty s s'' := by
  obtain ⟨-, l, a1, a2⟩ := h
  obtain ⟨b0, l', b1, b2⟩ := h'
  refine ⟨b0, l ++ l', by rw [b1, a1, List.append_assoc], fun M hM => ?_⟩
  rw [List.map_append, Shelf.replay_append]
  exact b2 _ (a2 _ hM)

theorem base_follows {ty : ItemId → TypeIdx} {c : GS.Cmd EFrame E} (hc : itemFree c) {s s' : EG E} (hg : Good ty s)
    (h : (base s.heap (GS.exec c s.gs)).st? = some s') : Follows ty s s' := by
  have hh : (GS.exec c s.gs).st? = some s'.gs ∧ s'.heap = s.heap := by
    cases hx : GS.exec c s.gs <;> rw [hx] at h <;> simp only [base, Res.st?, Option.some.injEq, reduceCtorEq] at h <;>
      subst h <;> exact ⟨rfl, rfl⟩
  obtain ⟨l, a1, a2⟩ := exec_neutral hc hg.wf hh.1
  have hw := a1.wf hg.wf
  have hk := exec_keeps hc hh.1
  refine ⟨⟨hw, hk.tidy hg.tidy, by rw [hh.2]; exact hg.types⟩, l, a2, fun M hM => ?_⟩
  rw [Shelf.replay_neutral]
  · exact hk.stocked hg.wf hw hM
  · intro e he
    obtain ⟨x, hx, rfl⟩ := List.mem_map.1 he
    exact GSteps.forall a1 x hx

theorem addItemToFrame_follows {ty : ItemId → TypeIdx} {f : FrameId} {i : ItemId} {s s' : EG E} (hg : Good ty s)
    (h : (addItemToFrame f i s).st? = some s') : Follows ty s s' := by
  cases hv : s.gs.g.vertexOf f with
  | none =>
    unfold addItemToFrame at h
    simp only [hv, Res.st?, Option.some.injEq] at h
    subst h; exact .refl hg
  | some v =>
    obtain ⟨s1, e1, e2, -, e4, -, -, -, e5⟩ := hg.addItem i hv
    rw [e1] at h
    simp only [Res.st?, Option.some.injEq] at h
    subst h
    exact ⟨e2, _, e4, fun M hM => e5 M hM⟩

theorem removeItem_follows {ty : ItemId → TypeIdx} {i : ItemId} {s s' : EG E} (hg : Good ty s)
    (h : (EG.removeItem i s).st? = some s') : Follows ty s s' := by
  cases hv : s.gs.g.vertexOf (s.heap i).frame with
  | none =>
    unfold EG.removeItem at h
    simp only [hv, Res.st?, Option.some.injEq] at h
    subst h; exact .refl hg
  | some v =>
    obtain ⟨r, hr, -⟩ := hg.wf.live_of_vertexOf hv
    cases hl : r.prop.items.get (ty i) with
    | none =>
      unfold EG.removeItem at h
      simp only [hv, hr, hg.types, hl, Res.st?, Option.some.injEq] at h
      subst h; exact .refl hg
    | some l =>
      by_cases hi : i ∈ l
      · obtain ⟨s1, e1, e2, -, e4, -, -, -, e5⟩ := hg.removeItem hv hr hl hi
        rw [e1] at h
        simp only [Res.st?, Option.some.injEq] at h
        subst h
        exact ⟨e2, _, e4, fun M hM => e5 M hM⟩
      · unfold EG.removeItem at h
        simp only [hv, hr, hg.types, hl, hi, if_false, Res.st?, Option.some.injEq] at h
        subst h; exact .refl hg

theorem clearFrame_follows {ty : ItemId → TypeIdx} {f : FrameId} {s s' : EG E} (hg : Good ty s)
    (h : (EG.clearFrame f s).st? = some s') : Follows ty s s' ∧ ∀ M, Stocked ty s'.gs.g M → M f = [] := by
  cases hv : s.gs.g.vertexOf f with
  | none =>
    unfold EG.clearFrame at h
    simp only [hv, Res.st?, Option.some.injEq] at h
    subst h; exact ⟨.refl hg, fun M hM => hM.absent f hv⟩
  | some v =>
    obtain ⟨r, tr, s1, e0, e1, e2, e3, e4, e5, e6⟩ := hg.clearFrame hv
    rw [e1] at h
    simp only [Res.st?, Option.some.injEq] at h
    subst h
    refine ⟨⟨e2, tr, by rw [e4], fun M hM => ?_⟩, fun M hM => ?_⟩
    · rw [(e6 M hM).2.1]; exact (e6 M hM).2.2
    · obtain ⟨q, hq, b1, b2⟩ := hg.wf.vertexOf_iff.1 hv
      have hq' : ({ q with prop := wipe q.prop } : VRec EFrame) ∈ s1.gs.g.verts := by
        rw [e4]; exact G.mem_modV.2 ⟨q, hq, by rw [if_pos b1]⟩
      have hh := hM.holds _ hq'
      have hb : (wipe q.prop).id = f := b2
      simp only [hb] at hh
      cases hMf : M f with
      | nil => rfl
      | cons a L => have := hh (ty a); rw [hMf] at this; simp [wipe] at this

theorem removeFrame_follows {ty : ItemId → TypeIdx} {f : FrameId} {s s' : EG E} (hg : Good ty s)
    (h : (EG.removeFrame f s).st? = some s') : Follows ty s s' := by
  unfold EG.removeFrame at h
  split at h
  · rename_i s1 h1
    obtain ⟨hF, hempty⟩ := clearFrame_follows hg (s' := s1) (by rw [h1]; rfl)
    refine hF.trans ?_
    have hg1 := hF.1
    unfold GS.removeFrame at h
    split at h
    · simp only [base, Res.st?, Option.some.injEq] at h
      subst h; exact .refl hg1
    · rename_i v hv
      split at h
      · simp only [base, Res.st?, Option.some.injEq] at h
        subst h; exact .refl hg1
      · rename_i hd
        simp only [base, Res.st?, Option.some.injEq] at h
        subst h
        refine ⟨⟨hg1.wf.removeVertex hv (by omega), fun r hr => hg1.tidy r (List.mem_filter.1 hr).1, hg1.types⟩, _, rfl,
          fun M hM => ?_⟩
        have : M.replay [Event.frameRemoved f] = M := by
          funext x
          show Shelf.put M f [] x = M x
          simp only [Shelf.put]
          split
          · rename_i hx; rw [hx, hempty M hM]
          · rfl
        show Stocked ty (s1.gs.g.removeVertex v f) (M.replay [Event.frameRemoved f])
        rw [this]
        exact stocked_removeVertex hM (hempty M hM)
  · rename_i s1 h1
    simp only [Res.st?, Option.some.injEq] at h
    subst h
    exact (clearFrame_follows hg (by rw [h1]; rfl)).1
  · simp [Res.st?] at h

theorem forFrames_follows {ty : ItemId → TypeIdx} {call : FrameId → EG E → Res (EG E) Unit}
    (hcall : ∀ f s s', Good ty s → (call f s).st? = some s' → Follows ty s s') (fs : List FrameId) : ∀ {s s' : EG E}, Good ty s →
    (forFrames call fs s).st? = some s' → Follows ty s s' := by
  induction fs with
  | nil =>
    intro s s' hg h
    simp only [forFrames, Res.st?, Option.some.injEq] at h
    subst h; exact .refl hg
  | cons f fs ih =>
    intro s s' hg h
    unfold forFrames at h
    split at h
    · rename_i s1 h1
      have hF := hcall f s s1 hg (by rw [h1]; rfl)
      exact hF.trans (ih hF.1 h)
    · rename_i s1 h1
      simp only [Res.st?, Option.some.injEq] at h
      subst h
      exact hcall f s _ hg (by rw [h1]; rfl)
    · simp [Res.st?] at h

theorem clear_follows {ty : ItemId → TypeIdx} {s s' : EG E} (hg : Good ty s)
    (h : (EG.clear s).st? = some s') : Follows ty s s' := by
  have hd : ∀ f s s', Good ty s → ((fun f (s : EG E) => base s.heap (GS.disconnectFrame f s.gs)) f s).st? = some s' →
      Follows ty s s' := fun f s s' hg h => base_follows (c := .disconnectFrame f) trivial hg h
  unfold EG.clear at h
  simp only at h
  split at h
  · rename_i s1 h1
    have hF := forFrames_follows hd _ hg (s' := s1) (by rw [h1]; rfl)
    exact hF.trans (forFrames_follows (fun f s s' hg h => removeFrame_follows hg h) _ hF.1 h)
  · rename_i s1 h1
    simp only [Res.st?, Option.some.injEq] at h
    subst h
    exact forFrames_follows hd _ hg (by rw [h1]; rfl)
  · simp [Res.st?] at h

/-- The call does not remove through an iterator and does not create a frame from a property that holds items already. -/
def Cmd.byPointer : Cmd E → Prop
  | .removeItemAt .. => False
  | .graph (.emplaceFrame _ p) => p.items = []
  | _ => True

theorem exec_follows {ty : ItemId → TypeIdx} {c : Cmd E} (hc : c.byPointer) {s s' : EG E} (hg : Good ty s)
    (h : (exec c s).st? = some s') : Follows ty s s' := by
  cases c with
  | graph c =>
    cases c with
    | removeFrame f => exact removeFrame_follows hg h
    | emplaceFrame f p => exact base_follows (c := .emplaceFrame f p) hc hg h
    | addFrame f => exact base_follows (c := .addFrame f) trivial hg h
    | disconnectFrame f => exact base_follows (c := .disconnectFrame f) trivial hg h
    | addEdge o t p => exact base_follows (c := .addEdge o t p) trivial hg h
    | removeEdge o t => exact base_follows (c := .removeEdge o t) trivial hg h
    | setEdge o t p => exact base_follows (c := .setEdge o t p) trivial hg h
    | getTree f k p => exact base_follows (c := .getTree f k p) trivial hg h
    | unsubscribeView p => exact base_follows (c := .unsubscribeView p) trivial hg h
  | addItem i => exact addItemToFrame_follows hg h
  | addItemToFrame f i => exact addItemToFrame_follows hg h
  | removeItem i => exact removeItem_follows hg h
  | removeItemAt f it => exact hc.elim
  | clearFrame f => exact (clearFrame_follows hg h).1
  | clear => exact clear_follows hg h
  | setItemFrame i f =>
    simp only [exec, Res.st?, Option.some.injEq] at h
    subst h
    exact ⟨⟨hg.wf, hg.tidy, fun j => (setItemFrame_type _ _ _ _).trans (hg.types j)⟩, [], by simp [setItemFrame], fun M hM => hM⟩

theorem run_cons {c : Cmd E} {cs : List (Cmd E)} {s s' : EG E} (h : run (c :: cs) s = some s') :
    ∃ s1, (exec c s).st? = some s1 ∧ run cs s1 = some s' := by
  unfold run at h
  split at h
  · rename_i s1 h1; exact ⟨s1, by rw [h1]; rfl, h⟩
  · rename_i s1 h1; exact ⟨s1, by rw [h1]; rfl, h⟩
  · cases h

theorem run_follows {ty : ItemId → TypeIdx} {cs : List (Cmd E)} (hcs : ∀ c ∈ cs, c.byPointer) : ∀ {s s' : EG E}, Good ty s →
    run cs s = some s' → Follows ty s s' := by
  induction cs with
  | nil =>
    intro s s' hg h
    simp only [run, Option.some.injEq] at h
    subst h; exact .refl hg
  | cons c cs ih =>
    intro s s' hg h
    obtain ⟨s1, h1, h2⟩ := run_cons h
    have hF := exec_follows (hcs c (by simp)) hg h1
    exact hF.trans (ih (fun c hc => hcs c (by simp [hc])) hF.1 h2)

theorem Good.init (heap : ItemId → ItemObj) : Good (E := E) (fun i => (heap i).type) (EG.init heap) :=
  ⟨WF.empty, by intro r hr; simp [EG.init, GS.init, G.empty] at hr, fun _ => rfl⟩

theorem Stocked.init (ty : ItemId → TypeIdx) (heap : ItemId → ItemObj) : Stocked (E := E) ty (EG.init heap).gs.g Shelf.empty :=
  ⟨by intro r hr; simp [EG.init, GS.init, G.empty] at hr, fun _ _ => rfl⟩

end EG
end Verif
