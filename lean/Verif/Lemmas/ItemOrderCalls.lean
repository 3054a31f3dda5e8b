import Verif.Lemmas.ItemOrder
set_option linter.unusedSectionVars false
/-! Every call on shuffled graphs has the same outcome. -/

namespace Verif
variable {E : Type} [EdgeProp E] {ty : ItemId → TypeIdx}

/-- one of the two frames of a twin -/
structure Side (m : PropMap (Twin ty) EFrame E E) : Prop where
  push : ∀ p i, m.frame (Twin.push i p) = (m.frame p).push (ty i) i
  setList : ∀ p t l (hl : ∀ i ∈ l, ty i = t), m.frame (Twin.setList t l hl p) = (m.frame p).setList t l
  eraseType : ∀ p t, m.frame (Twin.eraseType t p) = (m.frame p).eraseType t
  wipe : ∀ p, m.frame (Twin.wipe p) = EG.wipe (m.frame p)
  get : ∀ p t, (m.frame p).items.get t = p.a.items.get t
  edge : ∀ p, m.edge p = p

theorem Side.left : Side (Twin.left (ty := ty) (E := E)) :=
  ⟨fun _ _ => rfl, fun _ _ _ _ => rfl, fun _ _ => rfl, fun _ => rfl, fun _ _ => rfl, fun _ => rfl⟩

theorem Side.right : Side (Twin.right (ty := ty) (E := E)) :=
  ⟨fun _ _ => rfl, fun _ _ _ _ => rfl, fun _ _ => rfl, fun _ => rfl, fun p t => p.shuffle.get p.sound t, fun _ => rfl⟩

namespace EG

/-- one side of a graph of twins, with its own events -/
def side (m : PropMap (Twin ty) EFrame E E) (u : GS (Twin ty) E) (heap : ItemId → ItemObj) (tr : List (Event × G EFrame E)) : EG E :=
  ⟨{ g := u.g.trans m, subs := u.subs, views := u.views, trace := tr }, heap⟩

/-- the two states are the two sides of one graph of twins -/
def Linked (ty : ItemId → TypeIdx) (s s' : EG E) : Prop :=
  ∃ (u : GS (Twin ty) E) (heap : ItemId → ItemObj) (tr tr' : List (Event × G EFrame E)),
    s = side Twin.left u heap tr ∧ s' = side Twin.right u heap tr' ∧ WF u.g ∧ (∀ i, (heap i).type = ty i) ∧
    EventsAlike ty (tr.map Prod.fst) (tr'.map Prod.fst)

inductive LinkedO {α : Type} (ty : ItemId → TypeIdx) (R : α → α → Prop) : Res (EG E) α → Res (EG E) α → Prop
  | ok {a a' s s'} : R a a' → Linked ty s s' → LinkedO ty R (.ok a s) (.ok a' s')
  | throw {x s s'} : Linked ty s s' → LinkedO ty R (.throw x s) (.throw x s')
  | ub {m} : LinkedO ty R (.ub m) (.ub m)

theorem findV_side (m : PropMap (Twin ty) EFrame E E) (u : GS (Twin ty) E) (heap : ItemId → ItemObj) (tr : List (Event × G EFrame E)) (v : VId) :
    (side m u heap tr).gs.g.findV v = (u.g.findV v).map (VRec.trans m) := G.findV_trans m u.g v

theorem vertexOf_side (m : PropMap (Twin ty) EFrame E E) (u : GS (Twin ty) E) (heap : ItemId → ItemObj) (tr : List (Event × G EFrame E)) (f : FrameId) :
    (side m u heap tr).gs.g.vertexOf f = u.g.vertexOf f := rfl

theorem modFrame_side {m : PropMap (Twin ty) EFrame E E} (u : GS (Twin ty) E) (heap : ItemId → ItemObj) (tr : List (Event × G EFrame E)) (v : VId)
    {k : Twin ty → Twin ty} {h : EFrame → EFrame} (hh : ∀ p, m.frame (k p) = h (m.frame p)) :
    modFrame v h (side m u heap tr) = side m { u with g := u.g.modV v k } heap tr := by
  simp only [modFrame, side, G.modV_trans m u.g v hh]

theorem listOf_side {m : PropMap (Twin ty) EFrame E E} (hm : Side m) (u : GS (Twin ty) E) (heap : ItemId → ItemObj) (tr : List (Event × G EFrame E))
    (f : FrameId) (t : TypeIdx) :
    listOf f t (side m u heap tr) = (u.g.vertexOf f).bind fun v => (u.g.findV v).bind fun r => r.prop.a.items.get t := by
  unfold listOf
  rw [vertexOf_side]
  cases u.g.vertexOf f with
  | none => rfl
  | some v =>
    simp only [Option.bind_some, findV_side]
    cases u.g.findV v with
    | none => rfl
    | some r => exact hm.get r.prop t

/-- a call of the base class -/
theorem base_linked {c : GS.Cmd EFrame E} {c' : GS.Cmd (Twin ty) E} (h1 : c'.trans Twin.left = c) (h2 : c'.trans Twin.right = c)
    {s s' : EG E} (h : Linked ty s s') : LinkedO ty Eq (base s.heap (GS.exec c s.gs)) (base s'.heap (GS.exec c s'.gs)) := by
  obtain ⟨u, heap, tr, tr', rfl, rfl, hw, hty, he⟩ := h
  have key : ∀ (m : PropMap (Twin ty) EFrame E E) (tr : List (Event × G EFrame E)), c'.trans m = c →
      base heap (GS.exec c (side m u heap tr).gs) =
        match GS.exec c' { u with trace := [] } with
        | .ok _ w => .ok () (side m w heap (tr ++ (w.trans m).trace))
        | .throw x w => .throw x (side m w heap (tr ++ (w.trans m).trace))
        | .ub r => .ub r := by
    intro m tr hc
    have e1 : (side m u heap tr).gs = GS.under tr (({ u with trace := [] } : GS (Twin ty) E).trans m) := by
      simp [side, GS.under, GS.trans]
    rw [e1, GS.exec_under, ← hc, GS.exec_trans]
    cases GS.exec c' { u with trace := [] } with
    | ok a w => cases a; rfl
    | throw x w => rfl
    | ub r => rfl
  have ev : ∀ (m : PropMap (Twin ty) EFrame E E) (w : GS (Twin ty) E), (w.trans m).trace.map Prod.fst = w.trace.map Prod.fst := by
    intro m w
    simp [GS.trans, Function.comp_def]
  rw [show (side Twin.left u heap tr).heap = heap from rfl, show (side Twin.right u heap tr').heap = heap from rfl,
    key _ tr h1, key _ tr' h2]
  have hws : ∀ w, (GS.exec c' { u with trace := [] }).st? = some w → WF w.g := by
    intro w hr
    have hl := GS.exec_advances (s := { u with trace := [] }) hw hr
    exact hl.wf hw
  have al : ∀ w : GS (Twin ty) E, EventsAlike ty ((tr ++ (w.trans Twin.left).trace).map Prod.fst) ((tr' ++ (w.trans Twin.right).trace).map Prod.fst) := by
    intro w
    rw [List.map_append, List.map_append, ev, ev]
    exact he.append_right _
  cases hx : GS.exec c' { u with trace := [] } with
  | ok a w => exact .ok rfl ⟨w, heap, _, _, rfl, rfl, hws w (by rw [hx]; rfl), hty, al w⟩
  | throw x w => exact .throw ⟨w, heap, _, _, rfl, rfl, hws w (by rw [hx]; rfl), hty, al w⟩
  | ub r => exact .ub

/-- the call on twins -/
def twinCmd (ty : ItemId → TypeIdx) : (c : GS.Cmd EFrame E) → Cmd.Sound ty (.graph c) → GS.Cmd (Twin ty) E
  | .addFrame f, _ => .addFrame f
  | .emplaceFrame f p, h => .emplaceFrame f ⟨p, p, .refl p, h⟩
  | .removeFrame f, _ => .removeFrame f
  | .disconnectFrame f, _ => .disconnectFrame f
  | .addEdge o t p, _ => .addEdge o t p
  | .removeEdge o t, _ => .removeEdge o t
  | .setEdge o t p, _ => .setEdge o t p
  | .getTree f k v, _ => .getTree f k v
  | .unsubscribeView v, _ => .unsubscribeView v

theorem exec_base_linked {c : GS.Cmd EFrame E} (hc : Cmd.Sound ty (.graph c)) {s s' : EG E} (h : Linked ty s s') :
    LinkedO ty Eq (base s.heap (GS.exec c s.gs)) (base s'.heap (GS.exec c s'.gs)) := by
  refine base_linked (c' := twinCmd ty c hc) ?_ ?_ h <;> cases c <;> rfl

theorem Linked.heap {s s' : EG E} (h : Linked ty s s') : s'.heap = s.heap := by
  obtain ⟨u, heap, tr, tr', rfl, rfl, -⟩ := h; rfl

/-- an item call that changes one frame and publishes events -/
theorem Linked.item {u : GS (Twin ty) E} {tr tr' : List (Event × G EFrame E)} (hw : WF u.g)
    (he : EventsAlike ty (tr.map Prod.fst) (tr'.map Prod.fst)) (v : VId) (k : Twin ty → Twin ty) (hk : ∀ p, (k p).a.id = p.a.id)
    {heap' : ItemId → ItemObj} (hty : ∀ i, (heap' i).type = ty i) {x x' : List (Event × G EFrame E)}
    (hx : EventsAlike ty (x.map Prod.fst) (x'.map Prod.fst)) :
    Linked ty (side Twin.left { u with g := u.g.modV v k } heap' (tr ++ x)) (side Twin.right { u with g := u.g.modV v k } heap' (tr' ++ x')) := by
  refine ⟨_, heap', _, _, rfl, rfl, hw.modV v hk, hty, ?_⟩
  rw [List.map_append, List.map_append]
  exact he.append hx

theorem addItemToFrame_linked (f : FrameId) (i : ItemId) {s s' : EG E} (h : Linked ty s s') :
    LinkedO ty Eq (addItemToFrame f i s) (addItemToFrame f i s') := by
  obtain ⟨u, heap, tr, tr', rfl, rfl, hw, hty, he⟩ := id h
  have key : ∀ {m : PropMap (Twin ty) EFrame E E} (hm : Side m) (tr : List (Event × G EFrame E)), addItemToFrame f i (side m u heap tr) =
      match u.g.vertexOf f with
      | none => .throw (.unknownFrame f) (side m u heap tr)
      | some v => .ok () (side m { u with g := u.g.modV v (Twin.push i) } (fun j => if j = i then { heap j with frame := f } else heap j)
          (tr ++ [(.itemAdded f i, (u.g.modV v (Twin.push i)).trans m)])) := by
    intro m hm tr
    unfold addItemToFrame
    rw [vertexOf_side]
    cases u.g.vertexOf f with
    | none => rfl
    | some v =>
      simp only
      rw [show ((side m u heap tr).heap i).type = ty i from hty i, modFrame_side u heap tr v (k := Twin.push i) (fun p => hm.push p i)]
      rfl
  rw [key Side.left tr, key Side.right tr']
  cases u.g.vertexOf f with
  | none => exact .throw h
  | some v =>
    refine .ok rfl (Linked.item hw he v (Twin.push i) (fun _ => rfl) ?_ (.refl _))
    intro j
    split <;> exact hty j

theorem clearFrame_linked (f : FrameId) {s s' : EG E} (h : Linked ty s s') : LinkedO ty Eq (clearFrame f s) (clearFrame f s') := by
  obtain ⟨u, heap, tr, tr', rfl, rfl, hw, hty, he⟩ := id h
  cases hv : u.g.vertexOf f with
  | none =>
    unfold clearFrame
    rw [vertexOf_side, vertexOf_side, hv]
    exact .throw h
  | some v =>
    have key : ∀ {m : PropMap (Twin ty) EFrame E E} (hm : Side m) (tr : List (Event × G EFrame E)), ∃ r x, u.g.findV v = some r ∧
        clearFrame f (side m u heap tr) = .ok () (side m { u with g := u.g.modV v Twin.wipe } heap (tr ++ x)) ∧
        x.map Prod.fst = (m.frame r.prop).visit.map (fun i => Event.itemRemoved f i) := by
      intro m hm tr
      obtain ⟨r, x, h1, h2, h3⟩ := clearFrame_eq (s := side m u heap tr) (hw.trans m) (f := f) (v := v) hv
      rw [findV_side] at h1
      obtain ⟨q, hq, rfl⟩ := Option.map_eq_some_iff.1 h1
      refine ⟨q, x, hq, ?_, h3⟩
      rw [h2]
      simp only [side, G.modV_trans m u.g v (h := Twin.wipe) (h' := wipe) hm.wipe]
    obtain ⟨r, x, h1, h2, h3⟩ := key Side.left tr
    obtain ⟨r', x', h1', h2', h3'⟩ := key Side.right tr'
    rw [h1] at h1'
    cases h1'
    rw [h2, h2']
    refine .ok rfl (Linked.item hw he v Twin.wipe (fun _ => rfl) hty ?_)
    rw [h3, h3']
    exact EventsAlike.visit (fun i j l hij => .removed f l hij) r.prop

theorem removeFrame_linked (f : FrameId) {s s' : EG E} (h : Linked ty s s') : LinkedO ty Eq (removeFrame f s) (removeFrame f s') := by
  have := clearFrame_linked f h
  unfold removeFrame
  generalize clearFrame f s = r at this ⊢
  generalize clearFrame f s' = r' at this ⊢
  cases this with
  | ok _ hs => exact exec_base_linked (c := .removeFrame f) trivial hs
  | throw hs => exact .throw hs
  | ub => exact .ub

theorem forFrames_linked {call : FrameId → EG E → Res (EG E) Unit}
    (hc : ∀ f s s', Linked ty s s' → LinkedO ty Eq (call f s) (call f s')) (fs : List FrameId) : ∀ {s s' : EG E}, Linked ty s s' →
    LinkedO ty Eq (forFrames call fs s) (forFrames call fs s') := by
  induction fs with
  | nil => intro s s' h; exact .ok rfl h
  | cons f fs ih =>
    intro s s' h
    have := hc f s s' h
    simp only [forFrames]
    generalize call f s = r at this ⊢
    generalize call f s' = r' at this ⊢
    cases this with
    | ok _ hs => exact ih hs
    | throw hs => exact .throw hs
    | ub => exact .ub

theorem names_linked {s s' : EG E} (h : Linked ty s s') :
    s'.gs.g.verts.map (fun r => FrameProp.getId r.prop) = s.gs.g.verts.map (fun r => FrameProp.getId r.prop) := by
  obtain ⟨u, heap, tr, tr', rfl, rfl, -⟩ := h
  simp only [side, G.trans, List.map_map]
  apply List.map_congr_left
  intro r _
  exact r.prop.shuffle.id

theorem clear_linked {s s' : EG E} (h : Linked ty s s') : LinkedO ty Eq (clear s) (clear s') := by
  have h1 : ∀ f s s', Linked ty s s' → LinkedO ty (E := E) Eq (base s.heap (GS.disconnectFrame f s.gs)) (base s'.heap (GS.disconnectFrame f s'.gs)) :=
    fun f s s' hs => exec_base_linked (c := .disconnectFrame f) trivial hs
  have := forFrames_linked h1 (s.gs.g.verts.map (fun r => FrameProp.getId r.prop)) h
  unfold clear
  rw [names_linked h]
  simp only
  generalize forFrames (fun f s => base s.heap (GS.disconnectFrame f s.gs)) (s.gs.g.verts.map (fun r => FrameProp.getId r.prop)) s = r at this ⊢
  generalize forFrames (fun f s => base s.heap (GS.disconnectFrame f s.gs)) (s.gs.g.verts.map (fun r => FrameProp.getId r.prop)) s' = r' at this ⊢
  cases this with
  | ok _ hs => exact forFrames_linked (fun f _ _ hs => removeFrame_linked f hs) _ hs
  | throw hs => exact .throw hs
  | ub => exact .ub

theorem setItemFrame_linked (i : ItemId) (f : FrameId) {s s' : EG E} (h : Linked ty s s') : Linked ty (setItemFrame i f s) (setItemFrame i f s') := by
  obtain ⟨u, heap, tr, tr', rfl, rfl, hw, hty, he⟩ := h
  refine ⟨u, fun j => if j = i then { heap j with frame := f } else heap j, tr, tr', rfl, rfl, hw, ?_, he⟩
  intro j
  simp only
  split <;> exact hty j

theorem notify_linked (ev : Event) {s s' : EG E} (h : Linked ty s s') : Linked ty (notify ev s) (notify ev s') := by
  obtain ⟨u, heap, tr, tr', rfl, rfl, hw, hty, he⟩ := h
  refine ⟨u, heap, tr ++ [(ev, u.g.trans Twin.left)], tr' ++ [(ev, u.g.trans Twin.right)], rfl, rfl, hw, hty, ?_⟩
  rw [List.map_append, List.map_append]
  exact he.append_right _

theorem setList_linked (v : VId) {t : TypeIdx} {l : List ItemId} (hl : ∀ i ∈ l, ty i = t) {s s' : EG E} (h : Linked ty s s') :
    Linked ty (modFrame v (EFrame.setList t l) s) (modFrame v (EFrame.setList t l) s') := by
  obtain ⟨u, heap, tr, tr', rfl, rfl, hw, hty, he⟩ := h
  rw [modFrame_side u heap tr v (k := Twin.setList t l hl) (fun p => Side.left.setList p t l hl),
    modFrame_side u heap tr' v (k := Twin.setList t l hl) (fun p => Side.right.setList p t l hl)]
  exact ⟨_, heap, tr, tr', rfl, rfl, hw.modV v (fun _ => rfl), hty, he⟩

theorem eraseType_linked (v : VId) (t : TypeIdx) {s s' : EG E} (h : Linked ty s s') :
    Linked ty (modFrame v (EFrame.eraseType t) s) (modFrame v (EFrame.eraseType t) s') := by
  obtain ⟨u, heap, tr, tr', rfl, rfl, hw, hty, he⟩ := h
  rw [modFrame_side u heap tr v (k := Twin.eraseType t) (fun p => Side.left.eraseType p t),
    modFrame_side u heap tr' v (k := Twin.eraseType t) (fun p => Side.right.eraseType p t)]
  exact ⟨_, heap, tr, tr', rfl, rfl, hw.modV v (fun _ => rfl), hty, he⟩

theorem listOf_linked (f : FrameId) (t : TypeIdx) {s s' : EG E} (h : Linked ty s s') :
    listOf f t s' = listOf f t s ∧ ∀ l, listOf f t s = some l → ∀ i ∈ l, ty i = t := by
  obtain ⟨u, heap, tr, tr', rfl, rfl, hw, hty, he⟩ := h
  rw [listOf_side Side.left, listOf_side Side.right]
  refine ⟨rfl, ?_⟩
  intro l hl
  obtain ⟨v, hv, hl⟩ := Option.bind_eq_some_iff.1 hl
  obtain ⟨r, hr, hl⟩ := Option.bind_eq_some_iff.1 hl
  exact r.prop.sound.list hl

theorem vertexOf_linked (f : FrameId) {s s' : EG E} (h : Linked ty s s') : s'.gs.g.vertexOf f = s.gs.g.vertexOf f := by
  obtain ⟨u, heap, tr, tr', rfl, rfl, -⟩ := h; rfl

/-- the frame behind a descriptor -/
theorem find_linked (v : VId) {s s' : EG E} (h : Linked ty s s') :
    (s.gs.g.findV v = none ∧ s'.gs.g.findV v = none) ∨
    ∃ r r', s.gs.g.findV v = some r ∧ s'.gs.g.findV v = some r' ∧ r.prop.Shuffle r'.prop ∧ r.prop.Sound ty := by
  obtain ⟨u, heap, tr, tr', rfl, rfl, -⟩ := h
  rw [findV_side, findV_side]
  cases u.g.findV v with
  | none => exact Or.inl ⟨rfl, rfl⟩
  | some r => exact Or.inr ⟨_, _, rfl, rfl, r.prop.shuffle, r.prop.sound⟩

theorem removeItem_linked (i : ItemId) {s s' : EG E} (h : Linked ty s s') : LinkedO ty Eq (removeItem i s) (removeItem i s') := by
  unfold removeItem
  simp only [h.heap, vertexOf_linked _ h]
  cases s.gs.g.vertexOf (s.heap i).frame with
  | none => exact .throw h
  | some v =>
    simp only
    rcases find_linked v h with ⟨h1, h2⟩ | ⟨r, r', h1, h2, hs, hsd⟩
    · rw [h1, h2]; exact .ub
    · rw [h1, h2]
      simp only [hs.get hsd]
      cases hg : r.prop.items.get (s.heap i).type with
      | none => exact .throw h
      | some l =>
        simp only
        split
        · have hl : ∀ j ∈ l.erase i, ty j = (s.heap i).type := fun j hj => hsd.list hg j (List.mem_of_mem_erase hj)
          have hb := setItemFrame_linked i "" (setList_linked v hl h)
          split
          · exact .ok rfl (notify_linked _ (eraseType_linked v _ hb))
          · exact .ok rfl (notify_linked _ hb)
        · exact .throw h

theorem removeItemAt_linked (f : FrameId) (it : ItemIt) {s s' : EG E} (h : Linked ty s s') :
    LinkedO ty Eq (removeItemAt f it s) (removeItemAt f it s') := by
  unfold removeItemAt
  simp only [h.heap, vertexOf_linked _ h, (listOf_linked _ _ h).1]
  cases s.gs.g.vertexOf f with
  | none => exact .throw h
  | some v =>
    simp only
    cases (listOf it.frame it.type s).bind (fun l => l[it.pos]?) with
    | none => exact .ub
    | some i =>
      simp only
      split
      · exact .ub
      · cases hl : listOf f it.type s with
        | none => exact .throw h
        | some l =>
          simp only
          split
          · exact .ub
          · have hl' : ∀ j ∈ l.eraseIdx it.pos, ty j = it.type :=
              fun j hj => (listOf_linked f it.type h).2 l hl j (List.mem_of_mem_eraseIdx hj)
            have hb := notify_linked (.itemRemoved f i) (setItemFrame_linked i "" (setList_linked v hl' h))
            split
            · exact .ok rfl (eraseType_linked v _ hb)
            · exact .ok rfl hb

theorem exec_linked {c : Cmd E} (hc : c.Sound ty) {s s' : EG E} (h : Linked ty s s') : LinkedO ty Eq (exec c s) (exec c s') := by
  cases c with
  | graph c =>
    cases c with
    | removeFrame f => exact removeFrame_linked f h
    | _ => exact exec_base_linked hc h
  | addItem i =>
    simp only [exec, addItem, h.heap]
    exact addItemToFrame_linked _ i h
  | addItemToFrame f i => exact addItemToFrame_linked f i h
  | removeItem i => exact removeItem_linked i h
  | removeItemAt f it =>
    have := removeItemAt_linked f it h
    simp only [exec]
    generalize removeItemAt f it s = r at this ⊢
    generalize removeItemAt f it s' = r' at this ⊢
    cases this with
    | ok _ hs => exact .ok rfl hs
    | throw hs => exact .throw hs
    | ub => exact .ub
  | clearFrame f => exact clearFrame_linked f h
  | clear => exact clear_linked h
  | setItemFrame i f => exact .ok rfl (setItemFrame_linked i f h)

end EG
end Verif
