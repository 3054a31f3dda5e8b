import Verif.Lemmas.ItemOrderCalls
import Verif.Lemmas.OpaqueQueries
set_option linter.unusedSectionVars false
/-! Histories and questions on shuffled graphs. -/

namespace Verif
variable {E : Type} [EdgeProp E] {ty : ItemId → TypeIdx}

theorem EFrame.Shuffle.trans {a b c : EFrame} (h : a.Shuffle b) (k : b.Shuffle c) : a.Shuffle c :=
  ⟨k.id.trans h.id, k.items.trans h.items⟩

theorem forall₂_trans {α : Type} {R : α → α → Prop} (ht : ∀ a b c, R a b → R b c → R a c) {l l' l'' : List α}
    (h : List.Forall₂ R l l') (k : List.Forall₂ R l' l'') : List.Forall₂ R l l'' := by
  induction h generalizing l'' with
  | nil => cases k; exact .nil
  | cons h1 _ ih => cases k with | cons k1 k2 => exact .cons (ht _ _ _ h1 k1) (ih k2)

theorem G.Shuffle.trans {a b c : G EFrame E} (h : a.Shuffle b) (k : b.Shuffle c) : a.Shuffle c :=
  ⟨forall₂_trans (fun _ _ _ p q => ⟨q.id.trans p.id, q.idx.trans p.idx, p.prop.trans q.prop⟩) h.verts k.verts, k.edges.trans h.edges,
    k.labels.trans h.labels, k.nextV.trans h.nextV, k.nextE.trans h.nextE, k.nextIdx.trans h.nextIdx⟩

/-- the list of twins for two shuffled lists of vertices -/
theorem twins {vs vs' : List (VRec EFrame)} (h : List.Forall₂ VRec.Shuffle vs vs') (hs : ∀ r ∈ vs, r.prop.Sound ty) :
    ∃ us : List (VRec (Twin ty)), vs = us.map (fun r => ⟨r.id, r.idx, r.prop.a⟩) ∧ vs' = us.map (fun r => ⟨r.id, r.idx, r.prop.b⟩) := by
  induction h with
  | nil => exact ⟨[], rfl, rfl⟩
  | @cons r r' _ _ h1 _ ih =>
    obtain ⟨us, h2, h3⟩ := ih fun q hq => hs q (by simp [hq])
    have hr : r.prop.Sound ty := hs r (by simp)
    have hp := h1.prop
    refine ⟨⟨r.id, r.idx, ⟨r.prop, r'.prop, hp, hr⟩⟩ :: us, ?_, ?_⟩
    · rw [List.map_cons, ← h2]
    · rw [List.map_cons, ← h3, ← h1.id, ← h1.idx]

theorem WF.of_left {g : G (Twin ty) E} (h : WF (g.trans Twin.left)) : WF g := by
  have hv : ∀ r : VRec (Twin ty), r ∈ g.verts → VRec.trans (E := E) Twin.left r ∈ (g.trans (E' := E) Twin.left).verts := fun r hr => List.mem_map_of_mem hr
  have hd : ∀ e : ERec E, e ∈ g.edges → ERec.trans (F := Twin ty) Twin.left e ∈ (g.trans (E' := E) Twin.left).edges := fun r hr => List.mem_map_of_mem hr
  refine ⟨?_, ?_, ?_, ?_, h.lnodup, ?_, ?_, ?_, ?_, ?_⟩
  · simpa [G.trans, Function.comp_def] using h.vnodup
  · exact fun r hr => h.vlt _ (hv r hr)
  · simpa [G.trans, Function.comp_def] using h.inodup
  · exact fun r hr => h.ilt _ (hv r hr)
  · intro f v
    refine (h.lab f v).trans ⟨?_, ?_⟩
    · rintro ⟨r, hr, rfl, rfl⟩
      obtain ⟨q, hq, rfl⟩ := List.mem_map.1 hr
      exact ⟨q, hq, rfl, rfl⟩
    · rintro ⟨r, hr, rfl, rfl⟩
      exact ⟨_, hv r hr, rfl, rfl⟩
  · simpa [G.trans, Function.comp_def] using h.enodup
  · exact fun e he => h.elt _ (hd e he)
  · intro e he
    obtain ⟨r, hr, h1⟩ := h.esrc _ (hd e he)
    obtain ⟨q, hq, rfl⟩ := List.mem_map.1 hr
    exact ⟨q, hq, h1⟩
  · intro e he
    obtain ⟨r, hr, h1⟩ := h.etgt _ (hd e he)
    obtain ⟨q, hq, rfl⟩ := List.mem_map.1 hr
    exact ⟨q, hq, h1⟩

namespace EG

/-- what every reachable graph satisfies -/
structure Proper (ty : ItemId → TypeIdx) (s : EG E) : Prop where
  wf : WF s.gs.g
  types : ∀ i, (s.heap i).type = ty i
  sound : ∀ r ∈ s.gs.g.verts, r.prop.Sound ty

theorem Linked.shuffle {s s' : EG E} (h : Linked ty s s') : Shuffle ty s s' := by
  obtain ⟨u, heap, tr, tr', rfl, rfl, hw, hty, he⟩ := h
  refine ⟨⟨?_, rfl, rfl, rfl, rfl, rfl⟩, rfl, rfl, rfl, he⟩
  simp only [side, G.trans]
  generalize u.g.verts = l
  induction l with
  | nil => exact .nil
  | cons r l ih => exact .cons ⟨rfl, rfl, r.prop.shuffle⟩ ih

theorem Linked.proper {s s' : EG E} (h : Linked ty s s') : Proper ty s := by
  obtain ⟨u, heap, tr, tr', rfl, rfl, hw, hty, he⟩ := h
  refine ⟨hw.trans _, hty, ?_⟩
  intro r hr
  obtain ⟨q, hq, rfl⟩ := List.mem_map.1 hr
  exact q.prop.sound

theorem Shuffle.linked {s s' : EG E} (h : Shuffle ty s s') (hp : Proper ty s) : Linked ty s s' := by
  obtain ⟨us, h1, h2⟩ := twins h.g.verts hp.sound
  have idm : ∀ es : List (ERec E), es.map (fun e => (⟨e.id, e.src, e.tgt, e.prop⟩ : ERec E)) = es := fun es => by
    induction es with
    | nil => rfl
    | cons e es ih => rw [List.map_cons, ih]
  have e1 : s.gs.g = (⟨us, s.gs.g.edges, s.gs.g.labels, s.gs.g.nextV, s.gs.g.nextE, s.gs.g.nextIdx⟩ : G (Twin ty) E).trans Twin.left := by
    simp only [G.trans, Twin.left, id]
    rw [idm, ← h1]
  have e2 : s'.gs.g = (⟨us, s.gs.g.edges, s.gs.g.labels, s.gs.g.nextV, s.gs.g.nextE, s.gs.g.nextIdx⟩ : G (Twin ty) E).trans Twin.right := by
    simp only [G.trans, Twin.right, id]
    rw [idm, ← h2, ← h.g.edges, ← h.g.labels, ← h.g.nextV, ← h.g.nextE, ← h.g.nextIdx]
  refine ⟨⟨⟨us, s.gs.g.edges, s.gs.g.labels, s.gs.g.nextV, s.gs.g.nextE, s.gs.g.nextIdx⟩, s.gs.subs, s.gs.views, []⟩, s.heap, s.gs.trace, s'.gs.trace,
    ?_, ?_, ?_, hp.types, h.events⟩
  · simp only [side]
    rw [← e1]
  · simp only [side]
    rw [← e2, ← h.subs, ← h.views, ← h.heap]
  · have := hp.wf
    rw [e1] at this
    exact this.of_left

theorem Shuffle.refl (s : EG E) : Shuffle ty s s := by
  refine ⟨⟨?_, rfl, rfl, rfl, rfl, rfl⟩, rfl, rfl, rfl, .refl _⟩
  generalize s.gs.g.verts = l
  induction l with
  | nil => exact .nil
  | cons r l ih => exact .cons ⟨rfl, rfl, .refl _⟩ ih

theorem Shuffle.trans {a b c : EG E} (h : Shuffle ty a b) (k : Shuffle ty b c) : Shuffle ty a c :=
  ⟨h.g.trans k.g, k.subs.trans h.subs, k.views.trans h.views, k.heap.trans h.heap, .trans h.events k.events⟩

theorem Proper.init (heap : ItemId → ItemObj) : Proper (E := E) (fun i => (heap i).type) (init heap) :=
  ⟨WF.empty, fun _ => rfl, fun r hr => absurd hr List.not_mem_nil⟩

theorem Linked.shuffled {a b c : EG E} (h : Linked ty a b) (k : Shuffle ty b c) : Linked ty a c :=
  (h.shuffle.trans k).linked h.proper

theorem LinkedO.outcome {α : Type} {R : α → α → Prop} {r r' : Res (EG E) α} (h : LinkedO ty R r r') : SameOutcome ty R r r' := by
  cases h with
  | ok ha hs => exact .ok ha hs.shuffle
  | throw hs => exact .throw hs.shuffle
  | ub => exact .ub

/-- every call on a proper graph leaves a proper graph -/
theorem exec_proper {c : Cmd E} (hc : c.Sound ty) {s s' : EG E} (h : Proper ty s) (hr : (exec c s).st? = some s') : Proper ty s' := by
  have := exec_linked hc ((Shuffle.refl s).linked h)
  generalize exec c s = r at this hr
  cases this with
  | ok _ hs => cases hr; exact hs.proper
  | throw hs => cases hr; exact hs.proper
  | ub => cases hr

theorem run_proper {cs : List (Cmd E)} (hcs : ∀ c ∈ cs, c.Sound ty) : ∀ {s s' : EG E}, Proper ty s → run cs s = some s' → Proper ty s' := by
  induction cs with
  | nil => intro s s' h hr; cases hr; exact h
  | cons c cs ih =>
    intro s s' h hr
    simp only [run] at hr
    cases hx : exec c s with
    | ok a t => rw [hx] at hr; exact ih (fun d hd => hcs d (by simp [hd])) (exec_proper (hcs c (by simp)) h (by rw [hx]; rfl)) hr
    | throw x t => rw [hx] at hr; exact ih (fun d hd => hcs d (by simp [hd])) (exec_proper (hcs c (by simp)) h (by rw [hx]; rfl)) hr
    | ub m => rw [hx] at hr; cases hr

/-- a shuffled history follows the history without shuffles -/
theorem RunShuffled.follows {cs : List (Cmd E)} {s s' : EG E} {xs : List (Option Exn)} (h : RunShuffled ty cs s xs s')
    (hcs : ∀ c ∈ cs, c.Sound ty) : ∀ {t : EG E}, Linked ty t s → ∃ t', outcomes cs t = some (xs, t') ∧ Linked ty t' s' := by
  induction h with
  | nil h => intro t ht; exact ⟨t, rfl, ht.shuffled h⟩
  | @ok c cs s s1 s2 s' xs h1 h2 _ ih =>
    intro t ht
    have := exec_linked (hcs c (by simp)) (ht.shuffled h1)
    rw [h2] at this
    generalize hx : exec c t = r at this
    cases this with
    | ok _ hs =>
      obtain ⟨t', k1, k2⟩ := ih (fun d hd => hcs d (by simp [hd])) hs
      exact ⟨t', by rw [outcomes, hx]; simp only; rw [k1]; rfl, k2⟩
  | @throw c cs s s1 s2 s' x xs h1 h2 _ ih =>
    intro t ht
    have := exec_linked (hcs c (by simp)) (ht.shuffled h1)
    rw [h2] at this
    generalize hx : exec c t = r at this
    cases this with
    | throw hs =>
      obtain ⟨t', k1, k2⟩ := ih (fun d hd => hcs d (by simp [hd])) hs
      exact ⟨t', by rw [outcomes, hx]; simp only; rw [k1]; rfl, k2⟩

theorem CanBreak.breaks {cs : List (Cmd E)} {s : EG E} (h : CanBreak ty cs s) (hcs : ∀ c ∈ cs, c.Sound ty) :
    ∀ {t : EG E}, Linked ty t s → outcomes cs t = none := by
  induction h with
  | @here c cs s s1 m h1 h2 =>
    intro t ht
    have := exec_linked (hcs c (by simp)) (ht.shuffled h1)
    rw [h2] at this
    generalize hx : exec c t = r at this
    cases this with
    | ub => rw [outcomes, hx]
  | @ok c cs s s1 s2 h1 h2 _ ih =>
    intro t ht
    have := exec_linked (hcs c (by simp)) (ht.shuffled h1)
    rw [h2] at this
    generalize hx : exec c t = r at this
    cases this with
    | ok _ hs => rw [outcomes, hx]; simp only; rw [ih (fun d hd => hcs d (by simp [hd])) hs]; rfl
  | @throw c cs s s1 s2 x h1 h2 _ ih =>
    intro t ht
    have := exec_linked (hcs c (by simp)) (ht.shuffled h1)
    rw [h2] at this
    generalize hx : exec c t = r at this
    cases this with
    | throw hs => rw [outcomes, hx]; simp only; rw [ih (fun d hd => hcs d (by simp [hd])) hs]; rfl

theorem breaks_canBreak (cs : List (Cmd E)) : ∀ {s : EG E}, outcomes cs s = none → CanBreak ty cs s := by
  induction cs with
  | nil => intro s h; cases h
  | cons c cs ih =>
    intro s h
    rw [outcomes] at h
    cases hx : exec c s with
    | ok a t => rw [hx] at h; exact .ok (.refl s) hx (ih (by simpa using h))
    | throw x t => rw [hx] at h; exact .throw (.refl s) hx (ih (by simpa using h))
    | ub m => exact .here (.refl s) hx

/-! ## questions -/

/-- questions that look at one frame -/
theorem readFrame_linked {α : Type} (f : FrameId) {h : EFrame → α} {R : α → α → Prop}
    (hR : ∀ a b : EFrame, a.Shuffle b → a.Sound ty → R (h a) (h b)) {s s' : EG E} (hs : Linked ty s s') :
    LinkedO ty R (readFrame f h s) (readFrame f h s') := by
  unfold readFrame
  rw [vertexOf_linked f hs]
  cases s.gs.g.vertexOf f with
  | none => exact .throw hs
  | some v =>
    simp only
    rcases find_linked v hs with ⟨h1, h2⟩ | ⟨r, r', h1, h2, hsh, hsd⟩
    · rw [h1, h2]; exact .ub
    · rw [h1, h2]; exact .ok (hR _ _ hsh hsd) hs

theorem getItems_linked (f : FrameId) (t : TypeIdx) {s s' : EG E} (hs : Linked ty s s') : LinkedO ty Eq (getItems f t s) (getItems f t s') := by
  unfold getItems
  rw [vertexOf_linked f hs]
  cases s.gs.g.vertexOf f with
  | none => exact .throw hs
  | some v =>
    simp only
    rcases find_linked v hs with ⟨h1, h2⟩ | ⟨r, r', h1, h2, hsh, hsd⟩
    · rw [h1, h2]; exact .ub
    · rw [h1, h2]
      simp only [hsh.get hsd]
      cases r.prop.items.get t with
      | none => exact .throw hs
      | some l => exact .ok rfl hs

theorem getItemsT_linked (f : FrameId) (t : TypeIdx) {s s' : EG E} (hs : Linked ty s s') : LinkedO ty Eq (getItemsT f t s) (getItemsT f t s') := by
  unfold getItemsT
  rw [vertexOf_linked f hs]
  cases s.gs.g.vertexOf f with
  | none => exact .throw hs
  | some v =>
    simp only
    rcases find_linked v hs with ⟨h1, h2⟩ | ⟨r, r', h1, h2, hsh, hsd⟩
    · rw [h1, h2]; exact .ub
    · rw [h1, h2]
      simp only [hsh.get hsd]
      cases r.prop.items.get t with
      | none => exact .ok rfl hs
      | some l =>
        simp only
        split
        · exact .ub
        · exact .ok rfl hs

theorem getItem_linked (f : FrameId) (t : TypeIdx) (k : Int) {s s' : EG E} (hs : Linked ty s s') : LinkedO ty Eq (getItem f t k s) (getItem f t k s') := by
  unfold getItem
  rw [vertexOf_linked f hs]
  cases s.gs.g.vertexOf f with
  | none => exact .throw hs
  | some v =>
    simp only
    split
    · exact .throw hs
    · rcases find_linked v hs with ⟨h1, h2⟩ | ⟨r, r', h1, h2, hsh, hsd⟩
      · rw [h1, h2]; exact .ub
      · rw [h1, h2]
        simp only [hsh.get hsd]
        cases r.prop.items.get t with
        | none => exact .throw hs
        | some l =>
          simp only
          split
          · exact .ub
          · cases l[k.toNat]? with
            | none => exact .throw hs
            | some i => exact .ok rfl hs

theorem visit_perm {a b : EFrame} (h : a.Shuffle b) : b.visit.Perm a.visit := h.items.flatMap_right _

/-- the events for items when a subscriber comes or goes -/
theorem itemEvents_linked {u : List (VRec (Twin ty))} {ev : FrameId → ItemId → Event} (hev : ∀ f, EventsAlike.Swappable ty (ev f)) :
    EventsAlike ty ((u.map fun r => (⟨r.id, r.idx, r.prop.a⟩ : VRec EFrame)).flatMap (fun r => r.prop.visit.map (fun i => ev r.prop.id i)))
      ((u.map fun r => (⟨r.id, r.idx, r.prop.b⟩ : VRec EFrame)).flatMap (fun r => r.prop.visit.map (fun i => ev r.prop.id i))) := by
  induction u with
  | nil => exact .nil
  | cons r u ih =>
    simp only [List.map_cons, List.flatMap_cons]
    refine .append ?_ ih
    simp only [r.prop.shuffle.id]
    exact EventsAlike.visit (hev _) r.prop

theorem publish_linked {s s' : EG E} (hs : Linked ty s s') : Option.Rel (EventsAlike ty) (publishCurrentState s) (publishCurrentState s') := by
  obtain ⟨u, heap, tr, tr', rfl, rfl, hw, hty, he⟩ := hs
  have key : ∀ (m : PropMap (Twin ty) EFrame E E) tr, GS.publishCurrentState (side m u heap tr).gs = GS.publishCurrentState u := by
    intro m tr
    rw [← GS.publishCurrentState_trans m u]
    rfl
  unfold publishCurrentState
  rw [key, key]
  cases GS.publishCurrentState u with
  | none => exact .none
  | some evs => exact .some ((itemEvents_linked fun f i j l hij => .added f l hij).append_left evs)

theorem unpublish_linked {s s' : EG E} (hs : Linked ty s s') : Option.Rel (EventsAlike ty) (unpublishCurrentState s) (unpublishCurrentState s') := by
  obtain ⟨u, heap, tr, tr', rfl, rfl, hw, hty, he⟩ := hs
  have key : ∀ (m : PropMap (Twin ty) EFrame E E) tr, GS.unpublishCurrentState (side m u heap tr).gs = GS.unpublishCurrentState u := by
    intro m tr
    rw [← GS.unpublishCurrentState_trans m u]
    rfl
  unfold unpublishCurrentState
  rw [key, key]
  cases GS.unpublishCurrentState u with
  | none => exact .none
  | some evs => exact .some ((itemEvents_linked fun f i j l hij => .removed f l hij).append_right evs)

end EG
end Verif
