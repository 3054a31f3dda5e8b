import Verif.Props.C62
import Verif.Model.ItemMove
/-! # C111: moving an item hands over what it contains, and the two objects have nothing in common afterwards -/

namespace Verif
open Items
variable {D V : Type}

/-- The property, for `Item<D>` (`spatial = false`) and `SpatialItem<D>`: after the move the new object looks like the old one did, and no
changes of one of them are seen in the other. -/
def C111_statement : Prop :=
  (∀ (sp : Bool) (s : Items Nat Nat) (a : Nat) (lf : FrameId) (ld : Nat), a < s.fresh → (s.objs a).cls = (if sp then .spatial else .item) →
    ((s.objs a).boundary ≠ none → sp = true) → ∀ p s', moveNew sp lf ld a s = (p, s') →
    see p s' = see a s ∧ ∀ cs, (∀ q, Chg.setBoundary q ∉ cs) →
      see a (applyAll p cs s') = see a s' ∧ see p (applyAll a cs s') = see p s') ∧
  (∀ (sp : Bool) (s : Items Nat Nat) (p a : Nat) (lf : FrameId) (ld : Nat), p ≠ a → (s.objs a).cls = (if sp then .spatial else .item) →
    (s.objs p).cls = (s.objs a).cls → ((s.objs a).boundary ≠ none → sp = true) → ((s.objs p).boundary ≠ none → sp = true) →
    see p (moveTo sp lf ld p a s) = see a s ∧ ∀ cs, (∀ q, Chg.setBoundary q ∉ cs) →
      see a (applyAll p cs (moveTo sp lf ld p a s)) = see a (moveTo sp lf ld p a s) ∧
      see p (applyAll a cs (moveTo sp lf ld p a s)) = see p (moveTo sp lf ld p a s))

/-- The property fails for spatial items: the old one keeps the boundary, and extending it changes the new one. -/
theorem C111_spatial_fails : ∃ p s', moveNew true "" 0 0 itemsDemo = (p, s') ∧ see p s' = see 0 itemsDemo ∧ see 0 s' = see 0 itemsDemo ∧
    see p (applyAll 0 [.changeBoundary fun v => v + 1] s') = (.spatial, 5, 77, "f", 42, some 31) :=
  ⟨_, _, rfl, rfl, rfl, rfl⟩

theorem C111_statement_fails : ¬ C111_statement := by
  intro h
  obtain ⟨p, s', h1, h2, -, h4⟩ := C111_spatial_fails
  have := (h.1 true itemsDemo 0 "" 0 (by decide) rfl (fun _ => rfl) p s' h1).2 [.changeBoundary fun v => v + 1] (by simp)
  rw [this.2, h2] at h4
  revert h4; decide

/-- In every state: moving a spatial item leaves the old one as it is, and both point to the same boundary, so that a change of the boundary
through one of them is seen through the other. -/
theorem C111_spatial_shares (s : Items D V) (a : Nat) (ha : a < s.fresh) (lf : FrameId) (ld : D) :
    ∃ p s', moveNew true lf ld a s = (p, s') ∧ p ≠ a ∧ s'.objs a = s.objs a ∧ (s'.objs p).boundary = (s.objs a).boundary ∧
      ∀ q, (s.objs a).boundary = some q → ∀ f : V → V, (see p (changeBoundary a f s')).2.2.2.2.2 = some (f (s.vols q)) ∧
        (see a (changeBoundary p f s')).2.2.2.2.2 = some (f (s.vols q)) := by
  have hne : s.fresh ≠ a := by intro h; rw [h] at ha; exact Nat.lt_irrefl _ ha
  refine ⟨_, _, rfl, hne, ?_, ?_, ?_⟩
  · simp [hne.symm]
  · simp
  · intro q hq f
    simp [see, changeBoundary, hne.symm, hq]

/-- item 0 is bounded by volume 3; the copy doubles it -/
example : let r := moveNew true "" 0 0 itemsDemo
    r.1 = 2 ∧ see 0 (changeBoundary 2 (fun v => 2 * v) r.2) = (.spatial, 5, 77, "f", 42, some 60) := ⟨rfl, rfl⟩

/-- Assigning a moved spatial item: the old boundary of the target is let go, the two share the boundary of the source. -/
theorem C111_spatial_assign_shares (s : Items D V) (p a : Nat) (hpa : p ≠ a) (lf : FrameId) (ld : D) :
    (moveTo true lf ld p a s).objs a = s.objs a ∧ ((moveTo true lf ld p a s).objs p).boundary = (s.objs a).boundary ∧
      ∀ q, (s.objs a).boundary = some q → ∀ f : V → V,
        (see p (changeBoundary a f (moveTo true lf ld p a s))).2.2.2.2.2 = some (f (s.vols q)) := by
  refine ⟨?_, ?_, ?_⟩
  · simp [moveTo, assign, upd, hpa.symm]
  · simp [moveTo, assign, upd, hpa.symm]
  · intro q hq f
    simp [see, moveTo, assign, upd, hpa.symm, changeBoundary, hq]

/-- item 0 is moved to item 1 -/
example : see 1 (moveTo true "" 0 1 0 itemsDemo) = (.spatial, 5, 77, "f", 42, some 30) ∧
    see 1 (changeBoundary 0 (fun _ => 7) (moveTo true "" 0 1 0 itemsDemo)) = (.spatial, 5, 77, "f", 42, some 7) := ⟨rfl, rfl⟩

/-- Missing compared to C111: spatial items.  A moved plain item: a new object with time, id, frame and content of the old one; the old one
keeps its time, id and boundary and its callbacks, which the new one does not get; all else stays, nothing is called, and no changes of one
of them are seen in the other. -/
theorem C111_construct_partial (s : Items D V) (a : Nat) (ha : a < s.fresh) (lf : FrameId) (ld : D) :
    ∃ p s', moveNew false lf ld a s = (p, s') ∧ p ≠ a ∧ s.fresh ≤ p ∧
      s'.objs p = ⟨.item, (s.objs a).time, (s.objs a).uuid, (s.objs a).frame, (s.objs a).data, none, []⟩ ∧
      s'.objs a = { s.objs a with frame := lf, data := ld } ∧
      (∀ x, x ≠ p → x ≠ a → s'.objs x = s.objs x) ∧ s'.vols = s.vols ∧ s'.calls = s.calls ∧ p < s'.fresh ∧
      ((s.objs a).cls = .item → (s.objs a).boundary = none → see p s' = see a s) ∧
      ∀ cs, (∀ q, Chg.setBoundary q ∉ cs) → see a (applyAll p cs s') = see a s' ∧ see p (applyAll a cs s') = see p s' ∧
        ∀ x ∈ (applyAll p cs s').calls, x ∈ s.calls ∨ x.2 = p ∧ Chg.connect x.1 ∈ cs := by
  have hne : s.fresh ≠ a := by intro h; rw [h] at ha; exact Nat.lt_irrefl _ ha
  have hp : (moveNew false lf ld a s).2.objs s.fresh =
      ⟨.item, (s.objs a).time, (s.objs a).uuid, (s.objs a).frame, (s.objs a).data, none, []⟩ := by
    simp [moveNew, moveConstruct, upd, hne]
  refine ⟨_, _, rfl, hne, Nat.le_refl _, hp, ?_, ?_, rfl, rfl, Nat.lt_succ_self _, ?_, ?_⟩
  · simp [upd, hne.symm]
  · intro x h1 h2
    have h1' : x ≠ s.fresh := h1
    simp [upd, h1', h2]
  · intro hc hb
    show see s.fresh (moveNew false lf ld a s).2 = _
    simp only [see, hp, hc, hb, Option.map_none]
  · intro cs hcs
    show see a (applyAll s.fresh cs (moveNew false lf ld a s).2) = see a (moveNew false lf ld a s).2 ∧
      see s.fresh (applyAll a cs (moveNew false lf ld a s).2) = see s.fresh (moveNew false lf ld a s).2 ∧
      ∀ x ∈ (applyAll s.fresh cs (moveNew false lf ld a s).2).calls, x ∈ s.calls ∨ x.2 = s.fresh ∧ Chg.connect x.1 ∈ cs
    obtain ⟨-, h2, ex, h3, h4⟩ := C62_independent_partial s.fresh a hne cs (moveNew false lf ld a s).2
      (fun q _ => ⟨by rw [hp]; simp, hcs _⟩)
    obtain ⟨-, k2, -⟩ := C62_independent_partial a s.fresh hne.symm cs (moveNew false lf ld a s).2
      (fun q hq => by rw [hp] at hq; simp at hq)
    refine ⟨h2, k2, ?_⟩
    intro x hx
    rw [h3] at hx
    rcases List.mem_append.1 hx with hx | hx
    · exact .inl hx
    · obtain ⟨e1, e2⟩ := h4 x hx
      rw [hp] at e2
      exact .inr ⟨e1, e2.resolve_left (by simp)⟩

/-- a plain item with callback 9 is moved: the new one has no callback, changes of both stay their own -/
example : let s : Items Nat Nat := ⟨fun _ => ⟨.item, 5, 77, "f", 42, none, [9]⟩, fun x => x, 1, []⟩
    let r := moveNew false "" 0 0 s
    r.1 = 1 ∧ see 1 r.2 = see 0 s ∧ see 0 r.2 = (.item, 5, 77, "", 0, none) ∧
    (applyAll 1 [.setData 3, .contentsChanged] r.2).calls = [] ∧ (applyAll 0 [.contentsChanged] r.2).calls = [(9, 0)] ∧
    see 1 (applyAll 0 [.setData 3, .setFrame "g"] r.2) = see 0 s := by
  refine ⟨rfl, rfl, rfl, rfl, rfl, rfl⟩

/-- Missing compared to C111: spatial items.  Assigning a moved plain item to another one. -/
theorem C111_assign_partial (s : Items D V) (p a : Nat) (hpa : p ≠ a) (lf : FrameId) (ld : D) :
    (moveTo false lf ld p a s).objs p =
      { s.objs p with time := (s.objs a).time, uuid := (s.objs a).uuid, frame := (s.objs a).frame, data := (s.objs a).data } ∧
    (moveTo false lf ld p a s).objs a = { s.objs a with frame := lf, data := ld } ∧
    (∀ x, x ≠ p → x ≠ a → (moveTo false lf ld p a s).objs x = s.objs x) ∧ (moveTo false lf ld p a s).vols = s.vols ∧
    (moveTo false lf ld p a s).calls = s.calls ∧
    ((s.objs p).cls = (s.objs a).cls → (s.objs p).boundary = (s.objs a).boundary → see p (moveTo false lf ld p a s) = see a s) ∧
    ((s.objs p).boundary = none → (s.objs a).boundary = none → ∀ cs, (∀ q, Chg.setBoundary q ∉ cs) →
      see a (applyAll p cs (moveTo false lf ld p a s)) = see a (moveTo false lf ld p a s) ∧
      see p (applyAll a cs (moveTo false lf ld p a s)) = see p (moveTo false lf ld p a s)) := by
  have hp : (moveTo false lf ld p a s).objs p =
      { s.objs p with time := (s.objs a).time, uuid := (s.objs a).uuid, frame := (s.objs a).frame, data := (s.objs a).data } := by
    simp [moveTo, moveAssign, upd, hpa, hpa.symm]
  have haa : (moveTo false lf ld p a s).objs a = { s.objs a with frame := lf, data := ld } := by
    simp [moveTo, moveAssign, upd, hpa.symm]
  refine ⟨hp, haa, ?_, rfl, rfl, ?_, ?_⟩
  · intro x h1 h2
    simp [moveTo, moveAssign, upd, h1, h2]
  · intro hc hb
    have hv : (moveTo false lf ld p a s).vols = s.vols := rfl
    simp only [see, hp, hc, hb, hv]
  · intro hbp hba cs _
    obtain ⟨-, h2, -⟩ := C62_independent_partial p a hpa cs (moveTo false lf ld p a s) (fun q hq => by rw [haa] at hq; simp [hba] at hq)
    obtain ⟨-, k2, -⟩ := C62_independent_partial a p hpa.symm cs (moveTo false lf ld p a s) (fun q hq => by rw [hp] at hq; simp [hbp] at hq)
    exact ⟨h2, k2⟩

/-- two plain items; the target keeps its callback -/
example : let s : Items Nat Nat := ⟨fun x => ⟨.item, 5, 77 + x, "f", 42 + x, none, [x]⟩, fun x => x, 2, []⟩
    let t := moveTo false "" 0 1 0 s
    t.objs 1 = ⟨.item, 5, 77, "f", 42, none, [1]⟩ ∧ t.objs 0 = ⟨.item, 5, 77, "", 0, none, [0]⟩ ∧
    see 0 (applyAll 1 [.setData 1, .setTime 2] t) = see 0 t := by
  refine ⟨rfl, rfl, rfl⟩

/-- An item moved to itself keeps time, id, boundary and callbacks; its frame name and content are what the string and the data leave behind. -/
theorem C111_self (s : Items D V) (a : Nat) (lf : FrameId) (ld : D) :
    (moveTo false lf ld a a s).objs a = { s.objs a with frame := lf, data := ld } ∧
    (moveTo true lf ld a a s).objs a = s.objs a ∧ ∀ x, x ≠ a → (moveTo false lf ld a a s).objs x = s.objs x := by
  refine ⟨by simp [moveTo, moveAssign, upd], by simp [moveTo, assign, upd], fun x hx => by simp [moveTo, moveAssign, upd, hx]⟩

/-- a plain item loses frame name and content if its string and data do -/
example : let s : Items Nat Nat := ⟨fun _ => ⟨.item, 5, 77, "f", 42, none, [9]⟩, fun x => x, 1, []⟩
    (moveTo false "" 0 0 0 s).objs 0 = ⟨.item, 5, 77, "", 0, none, [9]⟩ ∧ (moveTo true "" 0 0 0 s).objs 0 = s.objs 0 := ⟨rfl, rfl⟩

end Verif
