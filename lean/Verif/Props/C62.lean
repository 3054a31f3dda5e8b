import Verif.Model.Items
/-! # C62: cloned and assigned items are independent copies -/

namespace Verif
open Items
variable {D V : Type}

/-- what the user sees of an item: class, time, id, frame, content, and the volume it is bounded by -/
def Items.see (a : Nat) (s : Items D V) : ItemCls × Int × Nat × FrameId × D × Option V :=
  ((s.objs a).cls, (s.objs a).time, (s.objs a).uuid, (s.objs a).frame, (s.objs a).data, (s.objs a).boundary.map s.vols)

/-- several changes of item `p` -/
def Items.applyAll (p : Nat) (cs : List (Chg D V)) (s : Items D V) : Items D V := cs.foldl (fun s c => Items.apply p c s) s

/-- `p` and `a` do not share a boundary, also not after the changes `cs` of `p` -/
def Items.Apart (p a : Nat) (cs : List (Chg D V)) (s : Items D V) : Prop :=
  ∀ q, (s.objs a).boundary = some q → (s.objs p).boundary ≠ some q ∧ Chg.setBoundary (some q) ∉ cs

/-- The full statement: the copy (made by `clone`, or by assigning to an item of the same class) looks like the original, and no
changes of the copy change how the original looks or call anything for other items. -/
def C62_statement : Prop :=
  (∀ (s : Items Nat Nat) (a : Nat) (now : Int) (u : Nat), a < s.fresh → ∀ p s', clone a now u s = (p, s') → p ≠ a ∧ see p s' = see a s ∧
    ∀ cs, (∀ q, Chg.setBoundary q ∉ cs) → see a (applyAll p cs s') = see a s) ∧
  (∀ (s : Items Nat Nat) (p a : Nat) (sp : Bool), p ≠ a → (s.objs a).cls = (if sp then .spatial else .item) → (s.objs p).cls = (s.objs a).cls →
    see p (assign sp p a s) = see a s ∧
    ∀ cs, (∀ q, Chg.setBoundary q ∉ cs) → see a (applyAll p cs (assign sp p a s)) = see a s)

/-- a spatial item 0 bounded by volume 3 with content 30, and a spatial item 1 without boundary -/
def itemsDemo : Items Nat Nat :=
  ⟨fun x => if x = 0 then ⟨.spatial, 5, 77, "f", 42, some 3, [9]⟩ else ⟨.spatial, 0, x, "", 0, none, [4]⟩, fun x => 10 * x, 2, []⟩

/-- The clone of a spatial item is no spatial item and has no boundary. -/
theorem C62_clone_fails : ∃ p s', clone 0 6 78 itemsDemo = (p, s') ∧ see 0 itemsDemo = (.spatial, 5, 77, "f", 42, some 30) ∧
    see p s' = (.item, 5, 77, "f", 42, none) := ⟨_, _, rfl, rfl, rfl⟩

/-- After assigning a spatial item, extending the boundary of the copy changes that of the original. -/
theorem C62_assign_fails : see 0 (applyAll 1 [.changeBoundary fun v => v + 1] (assign true 1 0 itemsDemo)) = (.spatial, 5, 77, "f", 42, some 31) :=
  rfl

/-- The full statement is false. -/
theorem C62_fails : ¬ C62_statement := by
  intro h
  have := (h.1 itemsDemo 0 6 78 (by decide) _ _ rfl).2.1
  exact absurd this (by decide +kernel)

/-- Any changes of item `p` leave every other item, and how it looks, as they are, unless the boundary is shared; they call only
callbacks of `p`, and for `p`. -/
theorem C62_independent_partial (p a : Nat) (hpa : p ≠ a) : ∀ (cs : List (Chg D V)) (s : Items D V), Apart p a cs s →
    (applyAll p cs s).objs a = s.objs a ∧ see a (applyAll p cs s) = see a s ∧
    ∃ extra, (applyAll p cs s).calls = s.calls ++ extra ∧ ∀ x ∈ extra, x.2 = p ∧ (x.1 ∈ (s.objs p).callbacks ∨ Chg.connect x.1 ∈ cs) := by
  have key : ∀ (cs : List (Chg D V)) (s : Items D V), Apart p a cs s →
      (applyAll p cs s).objs a = s.objs a ∧ (s.objs a).boundary.map (applyAll p cs s).vols = (s.objs a).boundary.map s.vols ∧
      ∃ extra, (applyAll p cs s).calls = s.calls ++ extra ∧ ∀ x ∈ extra, x.2 = p ∧ (x.1 ∈ (s.objs p).callbacks ∨ Chg.connect x.1 ∈ cs) := by
    intro cs
    induction cs with
    | nil => intro s _; exact ⟨rfl, rfl, [], by simp [applyAll], by simp⟩
    | cons c cs ih =>
      intro s hap
      have step : (apply p c s).objs a = s.objs a ∧ (s.objs a).boundary.map (apply p c s).vols = (s.objs a).boundary.map s.vols := by
        cases c with
        | changeBoundary f =>
          simp only [apply, changeBoundary]
          cases hb : (s.objs p).boundary with
          | none => exact ⟨rfl, rfl⟩
          | some q =>
            refine ⟨rfl, ?_⟩
            cases ha : (s.objs a).boundary with
            | none => rfl
            | some q' =>
              have : q' ≠ q := by rintro rfl; exact (hap q' ha).1 hb
              simp [this]
        | contentsChanged => exact ⟨rfl, rfl⟩
        | _ => exact ⟨by simp [apply, setTime, setID, setFrame, setData, setBoundary, connect, disconnect, upd, Ne.symm hpa], rfl⟩
      have hb1 : ∀ q, (s.objs a).boundary = some q → ((apply p c s).objs p).boundary ≠ some q := by
        intro q hq
        have h1 := (hap q hq).1
        have h2 := (hap q hq).2
        cases c with
        | setBoundary r => simp only [apply, setBoundary, upd, if_true]; rintro rfl; exact h2 (List.mem_cons_self ..)
        | changeBoundary f => simp only [apply, changeBoundary]; split <;> exact h1
        | contentsChanged => exact h1
        | _ => simpa [apply, setTime, setID, setFrame, setData, connect, disconnect, upd] using h1
      have hap1 : Apart p a cs (apply p c s) := by
        intro q hq
        rw [step.1] at hq
        exact ⟨hb1 q hq, fun h => (hap q hq).2 (List.mem_cons_of_mem _ h)⟩
      obtain ⟨i1, i2, extra, i3, i4⟩ := ih _ hap1
      have hcb : ∀ y, y ∈ ((apply p c s).objs p).callbacks → y ∈ (s.objs p).callbacks ∨ c = Chg.connect y := by
        intro y hy
        cases c with
        | connect k =>
          simp only [apply, connect, upd, if_true, List.mem_append, List.mem_singleton] at hy
          rcases hy with hy | rfl
          · exact .inl hy
          · exact .inr rfl
        | disconnect k =>
          simp only [apply, disconnect, upd, if_true, List.mem_filter] at hy
          exact .inl hy.1
        | changeBoundary f => simp only [apply, changeBoundary] at hy; revert hy; split <;> exact fun hy => .inl hy
        | contentsChanged => exact .inl hy
        | _ => exact .inl (by simpa [apply, setTime, setID, setFrame, setData, setBoundary, upd] using hy)
      have hcalls : ∃ e0, (apply p c s).calls = s.calls ++ e0 ∧ ∀ x ∈ e0, x.2 = p ∧ x.1 ∈ (s.objs p).callbacks := by
        cases c with
        | contentsChanged => exact ⟨_, rfl, by simp⟩
        | changeBoundary f => exact ⟨[], by simp only [apply, changeBoundary]; split <;> simp, by simp⟩
        | _ => exact ⟨[], by simp [apply, setTime, setID, setFrame, setData, setBoundary, connect, disconnect, upd], by simp⟩
      obtain ⟨e0, he0, he0'⟩ := hcalls
      refine ⟨i1.trans step.1, ?_, e0 ++ extra, ?_, ?_⟩
      · rw [step.1] at i2
        exact i2.trans step.2
      · change (applyAll p cs (apply p c s)).calls = _
        rw [i3, he0, List.append_assoc]
      · intro x hx
        rcases List.mem_append.1 hx with hx | hx
        · exact ⟨(he0' x hx).1, .inl (he0' x hx).2⟩
        · refine ⟨(i4 x hx).1, ?_⟩
          rcases (i4 x hx).2 with h | h
          · rcases hcb _ h with h | h
            · exact .inl h
            · exact .inr (h ▸ List.mem_cons_self ..)
          · exact .inr (List.mem_cons_of_mem _ h)
  intro cs s hap
  obtain ⟨h1, h2, h3⟩ := key cs s hap
  refine ⟨h1, ?_, h3⟩
  simp only [see, h1, h2]

/-- item 5 gets data, a callback and a notification; item 0 is as before, only the callback of item 5 is called -/
example : let s := applyAll 5 [.setData 7, .connect 8, .contentsChanged, .changeBoundary (· + 1)] itemsDemo
    see 0 s = see 0 itemsDemo ∧ (s.objs 5).data = 7 ∧ s.calls = [(4, 5), (8, 5)] := ⟨rfl, rfl, rfl⟩

/-- Missing compared to C62: the class and the boundary of spatial (and other derived) items.  `clone` gives a new object with the time,
id, frame and content of the original and no callbacks; all other objects, all volumes and calls stay as they are; and no changes
of the clone change the original or call its callbacks (`C62_independent_partial` holds as the clone has no boundary). -/
theorem C62_clone_partial (s : Items D V) (a : Nat) (ha : a < s.fresh) (now : Int) (u : Nat) :
    ∃ p s', clone a now u s = (p, s') ∧ p ≠ a ∧ s.fresh ≤ p ∧
      s'.objs p = ⟨.item, (s.objs a).time, (s.objs a).uuid, (s.objs a).frame, (s.objs a).data, none, []⟩ ∧
      (∀ x, x ≠ p → s'.objs x = s.objs x) ∧ s'.vols = s.vols ∧ s'.calls = s.calls ∧ p < s'.fresh ∧
      ((s.objs a).cls = .item → (s.objs a).boundary = none → see p s' = see a s) ∧
      ∀ cs, (∀ q, Chg.setBoundary q ∉ cs) → see a (applyAll p cs s') = see a s ∧
        ∀ x ∈ (applyAll p cs s').calls, x ∈ s.calls ∨ x.2 = p ∧ Chg.connect x.1 ∈ cs := by
  have hne : s.fresh ≠ a := Nat.ne_of_gt ha
  have hne' : a ≠ s.fresh := Nat.ne_of_lt ha
  have e2 : (clone a now u s).2.objs s.fresh = ⟨.item, (s.objs a).time, (s.objs a).uuid, (s.objs a).frame, (s.objs a).data, none, []⟩ := by
    simp [clone, newItem, setTime, setID, setFrame, upd, hne']
  have e3 : ∀ x, x ≠ s.fresh → (clone a now u s).2.objs x = s.objs x := by
    intro x hx
    simp [clone, newItem, setTime, setID, setFrame, upd, hx]
  refine ⟨_, _, rfl, hne, Nat.le_refl _, e2, e3, rfl, rfl, Nat.lt_succ_self _, ?_, ?_⟩
  · intro hc hb
    change see s.fresh (clone a now u s).2 = _
    simp only [see, e2, hc, hb, Option.map_none]
  · intro cs hcs
    have hap : Apart s.fresh a cs (clone a now u s).2 := by
      intro q _
      rw [e2]
      exact ⟨by simp, hcs _⟩
    obtain ⟨_, h2, extra, h3, h4⟩ := C62_independent_partial s.fresh a hne cs _ hap
    refine ⟨?_, ?_⟩
    · refine h2.trans ?_
      simp only [see, e3 a hne']
      rfl
    · intro x hx
      change x ∈ (applyAll s.fresh cs (clone a now u s).2).calls at hx
      rw [h3] at hx
      rcases List.mem_append.1 hx with hx | hx
      · exact .inl hx
      · refine .inr ⟨(h4 x hx).1, ?_⟩
        rcases (h4 x hx).2 with h | h
        · rw [e2] at h; simp at h
        · exact h

/-- the clone of an item with callback 9: its changes are not seen in the original and callback 9 is not called -/
example : let s : Items Nat Nat := ⟨fun _ => ⟨.item, 5, 77, "f", 42, none, [9]⟩, fun x => x, 1, []⟩
    let r := clone 0 6 78 s
    let s' := applyAll r.1 [.setData 1, .setFrame "g", .contentsChanged] r.2
    r.1 = 1 ∧ see 1 r.2 = see 0 s ∧ see 0 s' = see 0 s ∧ see 1 s' = (.item, 5, 77, "g", 1, none) ∧ s'.calls = [] := by
  refine ⟨rfl, rfl, rfl, rfl, rfl⟩

/-- Missing compared to C62: independence if the assigned item has a boundary.  Assigning, also to itself: the target gets time, id,
frame and content (and, as spatial item, points to the same boundary); it keeps its own class and callbacks; nothing else changes, and
nothing is called; later changes of the target do not change the original unless they share the boundary. -/
theorem C62_assign_partial (s : Items D V) (p a : Nat) (sp : Bool) :
    (assign sp p a s).objs p = ⟨(s.objs p).cls, (s.objs a).time, (s.objs a).uuid, (s.objs a).frame, (s.objs a).data,
      if sp then (s.objs a).boundary else (s.objs p).boundary, (s.objs p).callbacks⟩ ∧
    (∀ x, x ≠ p → (assign sp p a s).objs x = s.objs x) ∧ (assign sp p a s).vols = s.vols ∧ (assign sp p a s).calls = s.calls ∧
    ((s.objs p).cls = (s.objs a).cls → (sp = true ∨ (s.objs p).boundary = (s.objs a).boundary) → see p (assign sp p a s) = see a s) ∧
    (p ≠ a → (s.objs a).boundary = none ∨ sp = false → ∀ cs, Apart p a cs s → see a (applyAll p cs (assign sp p a s)) = see a s ∧
      ∀ x ∈ (applyAll p cs (assign sp p a s)).calls, x ∈ s.calls ∨ x.2 = p ∧ (x.1 ∈ (s.objs p).callbacks ∨ Chg.connect x.1 ∈ cs)) := by
  have e1 : (assign sp p a s).objs p = ⟨(s.objs p).cls, (s.objs a).time, (s.objs a).uuid, (s.objs a).frame, (s.objs a).data,
      if sp then (s.objs a).boundary else (s.objs p).boundary, (s.objs p).callbacks⟩ := by
    by_cases h : a = p
    · subst h; cases sp <;> simp [assign, upd]
    · cases sp <;> simp [assign, upd, h]
  have e2 : ∀ x, x ≠ p → (assign sp p a s).objs x = s.objs x := by
    intro x hx; cases sp <;> simp [assign, upd, hx]
  have e3 : (assign sp p a s).vols = s.vols := by cases sp <;> rfl
  have e4 : (assign sp p a s).calls = s.calls := by cases sp <;> rfl
  refine ⟨e1, e2, e3, e4, ?_, ?_⟩
  · intro hc hb
    simp only [see, e1, e3]
    rcases hb with rfl | hb
    · simp [hc]
    · cases sp <;> simp [hc, hb]
  · intro hpa hb cs hap
    have hap' : Apart p a cs (assign sp p a s) := by
      intro q hq
      rw [e2 a (Ne.symm hpa)] at hq
      refine ⟨?_, (hap q hq).2⟩
      rw [e1]
      rcases hb with hb | rfl
      · rw [hb] at hq; exact absurd hq (by simp)
      · exact (hap q hq).1
    obtain ⟨_, h2, extra, h3, h4⟩ := C62_independent_partial p a hpa cs _ hap'
    refine ⟨h2.trans (by simp only [see, e2 a (Ne.symm hpa), e3]), ?_⟩
    intro x hx
    rw [h3, e4] at hx
    rcases List.mem_append.1 hx with hx | hx
    · exact .inl hx
    · refine .inr ⟨(h4 x hx).1, ?_⟩
      have := (h4 x hx).2
      rw [e1] at this
      exact this

/-- assigning item 0 to item 1: the fields are taken over, the callback 4 of item 1 stays -/
example : ((assign true 1 0 itemsDemo).objs 1) = ⟨.spatial, 5, 77, "f", 42, some 3, [4]⟩ ∧
    ((assign true 1 0 itemsDemo).objs 0) = itemsDemo.objs 0 := ⟨rfl, rfl⟩

/-- The copy constructor: a new object with the same time, id, frame and content, without callbacks; a copied spatial item points to the
same boundary.  All else stays. -/
theorem C62_copy_partial (s : Items D V) (a : Nat) (ha : a < s.fresh) (sp : Bool) :
    ∃ p s', copyItem sp a s = (p, s') ∧ p ≠ a ∧ s.fresh ≤ p ∧
      (s'.objs p).time = (s.objs a).time ∧ (s'.objs p).uuid = (s.objs a).uuid ∧ (s'.objs p).frame = (s.objs a).frame ∧
      (s'.objs p).data = (s.objs a).data ∧ (s'.objs p).callbacks = [] ∧ (sp = true → (s'.objs p).boundary = (s.objs a).boundary) ∧
      (s'.objs p).cls = (if sp then .spatial else .item) ∧ (∀ x, x ≠ p → s'.objs x = s.objs x) ∧ s'.vols = s.vols ∧ s'.calls = s.calls := by
  refine ⟨_, _, rfl, Nat.ne_of_gt ha, Nat.le_refl _, ?_, ?_, ?_, ?_, ?_, ?_, ?_, ?_, rfl, rfl⟩ <;> simp [copyItem]
  all_goals grind

/-- a copied spatial item: changing the boundary of the copy changes the original -/
example : let r := copyItem true 0 itemsDemo
    r.1 = 2 ∧ see 2 r.2 = see 0 itemsDemo ∧ see 0 (applyAll 2 [.changeBoundary fun _ => 0] r.2) ≠ see 0 itemsDemo := by
  refine ⟨rfl, rfl, ?_⟩
  decide +kernel

/-- a change of a copy calls nothing, as the copy has no callbacks; objects made one after the other are different -/
example : let r := copyItem true 0 itemsDemo
    (applyAll r.1 [.setData 1, .contentsChanged] r.2).calls = [] ∧ (clone 0 6 78 r.2).1 = 3 ∧ (copyItem false 1 (clone 0 6 78 r.2).2).1 = 4 := by
  refine ⟨rfl, rfl, rfl⟩

/-- a new item gets an address of its own -/
example : let r := clone 0 6 78 itemsDemo
    r.1 = 2 ∧ r.2.fresh = 3 := ⟨rfl, rfl⟩

end Verif
