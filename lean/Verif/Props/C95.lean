import Verif.Model.ItemAssign
import Verif.Lemmas.ItemAnswers
import Verif.Props.C48
set_option linter.unusedSectionVars false
/-! # C95: an item in a graph may be assigned to

The natural way to update an item of a graph is `*item = newItem` with a new item that is in no graph. -/

namespace Verif
open EG
variable {E : Type} [EdgeProp E]

/-- The property: if item `p` is in the list of frame `f`, then after `*p = *q` it is there still, it carries the name of the frame and can be
removed by its pointer. -/
def C95_statement : Prop := ∀ (heap : ItemId → ItemObj) (cs : List (Cmd Int)) (s : EG Int), EG.run cs (EG.init heap) = some s →
  ∀ (f : FrameId) (p q : ItemId) (l : List ItemId), visitItems f s = .ok l s → p ∈ l → (heap p).type = (heap q).type →
    ((assignItem p q s).heap p).frame = f ∧ ∃ s', removeItem p (assignItem p q s) = .ok () s'

/-- Assigning from a new item takes the frame name away from the item in the graph; it cannot be removed by its pointer any more. -/
theorem C95_fails : ¬ C95_statement := by
  intro h
  obtain ⟨h1, -⟩ := h (fun _ => ⟨7, ""⟩) [.graph (.addFrame "a"), .addItemToFrame "a" 0] _ rfl "a" 0 1 [0] rfl (by simp) rfl
  exact absurd h1 (by decide +kernel)

/-- Every history with assignments is one with calls of `setFrame` in their place, with the same result; so everything that holds for all
histories with `setFrame` holds for those with assignments.  Nothing else is added to the history. -/
theorem C95_history (cs : List (ACmd E)) (s : EG E) : ∃ ds : List (Cmd E), EG.run ds s = EG.arun cs s ∧
    ∀ d ∈ ds, ACmd.call d ∈ cs ∨ ∃ i f, d = .setItemFrame i f ∧
      ((∃ q, ACmd.assign i q ∈ cs) ∨ (∃ q left, ACmd.move i q left ∈ cs) ∨ ∃ p, ACmd.move p i f ∈ cs) := by
  induction cs generalizing s with
  | nil => exact ⟨[], rfl, by simp⟩
  | cons c cs ih =>
    have hw : ∀ (ds : List (Cmd E)), (∀ d ∈ ds, ACmd.call d ∈ cs ∨ ∃ i f, d = .setItemFrame i f ∧
        ((∃ q, ACmd.assign i q ∈ cs) ∨ (∃ q left, ACmd.move i q left ∈ cs) ∨ ∃ p, ACmd.move p i f ∈ cs)) →
        ∀ d ∈ ds, ACmd.call d ∈ c :: cs ∨ ∃ i f, d = .setItemFrame i f ∧
        ((∃ q, ACmd.assign i q ∈ c :: cs) ∨ (∃ q left, ACmd.move i q left ∈ c :: cs) ∨ ∃ p, ACmd.move p i f ∈ c :: cs) := by
      intro ds h d hd
      rcases h d hd with h | ⟨i, f, e, ⟨q, h⟩ | ⟨q, l, h⟩ | ⟨p, h⟩⟩
      · exact .inl (.tail _ h)
      · exact .inr ⟨i, f, e, .inl ⟨q, .tail _ h⟩⟩
      · exact .inr ⟨i, f, e, .inr (.inl ⟨q, l, .tail _ h⟩)⟩
      · exact .inr ⟨i, f, e, .inr (.inr ⟨p, .tail _ h⟩)⟩
    cases c with
    | call c =>
      cases h : exec c s with
      | ub m => exact ⟨[c], by simp [EG.run, EG.arun, aexec, h], by simp⟩
      | ok a s1 =>
        obtain ⟨ds, h1, h2⟩ := ih s1
        refine ⟨c :: ds, by simp [EG.run, EG.arun, aexec, h, h1], ?_⟩
        intro d hd
        rcases List.mem_cons.1 hd with rfl | hd
        · exact .inl (.head _)
        · exact hw ds h2 d hd
      | throw x s1 =>
        obtain ⟨ds, h1, h2⟩ := ih s1
        refine ⟨c :: ds, by simp [EG.run, EG.arun, aexec, h, h1], ?_⟩
        intro d hd
        rcases List.mem_cons.1 hd with rfl | hd
        · exact .inl (.head _)
        · exact hw ds h2 d hd
    | assign p q =>
      obtain ⟨ds, h1, h2⟩ := ih (assignItem p q s)
      refine ⟨.setItemFrame p (s.heap q).frame :: ds, by simpa [EG.run, EG.arun, aexec, exec, assignItem] using h1, ?_⟩
      intro d hd
      rcases List.mem_cons.1 hd with rfl | hd
      · exact .inr ⟨_, _, rfl, .inl ⟨q, .head _⟩⟩
      · exact hw ds h2 d hd
    | move p q left =>
      obtain ⟨ds, h1, h2⟩ := ih (moveItem p q left s)
      refine ⟨.setItemFrame p (s.heap q).frame :: .setItemFrame q left :: ds, by
        simpa [EG.run, EG.arun, aexec, exec, assignItem, moveItem] using h1, ?_⟩
      intro d hd
      rcases List.mem_cons.1 hd with rfl | hd
      · exact .inr ⟨_, _, rfl, .inr (.inl ⟨q, left, .head _⟩)⟩
      · rcases List.mem_cons.1 hd with rfl | hd
        · exact .inr ⟨_, _, rfl, .inr (.inr ⟨p, .head _⟩)⟩
        · exact hw ds h2 d hd

/-- What an assignment changes: the frame name of the item, and that only.  The graph, its lists, views and subscribers stay, and no event is
published, whatever frames the two items are in. -/
theorem C95_silent (p q : ItemId) (s : EG E) : (assignItem p q s).gs = s.gs ∧
    ((assignItem p q s).heap p).frame = (s.heap q).frame ∧ (∀ i, ((assignItem p q s).heap i).type = (s.heap i).type) ∧
    ∀ i, i ≠ p → (assignItem p q s).heap i = s.heap i := by
  refine ⟨rfl, by simp [assignItem, setItemFrame], fun i => ?_, fun i hi => by simp [assignItem, setItemFrame, hi]⟩
  simp only [assignItem, setItemFrame]; split <;> rfl

/-- Missing compared to C95: `q` must carry the name of a frame that contains `p`.  Exactly then `p` can be removed after the assignment, and it
is taken from that frame; otherwise `removeItemFromFrame` throws and changes nothing.  For every state that can be reached. -/
theorem C95_remove_partial (heap : ItemId → ItemObj) (cs : List (ACmd E)) {s : EG E} (hs : EG.arun cs (EG.init heap) = some s) (p q : ItemId) :
    ((∃ s', removeItem p (assignItem p q s) = .ok () s') ↔
      ∃ l, getItems (s.heap q).frame (s.heap p).type s = .ok l s ∧ p ∈ l) ∧
    ((∃ s', removeItem p (assignItem p q s) = .ok () s') ∨ ∃ x, removeItem p (assignItem p q s) = .throw x (assignItem p q s)) ∧
    ∀ s', removeItem p (assignItem p q s) = .ok () s' →
      s'.gs.trace.map Prod.fst = s.gs.trace.map Prod.fst ++ [.itemRemoved (s.heap q).frame p] ∧ (s'.heap p).frame = "" := by
  obtain ⟨ds, h1, -⟩ := C95_history cs (EG.init heap)
  have hw : WF s.gs.g := EG.run_wf (h1.trans hs)
  simp only [removeItem, getItems, assignItem, setItemFrame, if_true]
  cases hv : s.gs.g.vertexOf (s.heap q).frame with
  | none => simp
  | some v =>
    obtain ⟨r, hr, -⟩ := hw.live_of_vertexOf hv
    simp only [hr]
    cases hl : r.prop.items.get (s.heap p).type with
    | none => simp
    | some l =>
      by_cases hm : p ∈ l
      · simp only [hm, if_true]
        refine ⟨by simp [hm], by simp, ?_⟩
        intro s' h
        simp only [Res.ok.injEq, true_and] at h
        subst h
        split <;> simp [notify, modFrame, GS.notify]
      · simp [hm]

/-- So in histories that are careful in the sense of C48 an item of frame `f` can be removed after `*p = *q` only if `q` carries the name
`f`; and if it does, the state after the assignment is the one before. -/
theorem C95_same_frame (heap : ItemId → ItemObj) (cs : List (Cmd E)) (hcs : C48_careful cs (EG.init heap)) {s : EG E}
    (hs : EG.run cs (EG.init heap) = some s) (p q : ItemId) {f : FrameId} {l : List ItemId} (hl : visitItems f s = .ok l s) (hp : p ∈ l) :
    ((∃ s', removeItem p (assignItem p q s) = .ok () s') → (s.heap q).frame = f) ∧
    ((s.heap q).frame = f → assignItem p q s = s) := by
  have hk := (C48_knows_frame_partial heap cs hcs hs hl).2 p hp
  constructor
  · rintro ⟨s', h⟩
    have hs' : EG.arun (cs.map ACmd.call) (EG.init heap) = some s := by
      have : ∀ (cs : List (Cmd E)) (s : EG E), EG.arun (cs.map ACmd.call) s = EG.run cs s := by
        intro cs
        induction cs with
        | nil => intro s; rfl
        | cons c cs ih =>
          intro s
          simp only [List.map_cons, EG.arun, EG.run, aexec]
          cases exec c s <;> simp [ih]
      rw [this]; exact hs
    obtain ⟨l', h1, h2⟩ := (C95_remove_partial heap _ hs' p q).1.1 ⟨s', h⟩
    simp only [getItems] at h1
    cases hv : s.gs.g.vertexOf (s.heap q).frame with
    | none => rw [hv] at h1; simp at h1
    | some v =>
      simp only [hv] at h1
      cases hr : s.gs.g.findV v with
      | none => simp [hr] at h1
      | some r =>
        simp only [hr] at h1
        cases hg : r.prop.items.get (s.heap p).type with
        | none => simp [hg] at h1
        | some l'' =>
          simp only [hg, Res.ok.injEq, and_true] at h1
          subst h1
          refine hk.2 (s.heap q).frame r.prop.visit (by simp [visitItems, readFrame, hv, hr]) ?_
          obtain ⟨rest, hperm, -⟩ := EFrame.get_perm hg
          exact hperm.mem_iff.2 (List.mem_append_left _ h2)
  · intro h
    have : (fun j => if j = p then ({ s.heap j with frame := (s.heap q).frame } : ItemObj) else s.heap j) = s.heap := by
      funext j
      split
      · rename_i e; subst e; rw [h, ← hk.1]
      · rfl
    simp only [assignItem, setItemFrame]
    rw [this]

/-- An iterator that points to such an item does not help: removing through it is undefined behaviour (the assert in EnvireGraph.hpp:376). -/
theorem C95_iterator (s : EG E) (p q : ItemId) (it : ItemIt) {l : List ItemId} (hf : GS.containsFrame it.frame s.gs = true)
    (hl : listOf it.frame it.type s = some l) (hp : l[it.pos]? = some p) (hq : (s.heap q).frame ≠ it.frame) :
    removeItemAt it.frame it (assignItem p q s) = .ub "removeItemFromFrame: assert" := by
  obtain ⟨v, hv⟩ := Option.isSome_iff_exists.1 (show (s.gs.g.vertexOf it.frame).isSome = true by simpa [GS.containsFrame] using hf)
  have h1 : (assignItem p q s).gs = s.gs := rfl
  have h2 : listOf it.frame it.type (assignItem p q s) = some l := hl
  simp only [removeItemAt, h1, hv, h2, Option.bind_some, hp]
  rw [if_pos]
  simpa [assignItem, setItemFrame] using hq

/-- `p` is on the shelf of `f`, carries the name of another frame and is not on the shelf of that one -/
private def Astray (p : ItemId) (f f' : FrameId) (S : ItemSpec) : Prop := p ∈ S.items f ∧ S.name p = f' ∧ p ∉ S.items f'

private def untouched (p : ItemId) (f : FrameId) (c : Cmd E) : Prop :=
  c ≠ .clear ∧ c ≠ .clearFrame f ∧ c ≠ .graph (.removeFrame f) ∧ c ≠ .addItem p ∧ ∀ g, c ≠ .addItemToFrame g p ∧ c ≠ .setItemFrame p g

private theorem Astray.put {p : ItemId} {f f' g : FrameId} {S : ItemSpec} {l : List ItemId} (h : Astray p f f' S)
    (h1 : g = f → p ∈ l) (h2 : g = f' → p ∉ l) : Astray p f f' (S.put g l) := by
  refine ⟨?_, h.2.1, ?_⟩
  · simp only [ItemSpec.put, Shelf.put]
    split
    · rename_i e; exact h1 e.symm
    · exact h.1
  · simp only [ItemSpec.put, Shelf.put]
    split
    · rename_i e; exact h2 e.symm
    · exact h.2.2

private theorem Astray.rename {p j : ItemId} {f f' g : FrameId} {S : ItemSpec} (h : Astray p f f' S) (hj : j ≠ p) :
    Astray p f f' (S.rename j g) := ⟨h.1, by simp only [ItemSpec.rename, if_neg (Ne.symm hj)]; exact h.2.1, h.2.2⟩

private theorem Astray.allowed {p : ItemId} {f f' : FrameId} {S S' : ItemSpec} {c : Cmd E} {x : Option Exn} (h : Astray p f f' S)
    (hc : untouched p f c) (ha : S.Allowed c x S') : Astray p f f' S' := by
  obtain ⟨c1, c2, c3, c4, c5⟩ := hc
  cases c with
  | clear => exact absurd rfl c1
  | clearFrame g =>
    cases x with
    | some x => obtain rfl : S' = S := ha; exact h
    | none =>
      obtain rfl : S' = S.put g [] := ha
      exact h.put (fun e => absurd (by rw [e]) c2) (by simp)
  | setItemFrame j g =>
    cases x with
    | some x => obtain rfl : S' = S := ha; exact h
    | none => obtain rfl : S' = S.rename j g := ha; exact h.rename (by rintro rfl; exact (c5 g).2 rfl)
  | addItem j =>
    have hj : j ≠ p := by rintro rfl; exact c4 rfl
    cases x with
    | some x => obtain rfl : S' = S := ha; exact h
    | none =>
      obtain rfl : S' = S.put (S.name j) (S.items (S.name j) ++ [j]) := ha
      exact h.put (fun e => by rw [e]; simp [h.1]) (fun e => by rw [e]; simp [h.2.2, Ne.symm hj])
  | addItemToFrame g j =>
    have hj : j ≠ p := by rintro rfl; exact (c5 g).1 rfl
    cases x with
    | some x => obtain rfl : S' = S := ha; exact h
    | none =>
      obtain rfl : S' = (S.put g (S.items g ++ [j])).rename j g := ha
      exact (h.put (fun e => by rw [e]; simp [h.1]) (fun e => by rw [e]; simp [h.2.2, Ne.symm hj])).rename hj
  | removeItem j =>
    cases x with
    | some x => obtain rfl : S' = S := ha; exact h
    | none =>
      obtain ⟨h1, rfl⟩ : j ∈ S.items (S.name j) ∧ S' = (S.put (S.name j) ((S.items (S.name j)).erase j)).rename j "" := ha
      have hj : j ≠ p := by rintro rfl; rw [h.2.1] at h1; exact h.2.2 h1
      refine (h.put (fun e => ?_) (fun e => ?_)).rename hj
      · rw [e]; exact (List.mem_erase_of_ne (Ne.symm hj)).2 h.1
      · rw [e]; exact fun hm => h.2.2 (List.mem_of_mem_erase hm)
  | removeItemAt g it => cases x <;> (obtain rfl : S' = S := ha; exact h)
  | graph c =>
    cases c with
    | removeFrame g =>
      have hg : g ≠ f := by rintro rfl; exact c3 rfl
      cases x with
      | none =>
        obtain rfl : S' = S.put g [] := ha
        exact h.put (fun e => absurd e hg) (by simp)
      | some x =>
        cases x with
        | frameStillConnected y =>
          obtain rfl : S' = S.put g [] := ha
          exact h.put (fun e => absurd e hg) (by simp)
        | _ => obtain rfl : S' = S := ha; exact h
    | _ => cases x <;> (obtain rfl : S' = S := ha; exact h)

private theorem Astray.reaches {p : ItemId} {f f' : FrameId} {S S' : ItemSpec} {cs : List (Cmd E)} {xs : List (Option Exn)}
    (hr : S.Reaches cs xs S') (hc : ∀ c ∈ cs, untouched p f c) (h : Astray p f f' S) : Astray p f f' S' := by
  induction hr with
  | nil => exact h
  | cons ha _ ih => exact ih (fun c hm => hc c (.tail _ hm)) (h.allowed (hc _ (.head _)) ha)

private theorem outcomes_of_run (cs : List (Cmd E)) : ∀ {s s' : EG E}, EG.run cs s = some s' → ∃ xs, outcomes cs s = some (xs, s') := by
  induction cs with
  | nil => intro s s' h; cases h; exact ⟨[], rfl⟩
  | cons c cs ih =>
    intro s s' h
    rw [EG.run] at h
    cases hx : exec c s with
    | ub m => rw [hx] at h; cases h
    | ok a s1 =>
      rw [hx] at h
      obtain ⟨xs, h1⟩ := ih h
      exact ⟨none :: xs, by simp [outcomes, hx, h1]⟩
    | throw x s1 =>
      rw [hx] at h
      obtain ⟨xs, h1⟩ := ih h
      exact ⟨some x :: xs, by simp [outcomes, hx, h1]⟩

/-- An item of frame `f` that was assigned from an item with the name of another frame, which does not contain it, stays in `f`, and every
attempt to remove it throws, until a call clears or removes `f`, clears the graph, adds the item again or sets its frame name.  Histories
without removal through iterators and without frames made from properties that contain items already. -/
theorem C95_stuck (heap : ItemId → ItemObj) (cs : List (Cmd E)) (hcs : ∀ c ∈ cs, c.byPointer) {s : EG E}
    (hs : EG.run cs (EG.init heap) = some s) {f : FrameId} {p q : ItemId} {l : List ItemId} (hl : getItems f (heap p).type s = .ok l s) (hp : p ∈ l)
    (hq : ∀ l', getItems (s.heap q).frame (heap p).type s = .ok l' s → p ∉ l') (ds : List (Cmd E)) (hds : ∀ d ∈ ds, d.byPointer)
    (hd : ∀ d ∈ ds, d ≠ .clear ∧ d ≠ .clearFrame f ∧ d ≠ .graph (.removeFrame f) ∧ d ≠ .addItem p ∧
      ∀ g, d ≠ .addItemToFrame g p ∧ d ≠ .setItemFrame p g) {s2 : EG E} (h2 : EG.run ds (assignItem p q s) = some s2) :
    (∃ l2, getItems f (heap p).type s2 = .ok l2 s2 ∧ p ∈ l2) ∧ (s2.heap p).frame = (s.heap q).frame ∧ ∃ x, removeItem p s2 = .throw x s2 := by
  obtain ⟨xs, o1⟩ := outcomes_of_run cs hs
  obtain ⟨S, -, hS⟩ := HSim.outcomes hcs (HSim.init heap) o1
  have hA : HSim (fun i => (heap i).type) (assignItem p q s) (S.rename p (s.heap q).frame) := by
    refine ⟨⟨hS.good.wf, hS.good.tidy, fun i => ?_⟩, hS.stocked, fun i => ?_⟩
    · rw [(C95_silent p q s).2.2.1]; exact hS.good.types i
    · simp only [assignItem, setItemFrame, ItemSpec.rename]
      split
      · rfl
      · exact hS.name i
  -- the lists that `getItems` returns, on the shelf
  have key : ∀ {s : EG E} {S : ItemSpec}, HSim (fun i => (heap i).type) s S → ∀ g,
      (∃ l, getItems g (heap p).type s = .ok l s ∧ p ∈ l) ↔ p ∈ S.items g := by
    intro s S hS g
    cases hv : s.gs.g.vertexOf g with
    | none =>
      rw [hS.stocked.absent g hv]
      simp [getItems, hv]
    | some v =>
      have ha := (hS.answers (f := g) (by rw [hv]; rfl)).items (heap p).type
      rw [ha]
      constructor
      · rintro ⟨l, h, hm⟩
        split at h
        · cases h
        · simp only [Res.ok.injEq, and_true] at h
          subst h
          exact (List.mem_filter.1 hm).1
      · intro hm
        have hm' : p ∈ (S.items g).filter (fun i => (heap i).type = (heap p).type) := List.mem_filter.2 ⟨hm, by simp⟩
        rw [if_neg (List.ne_nil_of_mem hm')]
        exact ⟨_, rfl, hm'⟩
  have a1 : Astray p f (s.heap q).frame (S.rename p (s.heap q).frame) :=
    ⟨(key hS f).1 ⟨l, hl, hp⟩, by simp [ItemSpec.rename], fun h => by
      obtain ⟨l', h1, h3⟩ := (key hS _).2 h
      exact hq l' h1 h3⟩
  obtain ⟨ys, o2⟩ := outcomes_of_run ds h2
  obtain ⟨S2, r2, hS2⟩ := HSim.outcomes hds hA o2
  have a2 := a1.reaches r2 hd
  refine ⟨(key hS2 f).2 a2.1, (hS2.name p).trans a2.2.1, ?_⟩
  have hn := hS2.name p
  rw [a2.2.1] at hn
  have hno : ∀ l', getItems (s.heap q).frame (heap p).type s2 = .ok l' s2 → p ∉ l' := fun l' h1 h3 => a2.2.2 ((key hS2 _).1 ⟨l', h1, h3⟩)
  have ht := hS2.good.types p
  simp only [getItems] at hno
  simp only [removeItem, hn, ht]
  cases hv : s2.gs.g.vertexOf (s.heap q).frame with
  | none => exact ⟨_, rfl⟩
  | some v =>
    obtain ⟨r, hr, -⟩ := hS2.good.wf.live_of_vertexOf hv
    simp only [hv, hr] at hno ⊢
    cases hg : r.prop.items.get (heap p).type with
    | none => exact ⟨_, rfl⟩
    | some l' =>
      simp only [hg, Res.ok.injEq, and_true] at hno ⊢
      rw [if_neg (hno l' rfl)]
      exact ⟨_, rfl⟩

/-! Frames a and b, item 0 in a, item 1 in b, item 2 new (all of type 7). -/

private def dItems : List (ACmd Int) := [.call (.graph (.addEdge "a" "b" 1)), .call (.addItemToFrame "a" 0), .call (.addItemToFrame "b" 1)]
private def dState (cs : List (ACmd Int)) : EG Int := (EG.arun (dItems ++ cs) (EG.init (fun _ => ⟨7, ""⟩))).getD (EG.init (fun _ => ⟨0, ""⟩))
/-- the exception that removing item 0 throws, the items of a and of b, the name that item 0 carries -/
private def dSee (cs : List (ACmd Int)) : Option Exn × Option (List ItemId) × Option (List ItemId) × FrameId :=
  let s := dState cs
  ((removeItem 0 s).exn?, (visitItems "a" s).val?, (visitItems "b" s).val?, (s.heap 0).frame)

/-- assigned from the new item; then from the item in b; the item stays in a, also when others come and go -/
example : dSee [] = (none, some [0], some [1], "a") ∧ dSee [.assign 0 2] = (some (.unknownFrame ""), some [0], some [1], "") ∧
    dSee [.assign 0 1] = (some .unknownItem, some [0], some [1], "b") ∧
    dSee [.assign 0 1, .call (.removeItem 1)] = (some (.noItemsOfType "b"), some [0], some [], "b") ∧
    dSee [.assign 0 2, .call (.removeItem 0), .call (.addItemToFrame "a" 3), .call (.removeItem 3), .call (.removeItem 0)] =
      (some (.unknownFrame ""), some [0], some [1], "") := by
  refine ⟨?_, ?_, ?_, ?_, ?_⟩ <;> decide +kernel

/-- if the new item gets the name of the frame first, nothing is lost; the name can also be repaired afterwards -/
example : dSee [.call (.setItemFrame 2 "a"), .assign 0 2] = (none, some [0], some [1], "a") ∧
    dSee [.assign 0 2, .call (.setItemFrame 0 "a")] = (none, some [0], some [1], "a") ∧
    dSee [.assign 0 2, .call (.clearFrame "a")] = (some (.unknownFrame ""), some [], some [1], "") := by
  refine ⟨?_, ?_, ?_⟩ <;> decide +kernel

/-- adding it again after the assignment gives an item in two frames; moving from the item in the graph leaves it without its name -/
example : dSee [.assign 0 1, .call (.addItem 0)] = (none, some [0], some [1, 0], "b") ∧
    dSee [.move 2 0 ""] = (some (.unknownFrame ""), some [0], some [1], "") ∧ ((dState [.move 2 0 ""]).heap 2).frame = "a" := by
  refine ⟨?_, ?_, ?_⟩ <;> decide +kernel

/-- the iterator to the item -/
example : removeItemAt "a" ⟨"a", 7, 0⟩ (assignItem 0 2 (dState [])) = .ub "removeItemFromFrame: assert" :=
  C95_iterator (dState []) 0 2 ⟨"a", 7, 0⟩ (l := [0]) (by decide +kernel) (by decide +kernel) rfl (by decide +kernel)

/-- the hypotheses of `C95_stuck` for this history and the assignment from the new item -/
example : ∃ s s2 : EG Int, EG.run [.graph (.addFrame "a"), .addItemToFrame "a" 0] (EG.init (fun _ => ⟨7, ""⟩)) = some s ∧
    getItems "a" 7 s = .ok [0] s ∧ (∀ l', getItems (s.heap 2).frame 7 s = .ok l' s → 0 ∉ l') ∧
    EG.run [.addItemToFrame "a" 1, .removeItem 0, .removeItem 1] (assignItem 0 2 s) = some s2 ∧ getItems "a" 7 s2 = .ok [0] s2 := by
  refine ⟨_, _, rfl, rfl, ?_, rfl, rfl⟩
  intro l' h
  cases h

/-- a call that throws does not end the history; the iterator works before the assignment -/
example : dSee [.assign 0 2, .call (.removeItem 0), .call (.setItemFrame 0 "a")] = (none, some [0], some [1], "a") ∧
    (removeItemAt "a" ⟨"a", 7, 0⟩ (dState [])).val? = some [] ∧ (removeItemAt "a" ⟨"a", 7, 0⟩ (dState [.assign 0 2])).st?.isNone = true := by
  refine ⟨?_, ?_, ?_⟩ <;> decide +kernel

end Verif
