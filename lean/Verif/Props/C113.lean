import Verif.Lemmas.ItemAnswers
import Verif.Lemmas.ItemsAll
import Verif.Spec.Demo
/-! # C113: item iterators stay valid as long as no event tells otherwise

An `ItemIterator<T>` (src/graph/EnvireGraph.hpp:66-68) is a position in the vector of one type of one frame. The vector stays where it
is as long as the map entry and the frame exist (the nodes of `unordered_map` and the frames do not move), so the iterator stays valid
and points to the same item as long as nobody adds to the vector or takes something out. The documentation (EnvireGraph.hpp:90-115)
says that adding and removing invalidate; the events are what tells a user that it happened. -/

namespace Verif
open EG
variable {E : Type} [EdgeProp E]

/-- the event may end the validity of iterators for type `t` in frame `f`: an item of the type is added to or removed from the frame,
or the frame is removed -/
def Event.warns (ty : ItemId → TypeIdx) (f : FrameId) (t : TypeIdx) : Event → Prop
  | .itemAdded g i => g = f ∧ ty i = t
  | .itemRemoved g i => g = f ∧ ty i = t
  | .frameRemoved g => g = f
  | _ => False

private theorem apply_quiet {ty : ItemId → TypeIdx} {f : FrameId} {t : TypeIdx} (M : Shelf) {e : Event} (h : ¬ e.warns ty f t) :
    (M.apply e f).filter (fun i => ty i = t) = (M f).filter (fun i => ty i = t) := by
  cases e with
  | itemAdded g i =>
    simp only [Event.warns, not_and] at h
    simp only [Shelf.apply, Shelf.put]
    split
    · rename_i hf
      subst hf
      simp [List.filter_append, h rfl]
    · rfl
  | itemRemoved g i =>
    simp only [Event.warns, not_and] at h
    simp only [Shelf.apply, Shelf.put]
    split
    · rename_i hf
      subst hf
      have hi := h rfl
      generalize M f = L
      induction L with
      | nil => rfl
      | cons a L ih =>
        rw [List.erase_cons]
        split
        · rename_i ha
          have : a = i := by simpa using ha
          subst this
          rw [List.filter_cons_of_neg (by simpa using hi)]
        · simp only [List.filter_cons, ih]
    · rfl
  | frameRemoved g =>
    simp only [Event.warns] at h
    simp only [Shelf.apply, Shelf.put]
    rw [if_neg (fun e => h e.symm)]
  | _ => rfl

private theorem replay_quiet {ty : ItemId → TypeIdx} {f : FrameId} {t : TypeIdx} (l : List Event) : ∀ (M : Shelf),
    (∀ e ∈ l, ¬ e.warns ty f t) → (M.replay l f).filter (fun i => ty i = t) = (M f).filter (fun i => ty i = t) := by
  induction l with
  | nil => intro M _; rfl
  | cons e l ih =>
    intro M h
    show ((M.apply e).replay l f).filter _ = _
    rw [ih _ (fun e' h' => h e' (.tail _ h')), apply_quiet M (h e (.head _))]

private theorem exec_quiet {ty : ItemId → TypeIdx} (f : FrameId) (t : TypeIdx) {c : Cmd E}
    (hc : ∀ f p, c = .graph (.emplaceFrame f p) → p.Sorted ty) {s s' : EG E} {S : ItemSpec} (h : HSim ty s S)
    (hx : (exec c s).st? = some s') :
    ∃ (S' : ItemSpec) (l : List Event), HSim ty s' S' ∧ s'.gs.trace.map Prod.fst = s.gs.trace.map Prod.fst ++ l ∧
      ((S.items f).filter (fun i => ty i = t) ≠ [] → (∀ e ∈ l, ¬ e.warns ty f t) →
        (S'.items f).filter (fun i => ty i = t) = (S.items f).filter (fun i => ty i = t)) := by
  have hby : c.byPointer → ∃ (S' : ItemSpec) (l : List Event), HSim ty s' S' ∧ s'.gs.trace.map Prod.fst = s.gs.trace.map Prod.fst ++ l ∧
      ((S.items f).filter (fun i => ty i = t) ≠ [] → (∀ e ∈ l, ¬ e.warns ty f t) →
        (S'.items f).filter (fun i => ty i = t) = (S.items f).filter (fun i => ty i = t)) := by
    intro hb
    obtain ⟨hg, l, a1, a2⟩ := exec_follows hb h.good hx
    exact ⟨⟨S.items.replay (l.map Prod.fst), fun i => (s'.heap i).frame⟩, l.map Prod.fst, ⟨hg, a2 _ h.stocked, fun _ => rfl⟩,
      by rw [a1, List.map_append], fun _ hl => replay_quiet _ _ hl⟩
  cases c with
  | removeItemAt g it =>
    rcases h.removeItemAt (f := g) (it := it) rfl with ⟨x, hr⟩ | ⟨m, hr⟩ | ⟨hff, i, rest, s2, hr, hi, -, -, -, b3, b4⟩
    · simp only [exec, hr, GS.discard, Res.st?, Option.some.injEq] at hx
      subst hx
      exact ⟨S, [], h, by simp, fun _ _ => rfl⟩
    · simp only [exec, hr, GS.discard, Res.st?, reduceCtorEq] at hx
    · simp only [exec, hr, GS.discard, Res.st?, Option.some.injEq] at hx
      subst hx
      refine ⟨_, _, b3, b4, fun _ hl => ?_⟩
      have hw := hl _ (.head _)
      simp only [Event.warns, not_and] at hw
      have him := (List.mem_filter.1 (List.mem_of_getElem? hi)).2
      simp only [decide_eq_true_eq] at him
      show ((S.items.put g _) f).filter _ = _
      simp only [Shelf.put]
      split
      · rename_i hfg
        subst hfg
        have hne : it.type ≠ t := by rw [← him]; exact hw rfl
        split
        · rw [List.filter_filter]
          apply List.filter_congr
          intro j _
          by_cases hj : ty j = t
          · simp [hj, Ne.symm hne]
          · simp [hj]
        · exact removeNth_other _ _ (by intro j hj; simp only [decide_eq_true_eq] at hj; simp [hj, hne]) _ _
      · rfl
  | graph c =>
    cases c with
    | emplaceFrame g p =>
      have hp := hc g p rfl
      rcases h.emplaceFrame (f := g) hp with ⟨x, hr⟩ | ⟨s2, hr, b⟩
      · rw [hr] at hx
        simp only [Res.st?, Option.some.injEq] at hx
        subst hx
        exact ⟨S, [], h, by simp, fun _ _ => rfl⟩
      · have hs2 : s' = s2 := by rw [hr] at hx; simpa [Res.st?] using hx.symm
        subst hs2
        cases hv : s.gs.g.vertexOf g with
        | some v => simp [exec, GS.exec, GS.emplaceFrame, hv, GS.discard, base] at hr
        | none =>
          refine ⟨_, [.frameAdded g], b, ?_, ?_⟩
          · simp only [exec, GS.exec, GS.emplaceFrame, hv, GS.discard, base, Res.ok.injEq, true_and] at hr
            subst hr
            simp [GS.addVertexN, GS.notify]
          · intro hne _
            have hgf : f ≠ g := by
              rintro rfl
              rw [h.stocked.absent f hv] at hne
              exact hne rfl
            show ((S.items.put g _) f).filter _ = _
            simp only [Shelf.put, if_neg hgf]
    | _ => exact hby trivial
  | _ => exact hby trivial

private theorem run_quiet {ty : ItemId → TypeIdx} (f : FrameId) (t : TypeIdx) (cs : List (Cmd E)) :
    (∀ f p, .graph (.emplaceFrame f p) ∈ cs → p.Sorted ty) → ∀ {s s' : EG E} {S : ItemSpec}, HSim ty s S → run cs s = some s' →
    ∃ (S' : ItemSpec) (l : List Event), HSim ty s' S' ∧ s'.gs.trace.map Prod.fst = s.gs.trace.map Prod.fst ++ l ∧
      ((S.items f).filter (fun i => ty i = t) ≠ [] → (∀ e ∈ l, ¬ e.warns ty f t) →
        (S'.items f).filter (fun i => ty i = t) = (S.items f).filter (fun i => ty i = t)) := by
  induction cs with
  | nil =>
    intro _ s s' S h hr
    simp only [run, Option.some.injEq] at hr
    subst hr
    exact ⟨S, [], h, by simp, fun _ _ => rfl⟩
  | cons c cs ih =>
    intro hcs s s' S h hr
    obtain ⟨s1, h1, h2⟩ := run_cons hr
    obtain ⟨S1, l1, a1, a2, a3⟩ := exec_quiet f t (fun f p e => hcs f p (e ▸ .head _)) h h1
    obtain ⟨S2, l2, b1, b2, b3⟩ := ih (fun f p e => hcs f p (.tail _ e)) a1 h2
    refine ⟨S2, l1 ++ l2, b1, by rw [b2, a2, List.append_assoc], fun hne hl => ?_⟩
    have h3 := a3 hne (fun e he => hl e (List.mem_append_left _ he))
    rw [b3 (by rw [h3]; exact hne) (fun e he => hl e (List.mem_append_right _ he)), h3]

/-- After every history of any calls, removal through iterators included, in which frames are made from properties that are sorted by
type, and after any further calls: if none of the events published meanwhile warns, every iterator is still good. The range for
the frame and the type is the same list, so every position in it points to the same item as before. -/
theorem C113_iterators_stay_valid (heap : ItemId → ItemObj) (cs cs' : List (Cmd E))
    (hcs : ∀ f p, .graph (.emplaceFrame f p) ∈ cs ++ cs' → p.Sorted (fun i => (heap i).type)) {s s' : EG E}
    (hs : run cs (init heap) = some s) (hs' : run cs' s = some s') {f : FrameId} {t : TypeIdx} {l : List ItemId}
    (hl : getItems f t s = .ok l s) :
    ∃ evs, s'.gs.trace.map Prod.fst = s.gs.trace.map Prod.fst ++ evs ∧
      ((∀ e ∈ evs, ¬ e.warns (fun i => (heap i).type) f t) →
        getItems f t s' = .ok l s' ∧ ∀ k : Nat, k < l.length → (getItem f t k s').val? = l[k]?) := by
  obtain ⟨S, -, h, -, -⟩ := run_quiet f t cs (fun f p e => hcs f p (List.mem_append_left _ e)) (HSim.init heap) hs
  obtain ⟨S', evs, h', hev, hq⟩ := run_quiet f t cs' (fun f p e => hcs f p (List.mem_append_right _ e)) h hs'
  refine ⟨evs, hev, fun hw => ?_⟩
  have hf : (s.gs.g.vertexOf f).isSome := by
    unfold getItems at hl
    cases hv : s.gs.g.vertexOf f with
    | none => simp [hv] at hl
    | some v => rfl
  have A := h.answers hf
  rw [A.items] at hl
  split at hl
  · cases hl
  rename_i hne
  simp only [Res.ok.injEq, and_true] at hl
  subst hl
  have he := hq hne hw
  have hf' : (s'.gs.g.vertexOf f).isSome := by
    cases hv : s'.gs.g.vertexOf f with
    | none =>
      rw [h'.stocked.absent f hv] at he
      exact absurd he.symm hne
    | some v => rfl
  have A' := h'.answers hf'
  refine ⟨?_, ?_⟩
  · rw [A'.items, he, if_neg hne]
  · intro k hk
    rw [A'.item, he, if_neg hne, if_neg (by omega), Int.toNat_natCast, List.getElem?_eq_getElem hk]
    rfl

/-- items 0 to 4 have type 7, the others type 8; all carry the frame name "a" at first -/
def C113_heap (i : ItemId) : ItemObj := ⟨if i < 5 then 7 else 8, "a"⟩

def C113_before : List (Cmd Int) :=
  [.graph (.addFrame "a"), .graph (.addFrame "b"), .addItemToFrame "a" 0, .addItemToFrame "a" 5, .addItemToFrame "a" 1,
   .addItemToFrame "a" 6]

/-- everything around the items of type 7 in frame a changes -/
example : ∃ s s' : EG Int, run C113_before (init C113_heap) = some s ∧
    run [.addItemToFrame "b" 2, .addItemToFrame "a" 7, .removeItemAt "a" ⟨"a", 8, 0⟩, .graph (.emplaceFrame "c" ⟨"", [(7, [3])]⟩)] s = some s' ∧
    getItems "a" 7 s = .ok [0, 1] s ∧ getItems "a" 7 s' = .ok [0, 1] s' ∧
    s'.gs.trace.map Prod.fst = s.gs.trace.map Prod.fst ++ [.itemAdded "b" 2, .itemAdded "a" 7, .itemRemoved "a" 5, .frameAdded "c"] :=
  ⟨_, _, rfl, rfl, rfl, rfl, rfl⟩

/-- the removal of a connected frame fails, but takes the items with it (see C44); the events warn -/
example : ∃ s s' : EG Int, run C113_before (init C113_heap) = some s ∧
    run [.graph (.addEdge "a" "b" 3), .graph (.removeFrame "a")] s = some s' ∧ (getItemsT "a" 7 s').val? = some [] ∧
    Event.itemRemoved "a" 0 ∈ s'.gs.trace.map Prod.fst ∧ (Event.itemRemoved "a" 0).warns (fun i => (C113_heap i).type) "a" 7 :=
  ⟨_, _, rfl, rfl, rfl, by decide +kernel, rfl, rfl⟩

/-- The iterators that are not safe: a removal of the last item of the type in the frame announces one item, and an iterator to any
other item of the type is dead as well. -/
theorem C113_one_warning_for_all : ∃ s s' : EG Int, run C113_before (init C113_heap) = some s ∧
    removeItemAt "a" ⟨"a", 7, 1⟩ s = .ok [] s' ∧ (getItem "a" 7 0 s).val? = some 0 ∧ (getItem "a" 7 0 s').val? = none ∧
    s'.gs.trace.map Prod.fst = s.gs.trace.map Prod.fst ++ [.itemRemoved "a" 1] := ⟨_, _, rfl, rfl, rfl, rfl, rfl⟩

/-- Without the assumption on the properties the events do not warn: a frame is made from a property in which items of type 8 are
listed under type 7; their removal is announced with their own type. -/
theorem C113_unsorted_fails : ∃ s s' : EG Int,
    run [.graph (.emplaceFrame "a" ⟨"", [(7, [5, 6])]⟩)] (init C113_heap) = some s ∧
    run [.removeItemAt "a" ⟨"a", 7, 0⟩] s = some s' ∧ getItems "a" 7 s = .ok [5, 6] s ∧ getItems "a" 7 s' = .ok [6] s' ∧
    s'.gs.trace.map Prod.fst = s.gs.trace.map Prod.fst ++ [.itemRemoved "a" 5] ∧
    ¬ (Event.itemRemoved "a" 5).warns (fun i => (C113_heap i).type) "a" 7 :=
  ⟨_, _, rfl, rfl, rfl, rfl, rfl, by rintro ⟨-, h⟩; revert h; decide⟩

end Verif
